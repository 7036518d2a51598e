import Verif.Props.Circles
import Verif.Props.LayerClosest
/-
C85: how far the closest point methods look, in exact arithmetic. The documentation of all four says: up to
`delta * steps`. Only `Layer::get_closest_point` looks that far; the other three stop one step before.
-/

namespace Polyanya

/-- **C85, part.** No point found by the mesh methods, or by `Layer::get_closest_point_towards`, is further than
`delta * (steps - 1)`; none found by `Layer::get_closest_point` is further than `delta * steps`. -/
theorem C85_reach_partial (bvh : Bvh ℝ) (m : Mesh ℝ) (q : Coords ℝ) (t : Vec2 ℝ) (hlen : m.layers.length ≤ 256)
    (hd : 0 ≤ m.searchDelta) (ht : q.pos ≠ t) (l : Layer ℝ) (pt : Vec2 ℝ) (hpt : pt ≠ t) (delta : ℝ) (hdelta : 0 ≤ delta)
    (steps : Nat) :
    (∀ c, m.getClosestPoint bvh q = .ok (some c) → dist2 q.pos c.pos + m.searchDelta ≤ m.searchDelta * m.searchSteps) ∧
    (∀ c, m.getClosestPointTowards bvh q t = .ok (some c) →
      dist2 q.pos c.pos + m.searchDelta ≤ m.searchDelta * m.searchSteps) ∧
    (∀ c, l.getClosestPointTowards bvh pt delta steps t = .ok (some c) → dist2 pt c + delta ≤ delta * steps) ∧
    (∀ c, l.getClosestPoint bvh pt delta steps = .ok (some c) → dist2 pt c ≤ delta * steps) := by
  have le : ∀ {s n : Nat} {x d : ℝ}, s < n → 0 ≤ d → x = s * d → x + d ≤ d * n := by
    intro s n x d hs hd hx
    have : (s : ℝ) + 1 ≤ n := by exact_mod_cast hs
    nlinarith
  refine ⟨fun c h => ?_, fun c h => ?_, fun c h => ?_, fun c h => ?_⟩
  · obtain ⟨s, hs, h1, -⟩ := C16_distance bvh m q c hd hlen h
    exact le hs hd h1
  · obtain ⟨s, hs, h1, -⟩ := C17_distance bvh m q c t hd hlen ht h
    exact le hs hd h1
  · obtain ⟨s, k, p, hs, rfl, -⟩ := C60_towards bvh l pt c t delta steps h
    refine le hs hdelta ?_
    have hpos : dist2 pt t ≠ 0 := by
      unfold dist2
      intro h0
      rw [Real.sqrt_eq_zero (by positivity)] at h0
      exact ne_normSq hpt (by linear_combination h0)
    have hl : (pt - t).length = dist2 pt t := by
      rw [vlength, dist2]; simp only [vsub_x, vsub_y, pow_two]
    have hsq : dist2 pt t ^ 2 = (pt.x - t.x) ^ 2 + (pt.y - t.y) ^ 2 := by
      unfold dist2
      rw [Real.sq_sqrt (by positivity)]
    conv_lhs => unfold dist2
    rw [show (pt.x - (pt + ((directionTo pt t).smul delta).smul (Scalar.ofNat s)).x) ^ 2 +
        (pt.y - (pt + ((directionTo pt t).smul delta).smul (Scalar.ofNat s)).y) ^ 2 = (s * delta) ^ 2 from ?_,
      Real.sqrt_sq (by positivity)]
    simp only [directionTo, vadd_x, vadd_y, vsub_x, vsub_y, vsmul_x, vsmul_y, vneg_x, vneg_y, Vec2.normalize, hl,
        real_div, real_lit, real_ofNat]
    field_simp
    push_cast
    linear_combination -((s : ℝ) * delta) ^ 2 * hsq
  · obtain ⟨s, hs, h1, -⟩ := C60_distance bvh l pt c delta steps hdelta h
    have : (s : ℝ) ≤ steps := by exact_mod_cast hs
    rw [h1, mul_comm]
    exact mul_le_mul_of_nonneg_left this hdelta

theorem box_below (pt : Vec2 ℝ) (p : Polygon) (hp : p ∈ boxLayer.polygons) (h : pt.y ≤ -(1 / 1000)) :
    boxLayer.pointInPolygon pt p = .ok false := by
  rw [box_edges pt p hp]
  have hn : onSegment pt ((⟨0, 0⟩ : Vec2 ℝ), ⟨1, 0⟩) = false := by
    by_contra hc
    rw [Bool.not_eq_false, C39_on_segment] at hc
    have := hc.2.2.1
    simp at this
    linarith
  have s1 : side pt ((⟨0, 0⟩ : Vec2 ℝ), ⟨1, 0⟩) = .right := side_right.2 (by simp only [cross]; linarith)
  rw [box_edge pt (0, 1) _ (Vertex.new ⟨0, 0⟩ [0, u32Max]) (Vertex.new ⟨1, 0⟩ [0, u32Max]) (by decide) rfl rfl]
  simp only [Vertex.new, s1, hn]
  rw [if_neg (by simp), if_pos (by simp)]

theorem box_findable : boxLayer.Findable := by
  refine ⟨by simp [boxLayer, Layer.mk'], ?_, by simp [boxLayer, Layer.mk']⟩
  intro p hp
  have : p = Polygon.new [0, 1, 2, 3] true := by simpa [boxLayer, Layer.mk'] using hp
  subst this
  simp [Polygon.new]

/-- **C85 is false of the code.** The unit square with the default settings (0.1 and two steps, so a reach of 0.2). The
square is 0.15 north of `(0.5, -0.15)`; `Layer::get_closest_point` finds a point of it, but neither
`Mesh::get_closest_point` nor the methods that look towards the middle of the square do, and there is no path from there. -/
theorem C85_false (bvh : Bvh ℝ) (hb : bvh.InRange) (heap : Heap ℝ) (cfg : Cfg) :
    boxMesh.searchDelta = 1 / 10 ∧ boxMesh.searchSteps = 2 ∧
    (∃ c, boxLayer.getClosestPoint bvh ⟨1 / 2, -(3 / 20)⟩ (1 / 10) 2 = .ok (some c)) ∧
    boxMesh.getClosestPoint bvh (Coords.onMesh ⟨1 / 2, -(3 / 20)⟩) = .ok none ∧
    boxMesh.getClosestPointTowards bvh (Coords.onMesh ⟨1 / 2, -(3 / 20)⟩) ⟨1 / 2, 1 / 2⟩ = .ok none ∧
    boxLayer.getClosestPointTowards bvh ⟨1 / 2, -(3 / 20)⟩ (1 / 10) 2 ⟨1 / 2, 1 / 2⟩ = .ok none ∧
    boxMesh.path bvh heap cfg (Coords.onMesh ⟨1 / 2, -(3 / 20)⟩) (Coords.onMesh ⟨1 / 2, 1 / 2⟩) = .ok none := by
  have hd : boxMesh.searchDelta = 1 / 10 := by simp [boxMesh, Mesh.ofLayers]
  have hsteps : boxMesh.searchSteps = 2 := rfl
  have off : boxLayer.offset = ⟨0, 0⟩ := by
    apply Vec2.ext' <;> simp [boxLayer, Layer.mk', Vec2.zero]
  have ne : (⟨1 / 2, -(3 / 20)⟩ : Vec2 ℝ) ≠ ⟨1 / 2, 1 / 2⟩ := by
    intro h
    have := congrArg Vec2.y h
    norm_num at this
  have near : ∀ c : Vec2 ℝ, dist2 ⟨1 / 2, -(3 / 20)⟩ c ≤ 1 / 10 → c.y ≤ -(1 / 1000) := by
    intro c hc
    unfold dist2 at hc
    have := Real.sqrt_le_left (by norm_num) |>.1 hc
    simp only at this
    nlinarith [sq_nonneg ((1 : ℝ) / 2 - c.x)]
  have none1 : boxMesh.getClosestPoint bvh (Coords.onMesh ⟨1 / 2, -(3 / 20)⟩) = .ok none := by
    obtain ⟨r, hr⟩ := box_total bvh hb ⟨1 / 2, -(3 / 20)⟩
    cases r with
    | none => exact hr
    | some c =>
      exfalso
      have h1 := (C85_reach_partial bvh boxMesh _ ⟨1 / 2, 1 / 2⟩ (by simp [boxMesh, Mesh.ofLayers])
        (by rw [hd]; norm_num) ne boxLayer _ ne 0 le_rfl 0).1 c hr
      obtain ⟨s, i, j, l, p, k, -, -, hl, -, rfl, hk, hin, -⟩ :=
        C16_closest_point bvh boxMesh _ c (by simp [boxMesh, Mesh.ofLayers]) hr
      obtain ⟨-, rfl⟩ := box_layer hl
      rw [hd, hsteps] at h1
      have h2 := near _ (le_of_add_le_add_right (a := 1 / 10) (h1.trans (by norm_num)))
      rw [box_below _ p (List.mem_of_getElem? hk)] at hin
      · simp at hin
      · rw [off, vadd_y] at h2
        simp only [add_zero] at h2
        rw [off, hd]; exact h2
  refine ⟨hd, rfl, ?_, none1, ?_, ?_, ?_⟩
  · obtain ⟨r, hr⟩ := (C60_total bvh hb boxLayer box_findable ⟨1 / 2, -(3 / 20)⟩ ⟨1 / 2, -(3 / 20)⟩ (1 / 10) 2).1
    cases r with
    | some c => exact ⟨c, hr⟩
    | none =>
      have := C60_closest_none bvh boxLayer _ _ 2 hr 2 le_rfl 0 (by omega)
      rw [ringSample_at] at this
      rw [box_locate bvh] at this
      · exact absurd (Except.ok.inj this) (by decide)
      all_goals simp only [atAngle]; simp; norm_num
  · obtain ⟨r, hr⟩ := ((C10_point_queries bvh boxMesh (Coords.onMesh ⟨1 / 2, -(3 / 20)⟩) hb (by
      intro l hl
      have : l = boxLayer := by simpa [boxMesh, Mesh.ofLayers] using hl
      subst this
      exact ⟨box_findable.2, box_findable.1, box_findable.3⟩)).2.2 (by intro i hi; simp [Coords.onMesh] at hi)).2 ⟨1 / 2, 1 / 2⟩
    cases r with
    | none => exact hr
    | some c =>
      exfalso
      have h1 := (C85_reach_partial bvh boxMesh _ ⟨1 / 2, 1 / 2⟩ (by simp [boxMesh, Mesh.ofLayers])
        (by rw [hd]; norm_num) ne boxLayer _ ne 0 le_rfl 0).2.1 c hr
      obtain ⟨s, j, l, p, k, -, hl, -, rfl, hk, hin, -⟩ :=
        C17_towards bvh boxMesh _ c _ (by simp [boxMesh, Mesh.ofLayers]) hr
      obtain ⟨-, rfl⟩ := box_layer hl
      rw [hd, hsteps] at h1
      have h2 := near _ (le_of_add_le_add_right (a := 1 / 10) (h1.trans (by norm_num)))
      rw [box_below _ p (List.mem_of_getElem? hk)] at hin
      · simp at hin
      · rw [off, vadd_y] at h2
        simp only [add_zero] at h2
        exact h2
  · obtain ⟨r, hr⟩ := (C60_total bvh hb boxLayer box_findable ⟨1 / 2, -(3 / 20)⟩ ⟨1 / 2, 1 / 2⟩ (1 / 10) 2).2
    cases r with
    | none => exact hr
    | some c =>
      exfalso
      have h1 := (C85_reach_partial bvh boxMesh (Coords.onMesh ⟨1 / 2, -(3 / 20)⟩) ⟨1 / 2, 1 / 2⟩
        (by simp [boxMesh, Mesh.ofLayers]) (by rw [hd]; norm_num) ne boxLayer _ ne (1 / 10) (by norm_num) 2).2.2.1 c hr
      obtain ⟨s, k, p, -, rfl, hk, hin, -⟩ := C60_towards bvh boxLayer _ c _ _ _ hr
      have h2 := near _ (le_of_add_le_add_right (a := 1 / 10) (h1.trans (by norm_num)))
      rw [box_below _ p (List.mem_of_getElem? hk) h2] at hin
      simp at hin
  · unfold Mesh.path Mesh.pathOnLayers Mesh.endpointPolygon
    rw [if_neg (by simp [Coords.onMesh]), none1]
    rfl

end Polyanya
