import Verif.Props.Geometry
import Mathlib.Analysis.SpecialFunctions.Trigonometric.Bounds
import Verif.Props.Rounding
import Verif.Props.Blocked
import Verif.Props.Paths
/-
C82: the directions in which `get_closest_point` looks, in exact arithmetic.

The documentation says the search goes "in circles" around the query. Ring number `s` is only the part of the
circle between the angles 0 and `2 pi s / (s + 1)`: half a circle for ring 1, two thirds for ring 2. With the
default settings (two steps) ring 1 is the only one, and a point is never moved to the left.
-/

namespace Polyanya

/-- The point at distance `r` from `o` in direction `t`, the angle measured from the `y` axis towards the `x` axis
(the code writes `let (x, y) = angle.sin_cos()`). -/
noncomputable def atAngle (o : Vec2 ℝ) (r t : ℝ) : Vec2 ℝ := ⟨o.x + r * Real.sin t, o.y + r * Real.cos t⟩

/-- The end of the part of ring `s` that is sampled. -/
noncomputable def ringEnd (s : Nat) : ℝ := 2 * Real.pi * s / (s + 1)

/-- The angle between two samples of ring `s`. -/
noncomputable def ringGap (s : Nat) : ℝ := 2 * Real.pi / (10 * (s + 1))

theorem ringSample_at (o : Vec2 ℝ) (d : ℝ) (s i : Nat) :
    ringSample o d s i = atAngle o (s * d) (i * ringGap s) := by
  have e : ((i : ℝ) * (2 * Real.pi)) / ((10 * (s + 1) : Nat) : ℝ) = i * ringGap s := by
    unfold ringGap; push_cast; ring
  apply Vec2.ext'
  · simp only [ringSample, atAngle, vadd_x, vsmul_x, real_ofNat, real_sin, real_mul, real_div, real_tau]
    rw [e]; ring
  · simp only [ringSample, atAngle, vadd_y, vsmul_y, real_ofNat, real_cos, real_mul, real_div, real_tau]
    rw [e]; ring

theorem atAngle_shift (p o : Vec2 ℝ) (r t : ℝ) : atAngle (p - o) r t + o = atAngle p r t := by
  apply Vec2.ext'
  · simp only [atAngle, vadd_x, vsub_x]; ring
  · simp only [atAngle, vadd_y, vsub_y]; ring

theorem ringGap_pos (s : Nat) : 0 < ringGap s := by
  unfold ringGap; have := Real.pi_pos; positivity

theorem ringEnd_eq (s : Nat) : ringEnd s = (10 * s : Nat) * ringGap s := by
  unfold ringEnd ringGap
  have : (s : ℝ) + 1 ≠ 0 := by positivity
  push_cast; field_simp

/-- **C82, part.** A point returned by `get_closest_point` lies on ring `s` for some `s < search_steps`, at an angle
between 0 and `2 pi s / (s + 1)`: never in the last `1 / (s + 1)` of the circle. -/
theorem C82_sector_partial (bvh : Bvh ℝ) (m : Mesh ℝ) (q c : Coords ℝ) (hlen : m.layers.length ≤ 256)
    (h : m.getClosestPoint bvh q = .ok (some c)) :
    ∃ (s : Nat) (t : ℝ), s < m.searchSteps ∧ 0 ≤ t ∧ t ≤ ringEnd s ∧
      c.pos = atAngle q.pos (s * m.searchDelta) t := by
  obtain ⟨s, i, j, l, p, k, h1, hi, -, -, rfl, -⟩ := C16_closest_point bvh m q c hlen h
  refine ⟨s, i * ringGap s, h1, mul_nonneg (Nat.cast_nonneg _) (ringGap_pos s).le, ?_, ?_⟩
  · rw [ringEnd_eq]
    exact mul_le_mul_of_nonneg_right (by exact_mod_cast hi) (ringGap_pos s).le
  · show ringSample (q.pos - l.offset) m.searchDelta s i + l.offset = _
    rw [ringSample_at, atAngle_shift]

/-- **C82, part.** With the default number of steps a point is never moved to the left. -/
theorem C82_never_left_partial (bvh : Bvh ℝ) (m : Mesh ℝ) (q c : Coords ℝ) (hlen : m.layers.length ≤ 256)
    (hd : 0 ≤ m.searchDelta) (hs : m.searchSteps ≤ 2) (h : m.getClosestPoint bvh q = .ok (some c)) :
    q.pos.x ≤ c.pos.x := by
  obtain ⟨s, t, h1, h2, h3, h4⟩ := C82_sector_partial bvh m q c hlen h
  rw [h4]
  show q.pos.x ≤ q.pos.x + s * m.searchDelta * Real.sin t
  have hs' : s = 0 ∨ s = 1 := by omega
  rcases hs' with rfl | rfl
  · simp
  · have : Real.sin t ≥ 0 := by
      apply Real.sin_nonneg_of_nonneg_of_le_pi h2
      unfold ringEnd at h3
      norm_num at h3 ⊢
      linarith
    have := mul_nonneg (mul_nonneg (Nat.cast_nonneg (α := ℝ) 1) hd) this
    linarith

/-- **C82, part.** In the sampled part of a ring nothing as wide as the distance between two samples is missed: if
the points of ring `s` at the angles from `a` to `a + 2 pi / (10 (s + 1))` are in an allowed layer, and these angles
lie between 0 and `2 pi s / (s + 1)`, a point is found, at most as far as ring `s`. -/
theorem C82_arc_partial (bvh : Bvh ℝ) (m : Mesh ℝ) (q : Coords ℝ) (r : Option (Coords ℝ))
    (hlen : m.layers.length ≤ 256) (hd : 0 ≤ m.searchDelta) (h : m.getClosestPoint bvh q = .ok r)
    (s j : Nat) (l : Layer ℝ) (hs : s < m.searchSteps) (hl : m.layers[j]? = some l) (ha : Allowed q j) (a : ℝ)
    (ha0 : 0 ≤ a) (ha1 : a + ringGap s ≤ ringEnd s)
    (hin : ∀ t, a ≤ t → t ≤ a + ringGap s → ∃ id, id ≠ u32Max ∧
      l.locate bvh (atAngle (q.pos - l.offset) (s * m.searchDelta) t) = .ok id) :
    ∃ c, r = some c ∧ dist2 q.pos c.pos ≤ s * m.searchDelta := by
  -- the first sample at or after `a`
  have hg := ringGap_pos s
  let i := ⌈a / ringGap s⌉₊
  have hi1 : a ≤ i * ringGap s := by
    have := Nat.le_ceil (a / ringGap s)
    rwa [div_le_iff₀ hg] at this
  have hi2 : i * ringGap s ≤ a + ringGap s := by
    have := (Nat.ceil_lt_add_one (div_nonneg ha0 hg.le)).le
    have h2 : (i : ℝ) * ringGap s ≤ (a / ringGap s + 1) * ringGap s :=
      mul_le_mul_of_nonneg_right this hg.le
    rwa [add_mul, div_mul_cancel₀ _ hg.ne', one_mul] at h2
  have hi3 : i ≤ 10 * s := by
    have := hi2.trans ha1
    rw [ringEnd_eq] at this
    exact_mod_cast le_of_mul_le_mul_right this hg
  obtain ⟨id, hid, hloc⟩ := hin _ hi1 hi2
  have key : ¬ SampleIn m bvh q l s i u32Max := by
    unfold SampleIn
    rw [ringSample_at, hloc]
    intro hh
    exact hid (by simpa using hh)
  cases r with
  | none => exact absurd (C16_none bvh m q h s j l hs hl ha i hi3) key
  | some c =>
    refine ⟨c, rfl, ?_⟩
    obtain ⟨s', h1, h2, h3⟩ := C16_distance bvh m q c hd hlen h
    rw [h2]
    have : s' ≤ s := by
      by_contra hcon
      exact key (h3 s (by omega) j l hl ha i hi3)
    exact mul_le_mul_of_nonneg_right (by exact_mod_cast this) hd

/-! ### The part that is not searched -/

/-- The unit square as a layer. -/
noncomputable def boxLayer : Layer ℝ := Layer.mk'
  [ Vertex.new ⟨0, 0⟩ [0, u32Max], Vertex.new ⟨1, 0⟩ [0, u32Max], Vertex.new ⟨1, 1⟩ [0, u32Max],
    Vertex.new ⟨0, 1⟩ [0, u32Max] ]
  [ Polygon.new [0, 1, 2, 3] true ]

/-- The unit square, with the default settings: `search_delta` is 0.1, `search_steps` is 2. -/
noncomputable def boxMesh : Mesh ℝ := Mesh.ofLayers [boxLayer]

theorem box_edges (pt : Vec2 ℝ) (p : Polygon) (hp : p ∈ boxLayer.polygons) :
    boxLayer.pointInPolygon pt p = boxLayer.pointInEdges pt [(0, 1), (1, 2), (2, 3), (3, 0)] := by
  have : p = Polygon.new [0, 1, 2, 3] true := by simpa [boxLayer, Layer.mk'] using hp
  subst this
  rfl

theorem box_edge (pt : Vec2 ℝ) (e : UInt32 × UInt32) (es : List (UInt32 × UInt32)) (a b : Vertex ℝ)
    (h : ¬ (boxLayer.vertices.length ≤ (max e.1 e.2).toNat))
    (ha : boxLayer.vertices[e.1.toNat]? = some a) (hb : boxLayer.vertices[e.2.toNat]? = some b) :
    boxLayer.pointInEdges pt (e :: es) =
      if side pt (a.coords, b.coords) = .edge && onSegment pt (a.coords, b.coords) then .ok true
      else if side pt (a.coords, b.coords) ≠ .left then .ok false
      else boxLayer.pointInEdges pt es := by
  rw [Layer.pointInEdges]
  simp only [h, if_false, idxUnchecked, ha, hb, res_bind_ok]

theorem box_in (pt : Vec2 ℝ) (p : Polygon) (hp : p ∈ boxLayer.polygons) (h1 : 1 / 10000 ≤ pt.x)
    (h2 : 1 / 10000 ≤ pt.y) (h3 : 1 / 10000 ≤ 1 - pt.x) (h4 : 1 / 10000 ≤ 1 - pt.y) :
    boxLayer.pointInPolygon pt p = .ok true := by
  rw [box_edges pt p hp]
  have s1 : side pt ((⟨0, 0⟩ : Vec2 ℝ), ⟨1, 0⟩) = .left := side_left.2 (by simp only [cross]; linarith)
  have s2 : side pt ((⟨1, 0⟩ : Vec2 ℝ), ⟨1, 1⟩) = .left := side_left.2 (by simp only [cross]; linarith)
  have s3 : side pt ((⟨1, 1⟩ : Vec2 ℝ), ⟨0, 1⟩) = .left := side_left.2 (by simp only [cross]; linarith)
  have s4 : side pt ((⟨0, 1⟩ : Vec2 ℝ), ⟨0, 0⟩) = .left := side_left.2 (by simp only [cross]; linarith)
  rw [box_edge pt (0, 1) _ (Vertex.new ⟨0, 0⟩ [0, u32Max]) (Vertex.new ⟨1, 0⟩ [0, u32Max]) (by decide) rfl rfl]
  simp only [Vertex.new, s1]
  rw [if_neg (by simp), if_neg (by simp)]
  rw [box_edge pt (1, 2) _ (Vertex.new ⟨1, 0⟩ [0, u32Max]) (Vertex.new ⟨1, 1⟩ [0, u32Max]) (by decide) rfl rfl]
  simp only [Vertex.new, s2]
  rw [if_neg (by simp), if_neg (by simp)]
  rw [box_edge pt (2, 3) _ (Vertex.new ⟨1, 1⟩ [0, u32Max]) (Vertex.new ⟨0, 1⟩ [0, u32Max]) (by decide) rfl rfl]
  simp only [Vertex.new, s3]
  rw [if_neg (by simp), if_neg (by simp)]
  rw [box_edge pt (3, 0) _ (Vertex.new ⟨0, 1⟩ [0, u32Max]) (Vertex.new ⟨0, 0⟩ [0, u32Max]) (by decide) rfl rfl]
  simp only [Vertex.new, s4]
  rw [if_neg (by simp), if_neg (by simp)]
  rfl

theorem box_out (pt : Vec2 ℝ) (p : Polygon) (hp : p ∈ boxLayer.polygons) (h : 1 + 1 / 1000 ≤ pt.x) :
    boxLayer.pointInPolygon pt p = .ok false := by
  rw [box_edges pt p hp]
  have hn : ∀ a b : Vec2 ℝ, a.x ≤ 1 → b.x ≤ 1 → onSegment pt (a, b) = false := by
    intro a b ha hb
    by_contra hc
    rw [Bool.not_eq_false, C39_on_segment] at hc
    have := max_le ha hb
    linarith [hc.2.1]
  have s2 : side pt ((⟨1, 0⟩ : Vec2 ℝ), ⟨1, 1⟩) = .right := side_right.2 (by simp only [cross]; linarith)
  rw [box_edge pt (0, 1) _ (Vertex.new ⟨0, 0⟩ [0, u32Max]) (Vertex.new ⟨1, 0⟩ [0, u32Max]) (by decide) rfl rfl,
    if_neg (by simp [hn _ _ (show (Vertex.new (⟨0, 0⟩ : Vec2 ℝ) [0, u32Max]).coords.x ≤ 1 by simp [Vertex.new])
      (show (Vertex.new (⟨1, 0⟩ : Vec2 ℝ) [0, u32Max]).coords.x ≤ 1 by simp [Vertex.new])])]
  split
  · rfl
  rw [box_edge pt (1, 2) _ (Vertex.new ⟨1, 0⟩ [0, u32Max]) (Vertex.new ⟨1, 1⟩ [0, u32Max]) (by decide) rfl rfl]
  simp only [Vertex.new, s2]
  rw [if_neg (by simp), if_pos (by simp)]

theorem box_layer {j : Nat} {l : Layer ℝ} (h : boxMesh.layers[j]? = some l) : j = 0 ∧ l = boxLayer := by
  have hj := lt_of_getElem? h
  have : j = 0 := by simpa [boxMesh, Mesh.ofLayers] using hj
  subst this
  exact ⟨rfl, by simpa [boxMesh, Mesh.ofLayers] using h.symm⟩

theorem box_total (bvh : Bvh ℝ) (hb : bvh.InRange) (q : Vec2 ℝ) :
    ∃ r, boxMesh.getClosestPoint bvh (Coords.onMesh q) = .ok r := by
  refine ((C10_point_queries bvh boxMesh (Coords.onMesh q) hb ?_).2.2 ?_).1
  · intro l hl
    have : l = boxLayer := by simpa [boxMesh, Mesh.ofLayers] using hl
    subst this
    refine ⟨?_, by simp [boxLayer, Layer.mk'], by simp [boxLayer, Layer.mk']⟩
    intro p hp
    have : p = Polygon.new [0, 1, 2, 3] true := by simpa [boxLayer, Layer.mk'] using hp
    subst this
    simp [Polygon.new]
  · intro i hi
    simp [Coords.onMesh] at hi

/-- A query whose ring 1 has a sample well inside the square is moved onto the square. -/
theorem box_found (bvh : Bvh ℝ) (hb : bvh.InRange) (q : Vec2 ℝ) (i : Nat) (hi : i ≤ 10)
    (h1 : 1 / 10000 ≤ (atAngle q (1 / 10) (i * ringGap 1)).x)
    (h2 : 1 / 10000 ≤ (atAngle q (1 / 10) (i * ringGap 1)).y)
    (h3 : 1 / 10000 ≤ 1 - (atAngle q (1 / 10) (i * ringGap 1)).x)
    (h4 : 1 / 10000 ≤ 1 - (atAngle q (1 / 10) (i * ringGap 1)).y) :
    ∃ c, boxMesh.getClosestPoint bvh (Coords.onMesh q) = .ok (some c) ∧ c.polygonIndex = 0 := by
  obtain ⟨r, hr⟩ := box_total bvh hb q
  rw [hr]
  cases r with
  | none =>
    exfalso
    have key := C16_none bvh boxMesh _ hr 1 0 boxLayer (by simp [boxMesh, Mesh.ofLayers]) rfl
      (by intro i hi; simp [Coords.onMesh] at hi) i (by omega)
    unfold SampleIn at key
    have e : (Coords.onMesh q).pos - boxLayer.offset = q := by
      apply Vec2.ext' <;> simp [Coords.onMesh, boxLayer, Layer.mk', Vec2.zero]
    have e2 : ((1 : Nat) : ℝ) * boxMesh.searchDelta = 1 / 10 := by
      simp [boxMesh, Mesh.ofLayers]
    rw [e, ringSample_at, e2] at key
    have hp : Polygon.new [0, 1, 2, 3] true ∈ boxLayer.polygons := by simp [boxLayer, Layer.mk']
    have := box_in _ _ hp h1 h2 h3 h4
    change boxLayer.scanPolygons _ 0 [Polygon.new [0, 1, 2, 3] true] = _ at key
    rw [Layer.scanPolygons, this] at key
    simp [res_bind_ok] at key
    exact absurd key (by decide)
  | some c =>
    refine ⟨c, rfl, ?_⟩
    obtain ⟨s, i, j, l, p, k, -, -, hl, -, rfl, hk, -⟩ :=
      C16_closest_point bvh boxMesh _ c (by simp [boxMesh, Mesh.ofLayers]) hr
    obtain ⟨hj, rfl⟩ := box_layer hl
    have hk' := lt_of_getElem? hk
    have : k = 0 := by simpa [boxLayer, Layer.mk'] using hk'
    subst this
    have : j = 0 := UInt8.toNat_inj.1 hj
    subst this
    rfl

/-- **C82 is false of the code.** The unit square with the default settings (0.1 and two steps). From `(-0.05, 0.5)`
the search finds a point of the square, and there is a path from there; from the mirror image `(1.05, 0.5)`, just as
far from the square, it finds none, and there is no path. -/
theorem C82_false (bvh : Bvh ℝ) (hb : bvh.InRange) (heap : Heap ℝ) (cfg : Cfg) :
    boxMesh.searchDelta = 1 / 10 ∧ boxMesh.searchSteps = 2 ∧
    (∃ c, boxMesh.getClosestPoint bvh (Coords.onMesh ⟨-(1 / 20), 1 / 2⟩) = .ok (some c)) ∧
    boxMesh.getClosestPoint bvh (Coords.onMesh ⟨1 + 1 / 20, 1 / 2⟩) = .ok none ∧
    (∃ p, boxMesh.path bvh heap cfg (Coords.onMesh ⟨-(1 / 20), 1 / 2⟩) (Coords.onMesh ⟨1 / 2, 1 / 2⟩)
      = .ok (some p)) ∧
    boxMesh.path bvh heap cfg (Coords.onMesh ⟨1 + 1 / 20, 1 / 2⟩) (Coords.onMesh ⟨1 / 2, 1 / 2⟩) = .ok none := by
  have hd : boxMesh.searchDelta = 1 / 10 := by simp [boxMesh, Mesh.ofLayers]
  have e5 : ((5 : Nat) : ℝ) * ringGap 1 = Real.pi / 2 := by unfold ringGap; push_cast; ring
  have eL := box_found bvh hb ⟨-(1 / 20), 1 / 2⟩ 5 (by omega)
    (by rw [e5]; simp only [atAngle, Real.sin_pi_div_two]; norm_num)
    (by rw [e5]; simp only [atAngle, Real.cos_pi_div_two]; norm_num)
    (by rw [e5]; simp only [atAngle, Real.sin_pi_div_two]; norm_num)
    (by rw [e5]; simp only [atAngle, Real.cos_pi_div_two]; norm_num)
  have eM := box_found bvh hb ⟨1 / 2, 1 / 2⟩ 5 (by omega)
    (by rw [e5]; simp only [atAngle, Real.sin_pi_div_two]; norm_num)
    (by rw [e5]; simp only [atAngle, Real.cos_pi_div_two]; norm_num)
    (by rw [e5]; simp only [atAngle, Real.sin_pi_div_two]; norm_num)
    (by rw [e5]; simp only [atAngle, Real.cos_pi_div_two]; norm_num)
  obtain ⟨cL, hL, iL⟩ := eL
  obtain ⟨cM, hM, iM⟩ := eM
  have eR : boxMesh.getClosestPoint bvh (Coords.onMesh ⟨1 + 1 / 20, 1 / 2⟩) = .ok none := by
    obtain ⟨r, hr⟩ := box_total bvh hb ⟨1 + 1 / 20, 1 / 2⟩
    cases r with
    | none => exact hr
    | some c =>
      exfalso
      have h1 := C82_never_left_partial bvh boxMesh _ c (by simp [boxMesh, Mesh.ofLayers])
        (by rw [hd]; norm_num) (by simp [boxMesh, Mesh.ofLayers]) hr
      obtain ⟨s, i, j, l, p, k, -, -, hl, -, rfl, hk, hin, -⟩ :=
        C16_closest_point bvh boxMesh _ c (by simp [boxMesh, Mesh.ofLayers]) hr
      obtain ⟨-, rfl⟩ := box_layer hl
      rw [box_out _ p (List.mem_of_getElem? hk)] at hin
      · simp at hin
      · have e : boxLayer.offset.x = 0 := by simp [boxLayer, Layer.mk', Vec2.zero]
        simp only [Coords.onMesh, vadd_x, e] at h1 ⊢
        linarith
  have lL : Located boxMesh bvh (Coords.onMesh ⟨-(1 / 20), 1 / 2⟩) 0 :=
    .inr ⟨rfl, cL, hL, iL.symm⟩
  have lM : Located boxMesh bvh (Coords.onMesh ⟨1 / 2, 1 / 2⟩) 0 := .inr ⟨rfl, cM, hM, iM.symm⟩
  refine ⟨hd, rfl, ⟨cL, hL⟩, eR, ?_, ?_⟩
  · obtain ⟨pwl, h⟩ := C08_same_polygon bvh heap cfg boxMesh _ _ [] 0 boxLayer (Polygon.new [0, 1, 2, 3] true)
      lL lM ⟨rfl, rfl⟩
    exact ⟨_, h⟩
  · unfold Mesh.path Mesh.pathOnLayers Mesh.endpointPolygon
    rw [if_neg (by simp [Coords.onMesh]), eR]
    rfl

theorem box_locate (bvh : Bvh ℝ) (pt : Vec2 ℝ) (h1 : 1 / 10000 ≤ pt.x)
    (h2 : 1 / 10000 ≤ pt.y) (h3 : 1 / 10000 ≤ 1 - pt.x) (h4 : 1 / 10000 ≤ 1 - pt.y) :
    boxLayer.locate bvh pt = .ok 0 := by
  have hp : Polygon.new [0, 1, 2, 3] true ∈ boxLayer.polygons := by simp [boxLayer, Layer.mk']
  show boxLayer.scanPolygons pt 0 [Polygon.new [0, 1, 2, 3] true] = _
  rw [Layer.scanPolygons, box_in _ _ hp h1 h2 h3 h4, res_bind_ok, if_pos rfl]
  rfl

/-- Non-vacuity of `C82_arc_partial`: from the middle of the left side, all points of ring 1 between the angles
`4 pi / 10` and `5 pi / 10` are in the square; the theorem gives a point within 0.1. -/
theorem C82_example (bvh : Bvh ℝ) (hb : bvh.InRange) :
    ∃ c, boxMesh.getClosestPoint bvh (Coords.onMesh ⟨0, 1 / 2⟩) = .ok (some c) ∧
      dist2 ⟨0, 1 / 2⟩ c.pos ≤ 1 / 10 := by
  obtain ⟨r, hr⟩ := box_total bvh hb ⟨0, 1 / 2⟩
  have hd : boxMesh.searchDelta = 1 / 10 := by simp [boxMesh, Mesh.ofLayers]
  have hg : ringGap 1 = Real.pi / 10 := by unfold ringGap; push_cast; ring
  have hpi := Real.pi_pos
  obtain ⟨c, rfl, hc⟩ := C82_arc_partial bvh boxMesh _ r (by simp [boxMesh, Mesh.ofLayers])
    (by rw [hd]; norm_num) hr 1 0 boxLayer (by simp [boxMesh, Mesh.ofLayers]) rfl
    (by intro i hi; simp [Coords.onMesh] at hi) (4 * ringGap 1) (by rw [hg]; positivity)
    (by rw [hg]; unfold ringEnd; norm_num; linarith) (by
      intro t h1 h2
      rw [hg] at h1 h2
      refine ⟨0, by decide, ?_⟩
      have hs := Real.mul_le_sin (x := t) (by linarith) (by linarith)
      have hs' : 4 / 5 ≤ 2 / Real.pi * t := by
        rw [div_mul_eq_mul_div, le_div_iff₀ hpi]; linarith
      have hs1 := Real.sin_le_one t
      have hc1 := Real.cos_le_one t
      have hc2 := Real.neg_one_le_cos t
      have e : (Coords.onMesh (⟨0, 1 / 2⟩ : Vec2 ℝ)).pos - boxLayer.offset = ⟨0, 1 / 2⟩ := by
        apply Vec2.ext' <;> simp [Coords.onMesh, boxLayer, Layer.mk', Vec2.zero]
      rw [e, hd]
      apply box_locate <;> simp only [atAngle, Nat.cast_one] <;> linarith)
  refine ⟨c, hr, ?_⟩
  rw [hd] at hc
  simpa [Coords.onMesh] using hc

/-! ### A layer the mesh does not have -/

/-- With a layer number the mesh does not have, `get_closest_point` and `get_closest_point_towards` panic, and so do
the path queries; `point_in_mesh` and `get_point_layer` answer "no" (`C15_out_of_range`). -/
theorem C15_out_of_range_panics {K : Type} [Scalar K] (bvh : Bvh K) (heap : Heap K) (cfg : Cfg) (m : Mesh K)
    (pos t : Vec2 K) (i : UInt8) (hi : m.layers.length ≤ i.toNat) (dst : Coords K) (blocked : List UInt8) :
    m.getClosestPoint bvh (Coords.onLayer pos i) = .error .panic ∧
    m.getClosestPointTowards bvh (Coords.onLayer pos i) t = .error .panic ∧
    m.pathOnLayers bvh heap cfg (Coords.onLayer pos i) dst blocked = .error .panic := by
  have hn : m.layers[i.toNat]? = none := List.getElem?_eq_none hi
  have h1 : m.getClosestPoint bvh (Coords.onLayer pos i) = .error .panic := by
    simp [Mesh.getClosestPoint, Mesh.closestLoop, Coords.onLayer, idx, hn, bind, Except.bind]
  refine ⟨h1, ?_, ?_⟩
  · simp [Mesh.getClosestPointTowards, Mesh.closestLoop, Coords.onLayer, idx, hn, bind, Except.bind]
  · unfold Mesh.pathOnLayers Mesh.endpointPolygon
    rw [if_neg (by simp [Coords.onLayer]), h1]
    rfl

end Polyanya
