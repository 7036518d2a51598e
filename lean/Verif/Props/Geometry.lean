import Verif.Proofs.Plane
import Verif.Props.Location
import Verif.Props.AsyncAgree
/-
Exact arithmetic: C39 (geometric primitives), the distance parts of C16 and C17, and the lookup agreement
used by C35.
-/

namespace Polyanya

/-! ### C39 -/

/-- The other side. -/
def EdgeSide.opposite : EdgeSide → EdgeSide
  | .left => .right
  | .right => .left
  | .edge => .edge

theorem cross_swap (a b p : Vec2 ℝ) : cross b a p = - cross a b p := by
  unfold cross; ring

/-- C39: what `side` means: left or right when twice the area of the triangle is at least 1e-4, on the
edge otherwise. -/
theorem C39_side (p a b : Vec2 ℝ) :
    (side p (a, b) = .left ↔ 1 / 10000 ≤ cross a b p) ∧
    (side p (a, b) = .right ↔ cross a b p ≤ -(1 / 10000)) ∧
    (side p (a, b) = .edge ↔ |cross a b p| < 1 / 10000) :=
  ⟨side_left, side_right, side_edge⟩

/-- C39: reversing the line exchanges left and right. -/
theorem C39_side_reversal (p a b : Vec2 ℝ) : side p (b, a) = (side p (a, b)).opposite := by
  cases h : side p (a, b) with
  | left =>
    rw [side_left] at h
    rw [EdgeSide.opposite, side_right, cross_swap]
    linarith
  | right =>
    rw [side_right] at h
    rw [EdgeSide.opposite, side_left, cross_swap]
    linarith
  | edge =>
    rw [side_edge] at h
    rw [EdgeSide.opposite, side_edge, cross_swap, abs_neg]
    exact h

/-- C39: mirroring twice gives the point back. -/
theorem C39_mirror_involution (p a b : Vec2 ℝ) (h : a ≠ b) : mirror (mirror p (a, b)) (a, b) = p := by
  have hk := one_div_mul_cancel (ne_normSq h)
  apply Vec2.ext'
  · rw [mirror_x, mirror_x, mirror_y]
    generalize 1 / ((b.x - a.x) * (b.x - a.x) + (b.y - a.y) * (b.y - a.y)) = k at hk
    linear_combination (4 * (b.x - a.x) * ((p.x - a.x) * (b.x - a.x) + (p.y - a.y) * (b.y - a.y)) * k) * hk
  · rw [mirror_y, mirror_x, mirror_y]
    generalize 1 / ((b.x - a.x) * (b.x - a.x) + (b.y - a.y) * (b.y - a.y)) = k at hk
    linear_combination (4 * (b.y - a.y) * ((p.x - a.x) * (b.x - a.x) + (p.y - a.y) * (b.y - a.y)) * k) * hk

/-- C39: mirroring preserves distances. -/
theorem C39_mirror_isometry (p q a b : Vec2 ℝ) (h : a ≠ b) :
    dist2 (mirror p (a, b)) (mirror q (a, b)) = dist2 p q := by
  have hk := one_div_mul_cancel (ne_normSq h)
  unfold dist2
  congr 1
  rw [mirror_x, mirror_x, mirror_y, mirror_y]
  generalize 1 / ((b.x - a.x) * (b.x - a.x) + (b.y - a.y) * (b.y - a.y)) = k at hk
  linear_combination (4 * ((p.x - q.x) * (b.x - a.x) + (p.y - q.y) * (b.y - a.y)) ^ 2 * k) * hk

/-- C39: mirroring fixes exactly the points of the line, and exchanges its sides. -/
theorem C39_mirror_fixes_line (p a b : Vec2 ℝ) (h : a ≠ b) :
    (mirror p (a, b) = p ↔ cross a b p = 0) ∧ cross a b (mirror p (a, b)) = - cross a b p := by
  refine ⟨⟨fun hp => ?_, fun h0 => ?_⟩, mirror_cross p a b⟩
  · have := mirror_cross p a b
    rw [hp] at this
    linarith
  · have hk := one_div_mul_cancel (ne_normSq h)
    unfold cross at h0
    apply Vec2.ext'
    · rw [mirror_x]
      generalize 1 / ((b.x - a.x) * (b.x - a.x) + (b.y - a.y) * (b.y - a.y)) = k at hk
      linear_combination 2 * (p.x - a.x) * hk + 2 * (b.y - a.y) * k * h0
    · rw [mirror_y]
      generalize 1 / ((b.x - a.x) * (b.x - a.x) + (b.y - a.y) * (b.y - a.y)) = k at hk
      linear_combination 2 * (p.y - a.y) * hk - 2 * (b.x - a.x) * k * h0

theorem fmin_le (x y : ℝ) : fmin x y = min x y := by
  unfold fmin
  split
  · rename_i h; rw [real_lt] at h; rw [min_eq_left h.le]
  · rename_i h; rw [real_lt, not_lt] at h; rw [min_eq_right h]

theorem fmax_eq (x y : ℝ) : fmax x y = max x y := by
  unfold fmax
  split
  · rename_i h; rw [real_lt] at h; rw [max_eq_left h.le]
  · rename_i h; rw [real_lt, not_lt] at h; rw [max_eq_right h]

/-- C39: what `on_segment` means: inside the bounding box of the segment, and twice the area of the triangle
below 1e-4. -/
theorem C39_on_segment (p a b : Vec2 ℝ) : onSegment p (a, b) = true ↔
    min a.x b.x ≤ p.x ∧ p.x ≤ max a.x b.x ∧ min a.y b.y ≤ p.y ∧ p.y ≤ max a.y b.y ∧
    |cross a b p| < 1 / 10000 := by
  rw [← side_edge]
  simp only [onSegment, inRange, Bool.and_eq_true, real_le, fmin_le, fmax_eq, beq_iff_eq]
  tauto

/-- C39: every point of the segment is on it, in particular both ends. -/
theorem C39_on_segment_points (a b x : Vec2 ℝ) (h : OnSeg a b x) : onSegment x (a, b) = true := by
  obtain ⟨u, h0, h1, rfl⟩ := h
  rw [C39_on_segment, cross_lerp]
  have key : ∀ s t : ℝ, min s t ≤ s + u * (t - s) ∧ s + u * (t - s) ≤ max s t := by
    intro s t
    constructor
    · rcases le_total s t with h | h
      · rw [min_eq_left h]; nlinarith
      · rw [min_eq_right h]; nlinarith
    · rcases le_total s t with h | h
      · rw [max_eq_right h]; nlinarith
      · rw [max_eq_left h]; nlinarith
  simp only [lerp, abs_zero]
  exact ⟨(key _ _).1, (key _ _).2, (key _ _).1, (key _ _).2, by norm_num⟩

theorem C39_on_segment_ends (a b : Vec2 ℝ) :
    onSegment a (a, b) = true ∧ onSegment b (a, b) = true :=
  ⟨C39_on_segment_points a b a ⟨0, le_refl _, zero_le_one, by apply Vec2.ext' <;> simp [lerp]⟩,
   C39_on_segment_points a b b ⟨1, zero_le_one, le_refl _, by apply Vec2.ext' <;> simp [lerp]⟩⟩

/-- Non-vacuity: the point (1, 1) is to the left of the x axis, and mirrored to (1, -1). -/
example : side (⟨1, 1⟩ : Vec2 ℝ) (⟨0, 0⟩, ⟨1, 0⟩) = .left ∧
    mirror (⟨1, 1⟩ : Vec2 ℝ) (⟨0, 0⟩, ⟨1, 0⟩) = ⟨1, -1⟩ := by
  refine ⟨side_left.2 (by norm_num [cross]), Vec2.ext' ?_ ?_⟩
  · rw [mirror_x]; norm_num
  · rw [mirror_y]; norm_num

/-! ### C16, C17 -/

theorem ringSample_dist (pt o : Vec2 ℝ) (delta : ℝ) (hd : 0 ≤ delta) (step i : Nat) :
    dist2 pt (ringSample (pt - o) delta step i + o) = step * delta := by
  unfold dist2
  simp only [ringSample, vadd_x, vadd_y, vsub_x, vsub_y, vsmul_x, vsmul_y, real_ofNat, real_sin,
    real_cos]
  generalize ((i : ℝ) *. Scalar.tau /. ((10 * (step + 1) : Nat) : ℝ)) = t
  have h := Real.sin_sq_add_cos_sq t
  have : (pt.x - (pt.x - o.x + Real.sin t * delta * step + o.x)) ^ 2 +
      (pt.y - (pt.y - o.y + Real.cos t * delta * step + o.y)) ^ 2 = (step * delta) ^ 2 := by
    linear_combination ((step : ℝ) * delta) ^ 2 * h
  rw [this, Real.sqrt_sq (by positivity)]

/-- C16, exact arithmetic: a point returned by `get_closest_point` is at distance exactly
`step * search_delta` from the query, where `step` is the number of the first ring that has a sample in an
allowed layer. -/
theorem C16_distance (bvh : Bvh ℝ) (m : Mesh ℝ) (q c : Coords ℝ) (hd : 0 ≤ m.searchDelta)
    (hlen : m.layers.length ≤ 256) (h : m.getClosestPoint bvh q = .ok (some c)) :
    ∃ step < m.searchSteps, dist2 q.pos c.pos = step * m.searchDelta ∧
      ∀ step' < step, ∀ j l, m.layers[j]? = some l → Allowed q j → ∀ i, i ≤ 10 * step' →
        SampleIn m bvh q l step' i u32Max := by
  obtain ⟨step, i, j, l, p, k, h1, -, -, -, rfl, -, -, -, h2⟩ := C16_closest_point bvh m q c hlen h
  exact ⟨step, h1, ringSample_dist q.pos l.offset m.searchDelta hd step i,
    fun step' hs j' l' hl' ha => h2 step' j' l' (.inl hs) hl' ha⟩

theorem ringSample_zero (pt : Vec2 ℝ) (delta : ℝ) (i : Nat) : ringSample pt delta 0 i = pt := by
  apply Vec2.ext' <;> simp [ringSample]

/-- C16, exact arithmetic: a point that lies in a polygon of an allowed layer is returned unchanged. -/
theorem C16_inside_unchanged (bvh : Bvh ℝ) (m : Mesh ℝ) (q : Coords ℝ) (r : Option (Coords ℝ))
    (hd : 0 ≤ m.searchDelta) (hlen : m.layers.length ≤ 256) (hsteps : 1 ≤ m.searchSteps)
    (h : m.getClosestPoint bvh q = .ok r)
    (hin : ∃ j l id, m.layers[j]? = some l ∧ Allowed q j ∧
      l.locate bvh (q.pos - l.offset) = .ok id ∧ id ≠ u32Max) :
    ∃ c, r = some c ∧ c.pos = q.pos := by
  obtain ⟨j, l, id, hj, ha, hid, hne⟩ := hin
  have key : ¬ SampleIn m bvh q l 0 0 u32Max := by
    intro hs
    unfold SampleIn at hs
    rw [ringSample_zero, hid] at hs
    exact hne (by simpa using hs)
  cases r with
  | none => exact absurd (C16_none bvh m q h 0 j l hsteps hj ha 0 (by omega)) key
  | some c =>
    refine ⟨c, rfl, ?_⟩
    obtain ⟨step, i, j', l', p, k, -, -, -, -, rfl, -, -, -, h2⟩ := C16_closest_point bvh m q c hlen h
    have hz : step = 0 := by
      by_contra hz
      exact key (h2 0 j l (.inl (by omega)) hj ha 0 (by omega))
    subst hz
    rw [ringSample_zero]
    apply Vec2.ext' <;> simp

/-- C17, exact arithmetic: a point returned by `get_closest_point_towards` is the query moved by exactly
`step * search_delta` along the unit vector towards the target. -/
theorem C17_distance (bvh : Bvh ℝ) (m : Mesh ℝ) (q c : Coords ℝ) (t : Vec2 ℝ) (hd : 0 ≤ m.searchDelta)
    (hlen : m.layers.length ≤ 256) (ht : q.pos ≠ t)
    (h : m.getClosestPointTowards bvh q t = .ok (some c)) :
    ∃ step < m.searchSteps, dist2 q.pos c.pos = step * m.searchDelta ∧
      c.pos = lerp q.pos t (step * m.searchDelta / dist2 q.pos t) ∧
      ∀ step' < step, ∀ j l, m.layers[j]? = some l → Allowed q j →
        l.locate bvh (towardsSample m q t l step') = .ok u32Max := by
  obtain ⟨step, j, l, p, k, h1, -, -, rfl, -, -, h2⟩ := C17_towards bvh m q c t hlen h
  have hpos : dist2 q.pos t ≠ 0 := by
    unfold dist2
    intro h0
    rw [Real.sqrt_eq_zero (by positivity)] at h0
    have := ne_normSq ht
    apply this
    linear_combination h0
  have hlerp : towardsSample m q t l step + l.offset =
      lerp q.pos t (step * m.searchDelta / dist2 q.pos t) := by
    have hl : (q.pos - t).length = dist2 q.pos t := by
      rw [vlength, dist2]; simp only [vsub_x, vsub_y, pow_two]
    apply Vec2.ext'
    · simp only [towardsSample, directionTo, lerp, vadd_x, vsub_x, vsmul_x, vneg_x, Vec2.normalize, hl,
        real_div, real_lit, real_ofNat]
      field_simp
      push_cast
      ring
    · simp only [towardsSample, directionTo, lerp, vadd_y, vsub_y, vsmul_y, vneg_y, Vec2.normalize, hl,
        real_div, real_lit, real_ofNat]
      field_simp
      push_cast
      ring
  refine ⟨step, h1, ?_, hlerp, fun step' hs j' l' hl' ha => h2 step' j' l' (.inl hs) hl' ha⟩
  simp only
  rw [hlerp]
  have hs : ((q.pos.x - (lerp q.pos t (step * m.searchDelta / dist2 q.pos t)).x) ^ 2 +
      (q.pos.y - (lerp q.pos t (step * m.searchDelta / dist2 q.pos t)).y) ^ 2) =
      (step * m.searchDelta) ^ 2 := by
    have hsq : dist2 q.pos t ^ 2 = (q.pos.x - t.x) ^ 2 + (q.pos.y - t.y) ^ 2 := by
      unfold dist2
      rw [Real.sq_sqrt (by positivity)]
    simp only [lerp]
    field_simp
    linear_combination -((step : ℝ) * m.searchDelta) ^ 2 * hsq
  unfold dist2 at hs ⊢
  rw [hs, Real.sqrt_sq (by positivity)]

/-! ### C35: the lookups agree for points in the mesh -/

/-- C35, exact arithmetic: on a single-layer mesh, for a point that lies in a polygon, the lookup of
`get_path` and the lookup of `path` agree. -/
theorem C35_lookups_agree_inside (bvh : Bvh ℝ) (m : Mesh ℝ) (l : Layer ℝ) (hl : m.layers = [l])
    (hsz : l.polygons.length ≤ 2 ^ 24 - 1) (hsteps : 1 ≤ m.searchSteps) (pt : Vec2 ℝ) (id : UInt32)
    (hid : l.locate bvh (pt - l.offset) = .ok id) (hne : id ≠ u32Max) : LookupsAgree m bvh pt := by
  have hlt := locate_lt hsz hid hne
  have hp0 : packId 0 id = id := by
    rw [← UInt32.toNat_inj, packId_toNat _ _ (by omega)]
    simp
  have hnum : m.numbered = [(0, l)] := by
    unfold Mesh.numbered; rw [hl]; rfl
  have hz : pt - l.offset + (⟨Scalar.lit 0 0, Scalar.lit 0 0⟩ : Vec2 ℝ) = pt - l.offset := by
    apply Vec2.ext' <;> simp
  refine ⟨id, ?_, .inl ⟨hne, ⟨pt - l.offset + l.offset, some 0, packId 0 id⟩, ?_, hp0⟩⟩
  · have h1 : l.getPointLocation bvh (pt - l.offset) m.searchDelta = .ok (some id) := by
      unfold Layer.getPointLocation probeOffsets
      simp only [findFirst, hz, hid, res_bind_ok, ne_eq, hne, not_false_eq_true, if_true]
    unfold Mesh.getPointLocation
    simp only [Coords.onMesh, hnum, findFirst, Mesh.locationInLayer, h1, res_bind_ok, Option.map_some, hp0,
      Option.filter_some, bne_iff_ne, ne_eq, hne, not_false_eq_true, if_true, Option.getD_some]
  · unfold Mesh.getClosestPoint Mesh.closestLoop
    obtain ⟨n, hn⟩ : ∃ n, m.searchSteps = n + 1 := ⟨m.searchSteps - 1, by omega⟩
    simp only [Coords.onMesh, hnum, hn, List.range_succ_eq_map, findFirst, closestInLayer,
      Layer.closestInner, Nat.mul_zero, Nat.zero_add, List.range_one, ringSample_zero, hid, res_bind_ok,
      ne_eq, hne, not_false_eq_true, if_true, Option.map_some]

/-! ### A concrete mesh in exact arithmetic -/

/-- One triangle. -/
noncomputable def realTri : Layer ℝ := Layer.mk'
  [Vertex.new ⟨0, 0⟩ [0, u32Max], Vertex.new ⟨1, 0⟩ [0, u32Max], Vertex.new ⟨0, 1⟩ [0, u32Max]]
  [Polygon.new [0, 1, 2] false]

noncomputable def realMesh : Mesh ℝ := Mesh.ofLayers [realTri]

theorem realTri_locate (bvh : Bvh ℝ) : realTri.locate bvh (⟨1/4, 1/4⟩ - realTri.offset) = .ok 0 := by
  have hz : (⟨1/4, 1/4⟩ : Vec2 ℝ) - realTri.offset = ⟨1/4, 1/4⟩ := by
    apply Vec2.ext' <;> simp [realTri, Layer.mk', Vec2.zero]
  rw [hz]
  have h1 : side (⟨1/4, 1/4⟩ : Vec2 ℝ) (⟨0, 0⟩, ⟨1, 0⟩) = .left := side_left.2 (by norm_num [cross])
  have h2 : side (⟨1/4, 1/4⟩ : Vec2 ℝ) (⟨1, 0⟩, ⟨0, 1⟩) = .left := side_left.2 (by norm_num [cross])
  have h3 : side (⟨1/4, 1/4⟩ : Vec2 ℝ) (⟨0, 1⟩, ⟨0, 0⟩) = .left := side_left.2 (by norm_num [cross])
  have e0 : realTri.vertices[(0 : UInt32).toNat]? = some (Vertex.new ⟨0, 0⟩ [0, u32Max]) := rfl
  have e1 : realTri.vertices[(1 : UInt32).toNat]? = some (Vertex.new ⟨1, 0⟩ [0, u32Max]) := rfl
  have e2 : realTri.vertices[(2 : UInt32).toNat]? = some (Vertex.new ⟨0, 1⟩ [0, u32Max]) := rfl
  have hl : realTri.vertices.length = 3 := rfl
  have hp : realTri.polygons = [Polygon.new [0, 1, 2] false] := rfl
  have hi : (Polygon.new [0, 1, 2] false).edgesIndex = .ok [(0, 1), (1, 2), (2, 0)] := rfl
  have hin : realTri.pointInPolygon ⟨1/4, 1/4⟩ (Polygon.new [0, 1, 2] false) = .ok true := by
    have m1 : ¬ 3 ≤ (max (0 : UInt32) 1).toNat := by decide
    have m2 : ¬ 3 ≤ (max (1 : UInt32) 2).toNat := by decide
    have m3 : ¬ 3 ≤ (max (2 : UInt32) 0).toNat := by decide
    unfold Layer.pointInPolygon
    rw [hi, res_bind_ok]
    simp only [Layer.pointInEdges, hl, m1, m2, m3, if_false, idxUnchecked, e0, e1, e2, res_bind_ok,
      Vertex.new, h1, h2, h3]
    simp
  show realTri.scanPolygons _ 0 realTri.polygons = _
  rw [hp]
  simp only [Layer.scanPolygons, hin, res_bind_ok, if_true]
  rfl

/-- Non-vacuity of C16 and C35 in exact arithmetic: the point (1/4, 1/4) of the triangle. -/
example (bvh : Bvh ℝ) : LookupsAgree realMesh bvh ⟨1/4, 1/4⟩ :=
  C35_lookups_agree_inside bvh realMesh realTri rfl (by decide) (by decide) _ 0 (realTri_locate bvh)
    (by decide)

end Polyanya
