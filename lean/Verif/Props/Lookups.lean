import Verif.Props.Circles
import Verif.Props.Fork
/-
C83: which points the queries accept. `point_in_mesh` and `get_path` probe eight points around the query, layer after
layer; `path` and `get_closest_point` search rings, all layers at once.
-/

namespace Polyanya

/-! ### A point inside the mesh -/

theorem numbered_split {K : Type} [Scalar K] {m : Mesh K} {j : Nat} {l : Layer K} (hl : m.layers[j]? = some l) :
    ∃ pre post, m.numbered = pre ++ (UInt8.ofNat j, l) :: post ∧
      ∀ il ∈ pre, ∃ j' < j, m.layers[j']? = some il.2 ∧ il.1 = UInt8.ofNat j' := by
  have hj := lt_of_getElem? hl
  have hn : m.numbered.length = m.layers.length := by simp [Mesh.numbered]
  have hget : ∀ k l', m.layers[k]? = some l' → m.numbered[k]? = some (UInt8.ofNat k, l') := by
    intro k l' h
    simp [Mesh.numbered, h]
  have hj' : j < m.numbered.length := by omega
  refine ⟨m.numbered.take j, m.numbered.drop (j + 1), ?_, ?_⟩
  · have h1 : m.numbered = m.numbered.take j ++ m.numbered.drop j := (List.take_append_drop j _).symm
    have h2 : m.numbered.drop j = m.numbered[j] :: m.numbered.drop (j + 1) := List.drop_eq_getElem_cons hj'
    have h3 : m.numbered[j] = (UInt8.ofNat j, l) := by
      have := hget j l hl
      rw [List.getElem?_eq_getElem hj'] at this
      simpa using this
    rw [h2, h3] at h1
    exact h1
  · intro il hil
    obtain ⟨k, hk, rfl⟩ := List.mem_iff_getElem.1 hil
    simp only [List.length_take] at hk
    have hkj : k < j := by omega
    have hkl : k < m.layers.length := by omega
    have := hget k _ (List.getElem?_eq_getElem hkl)
    refine ⟨k, hkj, ?_, ?_⟩
    · rw [List.getElem_take, List.getElem?_eq_getElem hkl]
      rw [List.getElem?_eq_getElem (by omega)] at this
      simp only [Option.some.injEq] at this
      rw [this]
    · rw [List.getElem_take]
      rw [List.getElem?_eq_getElem (by omega)] at this
      simp only [Option.some.injEq] at this
      rw [this]

theorem findFirst_split {α β : Type} {f : α → Res (Option β)} {pre post : List α} {a : α} {b : β}
    (h1 : ∀ x ∈ pre, f x = .ok none) (h2 : f a = .ok (some b)) : findFirst f (pre ++ a :: post) = .ok (some b) := by
  induction pre with
  | nil => simp only [List.nil_append, findFirst, h2, res_bind_ok]
  | cons x pre ih =>
    simp only [List.cons_append, findFirst, h1 x (List.mem_cons_self ..), res_bind_ok]
    exact ih (fun y hy => h1 y (List.mem_cons_of_mem _ hy))

/-- **C83, part.** On several layers: if the point lies in a polygon of layer `j`, and the eight probes around it, and
the point itself, miss all earlier layers, then `path` and `get_path` start from the same polygon (and
`point_in_mesh` is true). For the first layer there is nothing to check. -/
theorem C83_same_polygon_partial (bvh : Bvh ℝ) (m : Mesh ℝ) (hlen : m.layers.length ≤ 256)
    (hsz : m.Sized) (hsteps : 1 ≤ m.searchSteps) (pt : Vec2 ℝ) (j : Nat) (l : Layer ℝ) (id : UInt32)
    (hl : m.layers[j]? = some l) (hid : l.locate bvh (pt - l.offset) = .ok id) (hne : id ≠ u32Max)
    (hmiss : ∀ j' < j, ∀ l', m.layers[j']? = some l' →
      ∀ d ∈ probeOffsets m.searchDelta, l'.locate bvh (pt - l'.offset + d) = .ok u32Max) :
    LookupsAgree m bvh pt ∧ m.pointInMesh bvh (Coords.onMesh pt) = .ok true ∧
      m.getPointLocation bvh (Coords.onMesh pt) = .ok (packId (UInt8.ofNat j) id) := by
  have hlt := locate_lt (hsz l (List.mem_of_getElem? hl)) hid hne
  have hsz' := hsz l (List.mem_of_getElem? hl)
  have hp : packId (UInt8.ofNat j) id ≠ u32Max := packId_ne_max _ _ (by omega)
  obtain ⟨pre, post, hnum, hpre⟩ := numbered_split hl
  have hz : ∀ o : Vec2 ℝ, pt - o + (⟨Scalar.lit 0 0, Scalar.lit 0 0⟩ : Vec2 ℝ) = pt - o := by
    intro o; apply Vec2.ext' <;> simp
  have hloc : m.getPointLocation bvh (Coords.onMesh pt) = .ok (packId (UInt8.ofNat j) id) := by
    have h1 : l.getPointLocation bvh (pt - l.offset) m.searchDelta = .ok (some id) := by
      unfold Layer.getPointLocation probeOffsets
      simp only [findFirst, hz, hid, res_bind_ok, ne_eq, hne, not_false_eq_true, if_true]
    unfold Mesh.getPointLocation
    simp only [Coords.onMesh, hnum]
    rw [findFirst_split (b := packId (UInt8.ofNat j) id)]
    · rfl
    · intro il hil
      obtain ⟨j', hj', hl', -⟩ := hpre il hil
      have h0 : il.2.getPointLocation bvh (pt - il.2.offset) m.searchDelta = .ok none := by
        unfold Layer.getPointLocation
        rw [findFirst_none]
        intro d hd
        simp [hmiss j' hj' il.2 hl' d hd, res_bind_ok]
      simp only [Mesh.locationInLayer, h0, res_bind_ok, Option.map_none, Option.filter_none]
    · simp only [Mesh.locationInLayer, h1, res_bind_ok, Option.map_some, Option.filter_some, bne_iff_ne, ne_eq, hp,
        not_false_eq_true, if_true]
  refine ⟨⟨_, hloc, .inl ⟨hp, ⟨pt - l.offset + l.offset, some (UInt8.ofNat j), packId (UInt8.ofNat j) id⟩, ?_, rfl⟩⟩,
    ?_, hloc⟩
  · unfold Mesh.getClosestPoint Mesh.closestLoop
    obtain ⟨n, hn⟩ : ∃ n, m.searchSteps = n + 1 := ⟨m.searchSteps - 1, by omega⟩
    simp only [Coords.onMesh, hn, List.range_succ_eq_map, findFirst]
    rw [hnum, findFirst_split
      (b := (⟨pt - l.offset + l.offset, some (UInt8.ofNat j), packId (UInt8.ofNat j) id⟩ : Coords ℝ))]
    · rfl
    · intro il hil
      obtain ⟨j', hj', hl', -⟩ := hpre il hil
      have h0 := hmiss j' hj' il.2 hl' ⟨Scalar.lit 0 0, Scalar.lit 0 0⟩ (by simp [probeOffsets])
      rw [hz] at h0
      simp only [closestInLayer, Layer.closestInner, Nat.mul_zero, Nat.zero_add, List.range_one, findFirst,
        ringSample_zero, h0, res_bind_ok, ne_eq, not_true_eq_false, if_false, Option.map_none]
    · simp only [closestInLayer, Layer.closestInner, Nat.mul_zero, Nat.zero_add, List.range_one, findFirst,
        ringSample_zero, hid, res_bind_ok, ne_eq, hne, not_false_eq_true, if_true, Option.map_some]
  · unfold Mesh.pointInMesh
    rw [hloc]
    simp only [res_bind_ok, bne_iff_ne, ne_eq, hp, not_false_eq_true, Except.ok.injEq]

/-! ### One layer: a point near the mesh -/

theorem box_locate_out (bvh : Bvh ℝ) (pt : Vec2 ℝ) (h : 1 + 1 / 1000 ≤ pt.x) :
    boxLayer.locate bvh pt = .ok u32Max := by
  have hp : Polygon.new [0, 1, 2, 3] true ∈ boxLayer.polygons := by simp [boxLayer, Layer.mk']
  show boxLayer.scanPolygons pt 0 [Polygon.new [0, 1, 2, 3] true] = _
  rw [Layer.scanPolygons, box_out _ _ hp h, res_bind_ok, if_neg (by simp)]
  rfl

theorem box_numbered : boxMesh.numbered = [(0, boxLayer)] := rfl

theorem box_locations (bvh : Bvh ℝ) (d : Vec2 ℝ) (before after : List (Vec2 ℝ)) (pt : Vec2 ℝ)
    (he : probeOffsets (1 / 10 : ℝ) = before ++ d :: after)
    (h1 : ∀ d' ∈ before, boxLayer.locate bvh (pt + d') = .ok u32Max)
    (h2 : boxLayer.locate bvh (pt + d) = .ok 0) :
    boxMesh.getPointLocation bvh (Coords.onMesh pt) = .ok 0 := by
  have hd : boxMesh.searchDelta = 1 / 10 := by simp [boxMesh, Mesh.ofLayers]
  have e : pt - boxLayer.offset = pt := by apply Vec2.ext' <;> simp [boxLayer, Layer.mk', Vec2.zero]
  have h : boxLayer.getPointLocation bvh pt (1 / 10) = .ok (some 0) := by
    unfold Layer.getPointLocation
    rw [he]
    apply findFirst_split
    · intro d' hd'
      simp [h1 d' hd', res_bind_ok]
    · rw [h2, res_bind_ok, if_pos (by decide)]
  unfold Mesh.getPointLocation
  simp only [Coords.onMesh, box_numbered, findFirst, Mesh.locationInLayer, hd, e, h, res_bind_ok]
  rfl

/-- **C83 is false of the code**, on one layer: with the default settings, next to the right side of the unit square,
`point_in_mesh` answers yes, and `get_path` gives a path to the middle of the square; `path` gives none. -/
theorem C83_false (bvh : Bvh ℝ) (hb : bvh.InRange) (heap : Heap ℝ) (cfg : Cfg) :
    boxMesh.pointInMesh bvh (Coords.onMesh ⟨1 + 1 / 20, 1 / 2⟩) = .ok true ∧
    (∃ p, Resolves bvh heap cfg boxMesh (Mesh.getPath ⟨1 + 1 / 20, 1 / 2⟩ ⟨1 / 2, 1 / 2⟩) (some p)) ∧
    boxMesh.path bvh heap cfg (Coords.onMesh ⟨1 + 1 / 20, 1 / 2⟩) (Coords.onMesh ⟨1 / 2, 1 / 2⟩) = .ok none := by
  have l1 : boxMesh.getPointLocation bvh (Coords.onMesh ⟨1 + 1 / 20, 1 / 2⟩) = .ok 0 := by
    apply box_locations bvh ⟨-(1 / 10), 1 / 10⟩ [⟨0, 0⟩, ⟨1 / 10, 0⟩, ⟨1 / 10, 1 / 10⟩, ⟨0, 1 / 10⟩]
      [⟨-(1 / 10), 0⟩, ⟨-(1 / 10), -(1 / 10)⟩, ⟨0, -(1 / 10)⟩, ⟨1 / 10, -(1 / 10)⟩]
    · simp [probeOffsets]
    · intro d hd
      simp only [List.mem_cons, List.not_mem_nil, or_false] at hd
      apply box_locate_out
      rcases hd with rfl | rfl | rfl | rfl <;> norm_num
    · apply box_locate <;> norm_num
  have l2 : boxMesh.getPointLocation bvh (Coords.onMesh ⟨1 / 2, 1 / 2⟩) = .ok 0 := by
    apply box_locations bvh ⟨0, 0⟩ []
      [⟨1 / 10, 0⟩, ⟨1 / 10, 1 / 10⟩, ⟨0, 1 / 10⟩, ⟨-(1 / 10), 1 / 10⟩,
       ⟨-(1 / 10), 0⟩, ⟨-(1 / 10), -(1 / 10)⟩, ⟨0, -(1 / 10)⟩, ⟨1 / 10, -(1 / 10)⟩]
    · simp [probeOffsets]
    · simp
    · apply box_locate <;> norm_num
  refine ⟨?_, ?_, (C82_false bvh hb heap cfg).2.2.2.2.2⟩
  · unfold Mesh.pointInMesh
    rw [l1]
    rfl
  · have hi : boxMesh.islandsDifferAsync 0 0 = .ok false := rfl
    refine ⟨{ length := (⟨1 + 1 / 20, 1 / 2⟩ : Vec2 ℝ).distance ⟨1 / 2, 1 / 2⟩, path := [⟨1 / 2, 1 / 2⟩],
              pathWithLayers := if cfg.detailed then [(⟨1 / 2, 1 / 2⟩, layerOf 0)] else [] },
      .ready (f' := Mesh.getPath ⟨1 + 1 / 20, 1 / 2⟩ ⟨1 / 2, 1 / 2⟩) ?_⟩
    unfold FuturePath.poll
    simp only [Mesh.getPath, l1, l2, hi, res_bind_ok]
    rw [if_neg (by decide), if_neg (by decide)]
    simp

theorem box_out_left (pt : Vec2 ℝ) (p : Polygon) (hp : p ∈ boxLayer.polygons) (h : pt.x ≤ -(1 / 1000)) :
    boxLayer.pointInPolygon pt p = .ok false := by
  rw [box_edges pt p hp]
  have hn : ∀ a b : Vec2 ℝ, 0 ≤ a.x → 0 ≤ b.x → onSegment pt (a, b) = false := by
    intro a b ha hb
    by_contra hc
    rw [Bool.not_eq_false, C39_on_segment] at hc
    have := le_min ha hb
    linarith [hc.1]
  have s4 : side pt ((⟨0, 1⟩ : Vec2 ℝ), ⟨0, 0⟩) = .right := side_right.2 (by simp only [cross]; linarith)
  rw [box_edge pt (0, 1) _ (Vertex.new ⟨0, 0⟩ [0, u32Max]) (Vertex.new ⟨1, 0⟩ [0, u32Max]) (by decide) rfl rfl,
    if_neg (by simp [hn _ _ (show 0 ≤ (Vertex.new (⟨0, 0⟩ : Vec2 ℝ) [0, u32Max]).coords.x by simp [Vertex.new])
      (show 0 ≤ (Vertex.new (⟨1, 0⟩ : Vec2 ℝ) [0, u32Max]).coords.x by simp [Vertex.new])])]
  split
  · rfl
  rw [box_edge pt (1, 2) _ (Vertex.new ⟨1, 0⟩ [0, u32Max]) (Vertex.new ⟨1, 1⟩ [0, u32Max]) (by decide) rfl rfl,
    if_neg (by simp [hn _ _ (show 0 ≤ (Vertex.new (⟨1, 0⟩ : Vec2 ℝ) [0, u32Max]).coords.x by simp [Vertex.new])
      (show 0 ≤ (Vertex.new (⟨1, 1⟩ : Vec2 ℝ) [0, u32Max]).coords.x by simp [Vertex.new])])]
  split
  · rfl
  rw [box_edge pt (2, 3) _ (Vertex.new ⟨1, 1⟩ [0, u32Max]) (Vertex.new ⟨0, 1⟩ [0, u32Max]) (by decide) rfl rfl,
    if_neg (by simp [hn _ _ (show 0 ≤ (Vertex.new (⟨1, 1⟩ : Vec2 ℝ) [0, u32Max]).coords.x by simp [Vertex.new])
      (show 0 ≤ (Vertex.new (⟨0, 1⟩ : Vec2 ℝ) [0, u32Max]).coords.x by simp [Vertex.new])])]
  split
  · rfl
  rw [box_edge pt (3, 0) _ (Vertex.new ⟨0, 1⟩ [0, u32Max]) (Vertex.new ⟨0, 0⟩ [0, u32Max]) (by decide) rfl rfl]
  simp only [Vertex.new, s4]
  rw [hn _ _ (by norm_num) (by norm_num), if_neg (by simp), if_pos (by simp)]

/-- The unit square, searched in three steps. -/
noncomputable def wideMesh : Mesh ℝ := { boxMesh with searchSteps := 3 }

theorem wide_found (bvh : Bvh ℝ) (hb : bvh.InRange) (q : Vec2 ℝ) (s : Nat) (hs : s ≤ 2) (a : ℝ) (ha0 : 0 ≤ a)
    (ha1 : a + ringGap s ≤ ringEnd s)
    (hin : ∀ t, a ≤ t → t ≤ a + ringGap s → boxLayer.locate bvh (atAngle q (s * (1 / 10)) t) = .ok 0) :
    ∃ c, wideMesh.getClosestPoint bvh (Coords.onMesh q) = .ok (some c) ∧ c.polygonIndex = 0 := by
  have hd : wideMesh.searchDelta = 1 / 10 := by simp [wideMesh, boxMesh, Mesh.ofLayers]
  have e : (Coords.onMesh q).pos - boxLayer.offset = q := by
    apply Vec2.ext' <;> simp [Coords.onMesh, boxLayer, Layer.mk', Vec2.zero]
  have ht : ∃ r, wideMesh.getClosestPoint bvh (Coords.onMesh q) = .ok r := by
    refine ((C10_point_queries bvh wideMesh (Coords.onMesh q) hb ?_).2.2 ?_).1
    · intro l hl
      have : l = boxLayer := by simpa [wideMesh, boxMesh, Mesh.ofLayers] using hl
      subst this
      refine ⟨?_, by simp [boxLayer, Layer.mk'], by simp [boxLayer, Layer.mk']⟩
      intro p hp
      have : p = Polygon.new [0, 1, 2, 3] true := by simpa [boxLayer, Layer.mk'] using hp
      subst this
      simp [Polygon.new]
    · intro i hi
      simp [Coords.onMesh] at hi
  obtain ⟨r, hr⟩ := ht
  obtain ⟨c, rfl, -⟩ := C82_arc_partial bvh wideMesh _ r (by simp [wideMesh, boxMesh, Mesh.ofLayers])
    (by rw [hd]; norm_num) hr s 0 boxLayer (by show s < 3; omega) rfl
    (by intro i hi; simp [Coords.onMesh] at hi) a ha0 ha1 (by
      intro t h1 h2
      refine ⟨0, by decide, ?_⟩
      rw [e, hd]
      exact hin t h1 h2)
  refine ⟨c, hr, ?_⟩
  obtain ⟨s, i, j, l, p, k, -, -, hl, -, rfl, hk, -⟩ :=
    C16_closest_point bvh wideMesh _ c (by simp [wideMesh, boxMesh, Mesh.ofLayers]) hr
  obtain ⟨hj, rfl⟩ := box_layer (show boxMesh.layers[j.toNat]? = some l from hl)
  have hk' := lt_of_getElem? hk
  have : k = 0 := by simpa [boxLayer, Layer.mk'] using hk'
  subst this
  have : j = 0 := UInt8.toNat_inj.1 hj
  subst this
  rfl

/-- **C83 is false of the code**, the other way round: with three steps, from `(-0.15, 0.5)`, `path` gives a path to
the middle of the square, but `point_in_mesh` answers no, and `get_path` finds nothing. -/
theorem C83_false_far (bvh : Bvh ℝ) (hb : bvh.InRange) (heap : Heap ℝ) (cfg : Cfg) :
    (∃ p, wideMesh.path bvh heap cfg (Coords.onMesh ⟨-(3 / 20), 1 / 2⟩) (Coords.onMesh ⟨1 / 2, 1 / 2⟩) = .ok (some p)) ∧
    wideMesh.pointInMesh bvh (Coords.onMesh ⟨-(3 / 20), 1 / 2⟩) = .ok false ∧
    Resolves bvh heap cfg wideMesh (Mesh.getPath ⟨-(3 / 20), 1 / 2⟩ ⟨1 / 2, 1 / 2⟩) none := by
  have hpi := Real.pi_pos
  have hg : ringGap 2 = Real.pi / 15 := by unfold ringGap; push_cast; ring
  have hg1 : ringGap 1 = Real.pi / 10 := by unfold ringGap; push_cast; ring
  have hd : wideMesh.searchDelta = 1 / 10 := by simp [wideMesh, boxMesh, Mesh.ofLayers]
  obtain ⟨cL, hL, iL⟩ := wide_found bvh hb ⟨-(3 / 20), 1 / 2⟩ 2 (by omega) (6 * ringGap 2) (by rw [hg]; positivity)
    (by rw [hg]; unfold ringEnd; norm_num; linarith) (by
      intro t h1 h2
      rw [hg] at h1 h2
      have hs := Real.mul_le_sin (x := t) (by linarith) (by linarith)
      have hs' : 4 / 5 ≤ 2 / Real.pi * t := by
        rw [div_mul_eq_mul_div, le_div_iff₀ hpi]; linarith
      have hs1 := Real.sin_le_one t
      have hc1 := Real.cos_le_one t
      have hc2 := Real.neg_one_le_cos t
      apply box_locate <;> simp only [atAngle, Nat.cast_ofNat] <;> linarith)
  obtain ⟨cM, hM, iM⟩ := wide_found bvh hb ⟨1 / 2, 1 / 2⟩ 1 (by omega) 0 (le_refl _)
    (by rw [hg1]; unfold ringEnd; norm_num; linarith) (by
      intro t h1 h2
      have hs1 := Real.sin_le_one t
      have hs2 := Real.neg_one_le_sin t
      have hc1 := Real.cos_le_one t
      have hc2 := Real.neg_one_le_cos t
      apply box_locate <;> simp only [atAngle, Nat.cast_one] <;> linarith)
  have hno : wideMesh.getPointLocation bvh (Coords.onMesh ⟨-(3 / 20), 1 / 2⟩) = .ok u32Max := by
    have e : (⟨-(3 / 20), 1 / 2⟩ : Vec2 ℝ) - boxLayer.offset = ⟨-(3 / 20), 1 / 2⟩ := by
      apply Vec2.ext' <;> simp [boxLayer, Layer.mk', Vec2.zero]
    have h : boxLayer.getPointLocation bvh ⟨-(3 / 20), 1 / 2⟩ (1 / 10) = .ok none := by
      unfold Layer.getPointLocation
      rw [findFirst_none]
      intro d hd
      have hx : d.x ≤ 1 / 10 := by
        simp only [probeOffsets, real_lit, real_neg, List.mem_cons, List.not_mem_nil, or_false] at hd
        rcases hd with rfl | rfl | rfl | rfl | rfl | rfl | rfl | rfl | rfl <;> norm_num
      have hp : Polygon.new [0, 1, 2, 3] true ∈ boxLayer.polygons := by simp [boxLayer, Layer.mk']
      have : boxLayer.locate bvh (⟨-(3 / 20), 1 / 2⟩ + d) = .ok u32Max := by
        show boxLayer.scanPolygons _ 0 [Polygon.new [0, 1, 2, 3] true] = _
        rw [Layer.scanPolygons, box_out_left _ _ hp (by simp only [vadd_x]; linarith), res_bind_ok, if_neg (by simp)]
        rfl
      rw [this, res_bind_ok, if_neg (by simp)]
    have hnum : wideMesh.numbered = [(0, boxLayer)] := rfl
    unfold Mesh.getPointLocation
    simp only [Coords.onMesh, hnum, findFirst, Mesh.locationInLayer, hd, e, h, res_bind_ok]
    rfl
  refine ⟨?_, ?_, ?_⟩
  · have lL : Located wideMesh bvh (Coords.onMesh ⟨-(3 / 20), 1 / 2⟩) 0 := .inr ⟨rfl, cL, hL, iL.symm⟩
    have lM : Located wideMesh bvh (Coords.onMesh ⟨1 / 2, 1 / 2⟩) 0 := .inr ⟨rfl, cM, hM, iM.symm⟩
    obtain ⟨pwl, h⟩ := C08_same_polygon bvh heap cfg wideMesh _ _ [] 0 boxLayer (Polygon.new [0, 1, 2, 3] true)
      lL lM ⟨rfl, rfl⟩
    exact ⟨_, h⟩
  · unfold Mesh.pointInMesh
    rw [hno]
    rfl
  · refine .ready (f' := Mesh.getPath ⟨-(3 / 20), 1 / 2⟩ ⟨1 / 2, 1 / 2⟩) ?_
    unfold FuturePath.poll
    simp only [Mesh.getPath, hno, res_bind_ok, if_true]

/-! ### Two layers -/

/-- Two unit squares, the second one at (5, 0). -/
noncomputable def twoBoxes : Mesh ℝ := Mesh.ofLayers [boxLayer, { boxLayer with offset := ⟨5, 0⟩ }]

/-- Non-vacuity of `C83_same_polygon_partial`: the middle of the second square. -/
theorem C83_example (bvh : Bvh ℝ) : LookupsAgree twoBoxes bvh ⟨11 / 2, 1 / 2⟩ ∧
    twoBoxes.pointInMesh bvh (Coords.onMesh ⟨11 / 2, 1 / 2⟩) = .ok true := by
  have hd : twoBoxes.searchDelta = 1 / 10 := by simp [twoBoxes, Mesh.ofLayers]
  obtain ⟨h1, h2, -⟩ := C83_same_polygon_partial bvh twoBoxes (by simp [twoBoxes, Mesh.ofLayers])
    (by
      intro l hl
      simp only [twoBoxes, Mesh.ofLayers, List.mem_cons, List.not_mem_nil, or_false] at hl
      rcases hl with rfl | rfl <;> simp [boxLayer, Layer.mk'])
    (by simp [twoBoxes, Mesh.ofLayers]) ⟨11 / 2, 1 / 2⟩ 1 { boxLayer with offset := ⟨5, 0⟩ } 0 rfl
    (by
      show boxLayer.locate bvh _ = _
      apply box_locate <;> simp only [vsub_x, vsub_y] <;> norm_num)
    (by decide)
    (by
      intro j' hj' l' hl' d hd'
      have : j' = 0 := by omega
      subst this
      have : l' = boxLayer := by simpa [twoBoxes, Mesh.ofLayers] using hl'.symm
      subst this
      apply box_locate_out
      have hx : -(1 / 10) ≤ d.x := by
        simp only [probeOffsets, hd, real_lit, real_neg, List.mem_cons, List.not_mem_nil, or_false] at hd'
        rcases hd' with rfl | rfl | rfl | rfl | rfl | rfl | rfl | rfl | rfl <;> norm_num
      simp only [vadd_x, vsub_x, boxLayer, Layer.mk', Vec2.zero, real_lit]
      norm_num
      linarith)
  exact ⟨h1, h2⟩

/-- Two squares next to each other, on two layers that are not connected. -/
def apartMesh : Mesh Rat := Mesh.ofLayers [forkLayer 0, forkLayer 1]

/-- **C83 is false of the code**, on two layers: the point `(1.05, 0.5)` is in the square of the second layer, but only 0.05
from that of the first. `path` starts in the second layer, and reaches `(1.5, 0.5)`; `get_path` starts in the first
layer, and reports that there is no path. -/
theorem C83_false_layers : ∃ m', apartMesh.stitchAtVertices insSorter [] true = .ok m' ∧
    (∃ c, m'.getClosestPoint allBvh (Coords.onMesh (v2 (21/20) (1/2))) = .ok (some c) ∧ c.layer = some 1) ∧
    (∃ id, m'.getPointLocation allBvh (Coords.onMesh (v2 (21/20) (1/2))) = .ok id ∧ layerOf id = 0 ∧ id ≠ u32Max) ∧
    (∃ p, m'.path allBvh ratHeap ⟨false⟩ (Coords.onMesh (v2 (21/20) (1/2))) (Coords.onMesh (v2 (3/2) (1/2))) = .ok (some p)) ∧
    Resolves allBvh ratHeap ⟨false⟩ m' (Mesh.getPath (v2 (21/20) (1/2)) (v2 (3/2) (1/2))) none := by
  have h : resIs (apartMesh.stitchAtVertices insSorter [] true) (fun m' =>
      resIs (m'.getClosestPoint allBvh (Coords.onMesh (v2 (21/20) (1/2)))) (fun o => match o with
        | some c => c.layer == some 1 | none => false) &&
      resIs (m'.getPointLocation allBvh (Coords.onMesh (v2 (21/20) (1/2)))) (fun id => layerOf id == 0 && id != u32Max) &&
      resIs (m'.path allBvh ratHeap ⟨false⟩ (Coords.onMesh (v2 (21/20) (1/2))) (Coords.onMesh (v2 (3/2) (1/2))))
        (fun o => o.isSome) &&
      resIs ((Mesh.getPath (v2 (21/20) (1/2)) (v2 (3/2) (1/2))).poll allBvh ratHeap ⟨false⟩ m') (fun r =>
        (match r.1 with | .pending _ => true | _ => false) &&
        resIs (r.2.poll allBvh ratHeap ⟨false⟩ m') (fun r => match r.1 with | .ready none => true | _ => false))) = true := by
    decide +kernel
  obtain ⟨m', e, h⟩ := of_resIs h
  simp only [Bool.and_eq_true] at h
  obtain ⟨⟨⟨h1, h2⟩, h3⟩, h4⟩ := h
  refine ⟨m', e, ?_, ?_, ?_, ?_⟩
  · obtain ⟨o, e1, h1⟩ := of_resIs h1
    cases o with
    | none => simp at h1
    | some c => exact ⟨c, e1, by simpa using h1⟩
  · obtain ⟨id, e2, h2⟩ := of_resIs h2
    simp only [Bool.and_eq_true, beq_iff_eq, bne_iff_ne] at h2
    exact ⟨id, e2, h2.1, h2.2⟩
  · obtain ⟨o, e3, h3⟩ := of_resIs h3
    obtain ⟨p, rfl⟩ := Option.isSome_iff_exists.1 h3
    exact ⟨p, e3⟩
  · obtain ⟨⟨p1, f1⟩, e4, h4⟩ := of_resIs h4
    simp only [Bool.and_eq_true] at h4
    obtain ⟨h5, h6⟩ := h4
    obtain ⟨⟨p2, f2⟩, e6, h6⟩ := of_resIs h6
    cases p1 with
    | ready _ => simp at h5
    | pending w =>
      cases p2 with
      | pending _ => simp at h6
      | ready r =>
        cases r with
        | some _ => simp at h6
        | none => exact .pending e4 (.ready e6)

end Polyanya
