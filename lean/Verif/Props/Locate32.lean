import Verif.Proofs.Locate32
import Verif.Props.Safety
import Verif.Props.Binary32
/-
C71: point location in binary32 is exact on a grid.
-/

namespace Polyanya

/-- Everything C71 assumes about the mesh and the index: coordinates are multiples of the unit `2^(k-149)`, a power of
two between 1/64 and `2^52`, at most 1024 units from the origin; the polygons are strictly convex and share edges. -/
structure Grid32 (k : Nat) (bvh : Bvh B32) (m : Mesh B32) : Prop where
  unit : 143 ≤ k ∧ k ≤ 201
  grid : m.OnGrid k 1024
  searchable : m.Searchable32
  conforming : Conforming m.exact
  complete : bvh.Complete

/-- C71: a point of the mesh with coordinates on the grid is found, in spite of the rounding of binary32: the answer of
`get_closest_point` is the point itself, and the polygon it names contains the point. -/
theorem C71_closest (k : Nat) (bvh : Bvh B32) (m : Mesh B32) (hm : Grid32 k bvh m) (q : Coords B32) (x : Vec2 ℚ)
    (hq : q.pos.OnGrid k 1024) (hx : q.pos.exact = x.fin) (hs : 1 ≤ m.searchSteps)
    (hin : ∃ j, Allowed q j ∧ InLayer m.exact j x) :
    ∃ c, m.getClosestPoint bvh q = .ok (some c) ∧ c.pos.exact = x.fin ∧ InPolygon m.exact c.polygonIndex x := by
  have hk : GoodUnit k := ⟨hm.unit.1, hm.unit.2⟩
  obtain ⟨j, hal, hj⟩ := hin
  obtain ⟨l, hl⟩ : ∃ l, m.layers[j]? = some l := by
    obtain ⟨id, hid, ps, ⟨l, p, hh, -⟩, -⟩ := hj
    have := hh.1
    rw [hid] at this
    simp only [Mesh.exact, List.getElem?_map, Option.map_eq_some_iff] at this
    obtain ⟨l', hl', -⟩ := this
    exact ⟨l', hl'⟩
  have hlayer : ∀ i, q.layer = some i → i.toNat < m.layers.length := by
    intro i hi
    rw [← hal i hi]
    exact (List.getElem?_eq_some_iff.1 hl).1
  obtain ⟨r, hr⟩ := (safe_getClosestPoint hm.complete.inRange (fun l hl => (hm.searchable.layer l hl).1) hlayer).ex
  obtain ⟨r0, h0, h1, -⟩ := locate_sample hk hm.complete hm.searchable hm.grid hm.conforming hq hx hl
  have hne := h1.2 hj
  cases r with
  | none =>
    exfalso
    have := closestLoop_none hr 0 j l (by omega) hl hal
    have := closestInner_none this 0 (by omega)
    rw [h0] at this
    exact hne (by simpa using this)
  | some c =>
    refine ⟨c, hr, ?_, closestPoint_f32 hk hm.complete hm.searchable hm.grid hm.conforming hq hx ⟨j, hal, hj⟩ hr⟩
    obtain ⟨step, j0, l0, np, r, hs', hl0, hal0, hi, rfl, hfirst⟩ := closestLoop_first hr
    have hstep : step = 0 := by
      by_contra hcon
      have := closestInner_none (hfirst 0 j l (by omega) hl hal) 0 (by omega)
      rw [h0] at this
      exact hne (by simpa using this)
    subst hstep
    obtain ⟨i, hi0, rfl, -⟩ := closestInner_first hi
    have hi0 : i = 0 := by omega
    subst hi0
    -- the sample plus the offset is the point
    obtain ⟨ho, -⟩ := hm.grid l0 (List.mem_of_getElem? hl0)
    obtain ⟨g1, e1⟩ := sub_onGrid hk hq ho
    obtain ⟨g2, e2⟩ := ringSample_f32 hk g1 hm.searchable.delta
    generalize ringSample (q.pos - l0.offset) m.searchDelta 0 0 = s at *
    obtain ⟨⟨zsx, bsx, hsx⟩, zsy, bsy, hsy⟩ := g2
    obtain ⟨⟨zox, box, hox⟩, zoy, boy, hoy⟩ := ho
    have hu := hk.upper
    have ax := B32.add_mult (k := k) (by omega) hsx hox (by omega) (by omega) (by omega)
    have ay := B32.add_mult (k := k) (by omega) hsy hoy (by omega) (by omega) (by omega)
    have eo : l0.offset.exact = (⟨(zox : ℚ) * 2 ^ k / 2 ^ 149, (zoy : ℚ) * 2 ^ k / 2 ^ 149⟩ : Vec2 ℚ).fin := by
      unfold Vec2.exact Vec2.fin; rw [hox, hoy]
    have es : s.exact = (⟨(zsx : ℚ) * 2 ^ k / 2 ^ 149, (zsy : ℚ) * 2 ^ k / 2 ^ 149⟩ : Vec2 ℚ).fin := by
      unfold Vec2.exact Vec2.fin; rw [hsx, hsy]
    have e3 := e2.trans e1
    rw [es, hx, eo, fin_sub] at e3
    have e4 := Vec2.fin_injective e3
    have ex : x = ⟨((zsx + zox : Int) : ℚ) * 2 ^ k / 2 ^ 149, ((zsy + zoy : Int) : ℚ) * 2 ^ k / 2 ^ 149⟩ := by
      rw [Vec2.ext_iff'] at e4 ⊢
      simp only at e4 ⊢
      push_cast
      constructor
      · linear_combination -e4.1
      · linear_combination -e4.2
    rw [ex]
    exact congrArg₂ Vec2.mk ax ay

/-- C71: the polygon in which a path query starts or ends contains the point. -/
theorem C71_path_ends (k : Nat) (bvh : Bvh B32) (heap : Heap B32) (cfg : Cfg) (m : Mesh B32) (hm : Grid32 k bvh m)
    (src dst : Coords B32) (x y : Vec2 ℚ) (blocked : List UInt8) (p : Path B32)
    (hsrc : src.pos.OnGrid k 1024) (hx : src.pos.exact = x.fin) (hs : src.polygonIndex = u32Max)
    (hxin : ∃ j, Allowed src j ∧ InLayer m.exact j x)
    (hdst : dst.pos.OnGrid k 1024) (hy : dst.pos.exact = y.fin) (hd : dst.polygonIndex = u32Max)
    (hyin : ∃ j, Allowed dst j ∧ InLayer m.exact j y)
    (h : m.pathOnLayers bvh heap cfg src dst blocked = .ok (some p)) :
    ∃ s e cs, InPolygon m.exact s x ∧ InPolygon m.exact e y ∧ Realises m blocked s e dst.pos p.path cs := by
  have hk : GoodUnit k := ⟨hm.unit.1, hm.unit.2⟩
  have hsized : m.Sized := fun l hl => (hm.searchable.layer l hl).1.sized
  obtain ⟨s, e, cs, h1, h2, h3⟩ := C02_path_has_corridor bvh heap cfg m hsized src dst blocked p h
  refine ⟨s, e, cs, ?_, ?_, h3⟩
  · rcases h1 with ⟨h1, -⟩ | ⟨-, c, hc, rfl⟩
    · exact absurd hs h1
    · exact closestPoint_f32 hk hm.complete hm.searchable hm.grid hm.conforming hsrc hx hxin hc
  · rcases h2 with ⟨h2, -⟩ | ⟨-, c, hc, rfl⟩
    · exact absurd hd h2
    · exact closestPoint_f32 hk hm.complete hm.searchable hm.grid hm.conforming hdst hy hyin hc

/-- C71: if only the point itself is probed (`set_search_steps(1)`), a point on the grid that is in no polygon is not
found. -/
theorem C71_outside (k : Nat) (bvh : Bvh B32) (m : Mesh B32) (hm : Grid32 k bvh m) (q : Coords B32) (x : Vec2 ℚ)
    (hq : q.pos.OnGrid k 1024) (hx : q.pos.exact = x.fin) (hs : m.searchSteps = 1)
    (hlayer : ∀ i, q.layer = some i → i.toNat < m.layers.length)
    (hout : ¬ ∃ j, Allowed q j ∧ InLayer m.exact j x) : m.getClosestPoint bvh q = .ok none := by
  have hk : GoodUnit k := ⟨hm.unit.1, hm.unit.2⟩
  obtain ⟨r, hr⟩ := (safe_getClosestPoint hm.complete.inRange (fun l hl => (hm.searchable.layer l hl).1) hlayer).ex
  cases r with
  | none => exact hr
  | some c =>
    exfalso
    obtain ⟨step, j0, l0, np, r, hs', hl0, hal0, hi, rfl, hfirst⟩ := closestLoop_first hr
    have hstep : step = 0 := by omega
    subst hstep
    obtain ⟨i, hi0, rfl, hloc, hne, -⟩ := closestInner_first hi
    have hi0 : i = 0 := by omega
    subst hi0
    obtain ⟨r', h1, h2, -⟩ := locate_sample hk hm.complete hm.searchable hm.grid hm.conforming hq hx hl0
    rw [hloc] at h1
    cases h1
    exact hout ⟨j0, hal0, h2.1 hne⟩

/-- C71: a point of the mesh on the grid is in the mesh according to `point_in_mesh`. -/
theorem C71_point_in_mesh (k : Nat) (bvh : Bvh B32) (m : Mesh B32) (hm : Grid32 k bvh m) (q : Coords B32) (x : Vec2 ℚ)
    (hq : q.pos.OnGrid k 1024) (hx : q.pos.exact = x.fin)
    (hin : ∃ j, Allowed q j ∧ InLayer m.exact j x) : m.pointInMesh bvh q = .ok true := by
  have hk : GoodUnit k := ⟨hm.unit.1, hm.unit.2⟩
  have hsized : m.Sized := fun l hl => (hm.searchable.layer l hl).1.sized
  obtain ⟨j, hal, hj⟩ := hin
  obtain ⟨l, hl⟩ : ∃ l, m.layers[j]? = some l := by
    obtain ⟨id, hid, ps, ⟨l, p, hh, -⟩, -⟩ := hj
    have := hh.1
    rw [hid] at this
    simp only [Mesh.exact, List.getElem?_map, Option.map_eq_some_iff] at this
    obtain ⟨l', hl', -⟩ := this
    exact ⟨l', hl'⟩
  have hjl := (List.getElem?_eq_some_iff.1 hl).1
  have hlen := hm.searchable.layers
  obtain ⟨cs, hcs⟩ := (safe_bind (safe_getPointLocations hm.complete.inRange (fun l hl => (hm.searchable.layer l hl).1) q)
    (fun is _ => safe_ok (is.map (fun p => ({ pos := q.pos, layer := some (layerOf p), polygonIndex := p } :
      Coords B32))))).ex
  have hcs' : m.getPointLayer bvh q = .ok cs := hcs
  rw [C15_point_in_mesh bvh m q cs hsized hcs']
  -- the layer is listed: the first probe is the point
  obtain ⟨ho, -⟩ := hm.grid l (List.mem_of_getElem? hl)
  obtain ⟨g1, e1⟩ := sub_onGrid hk hq ho
  have hz : ((Scalar.lit 0 0 : B32)).exact = Ext.fin 0 := by rw [B32.exact_zero, ext_zero]
  have hprobe : ((q.pos - l.offset) + ⟨Scalar.lit 0 0, Scalar.lit 0 0⟩ : Vec2 B32).OnGrid k 2048 ∧
      ((q.pos - l.offset) + ⟨Scalar.lit 0 0, Scalar.lit 0 0⟩ : Vec2 B32).exact = x.fin - l.offset.exact := by
    rw [← hx, ← e1]
    generalize q.pos - l.offset = s at *
    obtain ⟨⟨zsx, bsx, hsx⟩, zsy, bsy, hsy⟩ := g1
    have hu := hk.upper
    have ax := B32.add_mult (k := k) (by omega) hsx (zero_mult k hz) (by omega) (by omega) (by omega)
    have ay := B32.add_mult (k := k) (by omega) hsy (zero_mult k hz) (by omega) (by omega) (by omega)
    rw [add_zero] at ax ay
    exact ⟨⟨⟨zsx, bsx, ax⟩, zsy, bsy, ay⟩, congrArg₂ Vec2.mk (ax.trans hsx.symm) (ay.trans hsy.symm)⟩
  obtain ⟨r, h1, h2, -⟩ := locate_f32 hk hm.complete hm.searchable hm.grid hm.conforming hq hx hl hprobe.1 hprobe.2
  have hj' : (UInt8.ofNat j).toNat = j := UInt8.toNat_ofNat_of_lt' (show j < 256 by omega)
  have hmem := ((C15_point_layer bvh m q cs hsized hlen hcs').2.2 (UInt8.ofNat j) (packId (UInt8.ofNat j) r)).2
    ⟨fun i hi => by rw [hal i hi, UInt8.ofNat_toNat], l, r, by rw [hj']; exact hl, rfl,
      [], _, _, rfl, h1, h2.2 hj, by simp⟩
  cases cs with
  | nil => simp at hmem
  | cons c cs => rfl

/-! ### Example -/

/-- A number is on the grid, decided. -/
def onGridCheck (k n : Nat) : B32 → Bool
  | .fin _ m => decide (m % 2 ^ k = 0) && decide (m / 2 ^ k ≤ n)
  | _ => false

theorem onGrid_of_check {k n : Nat} {x : B32} (h : onGridCheck k n x = true) : x.OnGrid k n := by
  cases x with
  | nan => simp [onGridCheck] at h
  | inf a => simp [onGridCheck] at h
  | fin a m =>
    simp only [onGridCheck, Bool.and_eq_true, decide_eq_true_iff] at h
    obtain ⟨d, hd, hdn⟩ : ∃ d, m = d * 2 ^ k ∧ d ≤ n := by
      refine ⟨m / 2 ^ k, ?_, h.2⟩
      have := Nat.div_add_mod m (2 ^ k)
      rw [h.1, add_zero, mul_comm] at this
      exact this.symm
    refine ⟨(if a then -1 else 1) * (d : Int), ?_, ?_⟩
    · cases a <;> simpa using hdn
    · rw [hd]
      simp only [B32.exact]
      congr 2
      cases a <;> simp

/-- Non-vacuity: the L-shaped mesh of squares of side 8, on the grid of unit 1/4. -/
theorem grid32_example : Grid32 147 everyIndex (fMesh 8) := by
  refine ⟨⟨by norm_num, by norm_num⟩, ?_, ⟨by decide +kernel, ?_, ?_⟩, conforms_of_check (by decide +kernel),
    everyIndex_complete⟩
  · have h : (fMesh 8).layers.all (fun l => onGridCheck 147 1024 l.offset.x && onGridCheck 147 1024 l.offset.y &&
        l.vertices.all (fun v => onGridCheck 147 1024 v.coords.x && onGridCheck 147 1024 v.coords.y)) = true := by
      decide +kernel
    simp only [List.all_eq_true, Bool.and_eq_true] at h
    intro l hl
    obtain ⟨⟨h1, h2⟩, h3⟩ := h l hl
    exact ⟨⟨onGrid_of_check h1, onGrid_of_check h2⟩,
      fun v hv => ⟨onGrid_of_check (h3 v hv).1, onGrid_of_check (h3 v hv).2⟩⟩
  · intro l hl
    simp only [fMesh, Mesh.ofLayers, List.mem_singleton] at hl
    subst hl
    refine ⟨⟨?_, ?_, ?_⟩, ?_⟩
    · simp [Layer.mk', Layer.bakePolygonFinder]
    · intro p hp
      simp only [Layer.mk', Layer.bakePolygonFinder, List.mem_cons, List.not_mem_nil, or_false] at hp
      rcases hp with rfl | rfl | rfl <;> simp [Polygon.new]
    · intro boxes hb
      simp only [Layer.bakePolygonFinder, Option.some.injEq] at hb
      rw [← hb]; simp [Layer.bakePolygonFinder]
    · intro boxes hb
      have e : ∀ l : Layer B32, l.bakePolygonFinder.bakePolygonFinder.baked = l.bakePolygonFinder.baked := fun _ => rfl
      rw [e, hb]; rfl
  · have h : B32.lit 1 1 = .fin false (13421773 * 2 ^ 122) := by decide +kernel
    change B32.Finite (B32.lit 1 1)
    rw [h]
    refine ⟨⟨13421773, 122, by norm_num, rfl⟩, ?_⟩
    unfold B32.overflow
    calc 13421773 * 2 ^ 122 < 2 ^ 24 * 2 ^ 122 := Nat.mul_lt_mul_of_pos_right (by norm_num) (by positivity)
      _ = 2 ^ 146 := by rw [← pow_add]
      _ ≤ 2 ^ 277 := Nat.pow_le_pow_right (by norm_num) (by norm_num)

/-- The point (12.25, 4.75) is found in polygon 1. -/
theorem C71_example : ∃ c, (fMesh 8).getClosestPoint everyIndex (Coords.onMesh (f2 (49 / 4) (19 / 4))) = .ok (some c) ∧
    c.pos.exact = (⟨49 / 4, 19 / 4⟩ : Vec2 ℚ).fin ∧ InPolygon (fMesh 8).exact c.polygonIndex ⟨49 / 4, 19 / 4⟩ := by
  refine C71_closest 147 _ _ grid32_example _ _ ⟨onGrid_of_check (by decide +kernel), onGrid_of_check (by decide +kernel)⟩
    (by decide +kernel) (by decide +kernel) ⟨0, by simp [Allowed, Coords.onMesh], 1, by decide +kernel,
      inPolygon_of_check (by decide +kernel)⟩

/-! ### Not on a grid -/

/-- Two triangles with a common edge. -/
def gapMesh (steps : Nat) : Mesh B32 :=
  { Mesh.ofLayers [Layer.mk'
      [ Vertex.new (f2 (77 / 8) (503 / 2)) [0, 1, u32Max], Vertex.new (f2 (3843 / 8) (7483 / 8)) [1, 0, u32Max],
        Vertex.new (f2 9 936) [0, u32Max], Vertex.new (f2 480 251) [1, u32Max] ]
      [ Polygon.new [0, 1, 2] false, Polygon.new [1, 0, 3] false ]] with searchSteps := steps }

/-- Without the grid C71 is false: a point inside a mesh of two triangles, near their common edge, is in neither of them
according to the program, because the two computations of the side round differently. With `search_steps` 1 no point is
found, and with the default 2 another point. -/
theorem C71_gap_false : Conforming (gapMesh 2).exact ∧ ∃ (p : Vec2 B32) (x : Vec2 ℚ) (id : UInt32),
    p.exact = x.fin ∧ InPolygon (gapMesh 2).exact id x ∧
    (gapMesh 1).getClosestPoint everyIndex (Coords.onMesh p) = .ok none ∧
    ∃ c, (gapMesh 2).getClosestPoint everyIndex (Coords.onMesh p) = .ok (some c) ∧ c.pos ≠ p ∧
      ¬ InPolygon (gapMesh 2).exact c.polygonIndex x := by
  refine ⟨conforms_of_check (by decide +kernel), f2 (2817405 / 65536) (4914721 / 16384),
    ⟨2817405 / 65536, 4914721 / 16384⟩, 1, by decide +kernel, inPolygon_of_check (by decide +kernel), ?_, ?_⟩
  · decide +kernel
  · have h : resIs ((gapMesh 2).getClosestPoint everyIndex (Coords.onMesh (f2 (2817405 / 65536) (4914721 / 16384))))
      (fun r => match r with
        | some c => decide (c.pos ≠ f2 (2817405 / 65536) (4914721 / 16384) ∧ c.polygonIndex = 0)
        | none => false) = true := by decide +kernel
    obtain ⟨r, h1, h2⟩ := of_resIs h
    cases r with
    | none => simp at h2
    | some c =>
      refine ⟨c, h1, (of_decide_eq_true h2).1, ?_⟩
      rw [(of_decide_eq_true h2).2]
      obtain ⟨ps, hps⟩ : ∃ ps, ringOf (gapMesh 2).exact 0 = some ps := Option.isSome_iff_exists.1 (by decide +kernel)
      intro hin
      exact absurd ((inPolygon_iff_check hps).1 hin) (by decide +kernel)

end Polyanya
