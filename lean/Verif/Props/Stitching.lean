import Verif.Proofs.Stitch
/-
C19, C20, C22, C48: stitching layers and removing the stitches.
-/

namespace Polyanya

variable {K : Type} [Scalar K]

theorem mem_stitchList {target : Option UInt8} {s : StitchVertices} {x : Stitch} : x ∈ stitchList target s ↔
    ∃ e ∈ s, stitchesTarget target e.1 = true ∧ ∃ p ∈ e.2, x = ⟨e.1.1, e.1.2, p.1, p.2⟩ := by
  unfold stitchList
  simp only [List.mem_flatMap, List.mem_filter, List.mem_map]
  constructor
  · rintro ⟨e, ⟨h1, h2⟩, p, hp, rfl⟩; exact ⟨e, h1, h2, p, hp, rfl⟩
  · rintro ⟨e, h1, h2, p, hp, rfl⟩; exact ⟨e, ⟨h1, h2⟩, p, hp, rfl⟩

/-- Vertex `i` of layer `a` lists `id` once the layers are renumbered. -/
def Renumbered (m : Mesh K) (target : Option UInt8) (a i : Nat) (id : UInt32) : Prop :=
  (Lifted target a ∧ idLayer id = a ∧ Lists m a i (UInt32.ofNat (idPolygon id))) ∨ (¬ Lifted target a ∧ Lists m a i id)

theorem internals_spec {target : Option UInt8} {m : Mesh K} {s : StitchVertices} {oneWay : Bool} {sorter : Sorter}
    (hsort : sorter.Ok) (hm : m.layers.length ≤ 256)
    (hlift : ∀ a l, m.layers[a]? = some l → Lifted target a →
      ∀ v ∈ l.vertices, ∀ id ∈ v.polygons, id ≠ u32Max → id.toNat < 2 ^ 24 - 1)
    (hst : ∀ x ∈ stitchList target s, x.src ≠ x.dst ∧ HasVertex m x.src.toNat x.srcVertex ∧
      HasVertex m x.dst.toNat x.dstVertex)
    (hc : ∀ l ∈ m.layers, ∀ p ∈ l.polygons, ∀ v ∈ p.vertices, v.toNat < l.vertices.length)
    (hrefs : ∀ a i id, id ≠ u32Max → Renumbered m target a i id → ∃ l p, HasPolygon m id l p) :
    ∃ m1 m' : Mesh K, m.stitchInternals sorter target s oneWay = .ok m' ∧ SameShape m m' ∧
      (∀ a i id, id ≠ u32Max → (Lists m1 a i id ↔ Renumbered m target a i id)) ∧
      (∀ a i id, id ≠ u32Max → (Lists m' a i id ↔ Lists m1 a i id ∨
        ∃ x ∈ stitchList target s, StitchGives m1 oneWay x a i id)) ∧
      (∀ l ∈ m'.layers, ∀ v ∈ l.vertices, (v.isCorner = true ↔ u32Max ∈ v.polygons)) := by
  obtain ⟨m1, e1, hs1, hl1⟩ := liftAll_spec hm hlift
  obtain ⟨m2, e2, hs2, hl2⟩ := stitchAll_spec oneWay (ss := stitchList target s) (m := m1) (fun x hx => by
    obtain ⟨h1, h2, h3⟩ := hst x hx
    exact ⟨h1, hs1.symm.hasVertex h2, hs1.symm.hasVertex h3⟩)
  have hs := hs1.trans hs2
  have hr2 : m2.RefsInRange := by
    rw [refsInRange_iff]
    refine ⟨?_, hs.corners hc⟩
    intro a i id hid hne
    apply hs.symm.hasPolygon
    rw [hl2 a i id hne] at hid
    rcases hid with hid | ⟨x, -, ⟨-, -, -, hid⟩ | ⟨-, -, -, -, hid⟩⟩
    all_goals exact hrefs _ _ id hne ((hl1 _ _ id hne).1 hid)
  obtain ⟨m3, e3, hs3, hl3, hcor⟩ := reorder_lists hr2 hsort
  refine ⟨m1, m3, ?_, hs.trans hs3, hl1, ?_, hcor⟩
  · unfold Mesh.stitchInternals
    rw [e1, res_bind_ok, e2, res_bind_ok, e3]
  · intro a i id hid
    rw [hl3 a i id hid, hl2 a i id hid]

theorem lifted_none (a : Nat) : Lifted none a := fun _ h => nomatch h

theorem unstitched_lt {m : Mesh K} (hm : m.Unstitched) {a i : Nat} {id : UInt32} (h : Lists m a i id) (hne : id ≠ u32Max) :
    ∃ l, m.layers[a]? = some l ∧ id.toNat < l.polygons.length ∧ id.toNat < 2 ^ 24 - 1 := by
  obtain ⟨l, v, h1, h2, h3⟩ := h
  have hl := List.mem_of_getElem? h1
  have := hm.refs l hl v (List.mem_of_getElem? h2) id h3 hne
  have := hm.sized l hl
  exact ⟨l, h1, by assumption, by omega⟩

theorem ofNat_idPolygon_ne (id : UInt32) : UInt32.ofNat (idPolygon id) ≠ u32Max := by
  intro h
  have := congrArg UInt32.toNat h
  rw [ofNat_idPolygon_toNat] at this
  have hm : u32Max.toNat = 4294967295 := rfl
  have := idPolygon_lt id
  omega

/-- The links given by the pairs in a list of stitches. -/
theorem gives_iff_linked {m1 : Mesh K} {s : StitchVertices} {oneWay : Bool} {a i : Nat} {id : UInt32} :
    (∃ x ∈ stitchList none s, StitchGives m1 oneWay x a i id) ↔
      ∃ j, Linked s oneWay a i (idLayer id) j ∧ Lists m1 (idLayer id) j id := by
  constructor
  · rintro ⟨x, hx, hg⟩
    obtain ⟨e, he, -, p, hp, rfl⟩ := mem_stitchList.1 hx
    rcases hg with ⟨h1, h2, h3, h4⟩ | ⟨h0, h1, h2, h3, h4⟩
    · refine ⟨p.2, ⟨e, he, .inl ⟨h1, h3.symm, ?_⟩⟩, ?_⟩
      · simp only at h2; rw [← h2]; exact hp
      · simp only at h3 h4; rw [h3]; exact h4
    · refine ⟨p.1, ⟨e, he, .inr ⟨h0, h1, h3.symm, ?_⟩⟩, ?_⟩
      · simp only at h2; rw [← h2]; exact hp
      · simp only at h3 h4; rw [h3]; exact h4
  · rintro ⟨j, ⟨e, he, ⟨h1, h2, h3⟩ | ⟨h0, h1, h2, h3⟩⟩, hl⟩
    · exact ⟨⟨e.1.1, e.1.2, i, j⟩, mem_stitchList.2 ⟨e, he, rfl, (i, j), h3, rfl⟩,
        .inl ⟨h1, rfl, h2.symm, by simp only; rw [h2]; exact hl⟩⟩
    · exact ⟨⟨e.1.1, e.1.2, j, i⟩, mem_stitchList.2 ⟨e, he, rfl, (j, i), h3, rfl⟩,
        .inr ⟨h0, h1, rfl, h2.symm, by simp only; rw [h2]; exact hl⟩⟩

/-- **C20**: stitching unstitched layers at existing vertices of different layers succeeds; after it, a vertex lists
exactly its own polygons and those of the vertices it is linked to (`StitchedBy`), is a corner iff there is a gap
around it, and nothing else has changed. -/
theorem C20_stitch (m : Mesh K) (hm : m.Unstitched) (s : StitchVertices) (hs : StitchesExist m s) (oneWay : Bool)
    (sorter : Sorter) (hsort : sorter.Ok) :
    ∃ m', m.stitchAtVertices sorter s oneWay = .ok m' ∧ SameShape m m' ∧ StitchedBy m m' s oneWay ∧
      (∀ l ∈ m'.layers, ∀ v ∈ l.vertices, (v.isCorner = true ↔ u32Max ∈ v.polygons)) := by
  obtain ⟨m1, m', e, hsh, hl1, hl', hcor⟩ := internals_spec (target := none) (oneWay := oneWay) (s := s) hsort hm.layers
    (fun a l hl _ v hv id hid hne => by
      have hlm := List.mem_of_getElem? hl
      have := hm.refs l hlm v hv id hid hne
      have := hm.sized l hlm
      omega)
    (fun x hx => by
      obtain ⟨e, he, -, p, hp, rfl⟩ := mem_stitchList.1 hx
      exact ⟨(hs e he).1, (hs e he).2 p hp⟩)
    hm.vertices
    (fun a i id hne h => by
      rcases h with ⟨-, h1, h2⟩ | ⟨h, -⟩
      · obtain ⟨l, hl, hlt, -⟩ := unstitched_lt hm h2 (ofNat_idPolygon_ne id)
        rw [ofNat_idPolygon_toNat] at hlt
        exact ⟨l, _, by rw [h1]; exact hl, List.getElem?_eq_getElem hlt⟩
      · exact absurd (lifted_none a) h)
  refine ⟨m', e, hsh, ?_, hcor⟩
  intro a i id hid
  rw [hl' a i id hid, gives_iff_linked, hl1 a i id hid]
  have hr : ∀ b j, Renumbered m none b j id ↔ idLayer id = b ∧ Lists m b j (UInt32.ofNat (idPolygon id)) := by
    intro b j
    unfold Renumbered
    simp [lifted_none]
  rw [hr]
  apply or_congr Iff.rfl
  constructor
  · rintro ⟨j, h1, h2⟩
    exact ⟨j, h1, ((hr _ _).1 ((hl1 _ _ id hid).1 h2)).2⟩
  · rintro ⟨j, h1, h2⟩
    exact ⟨j, h1, (hl1 _ _ id hid).2 ((hr _ _).2 ⟨rfl, h2⟩)⟩

/-! ### Removing stitches -/

theorem ownId_spec {a : Nat} (ha : a < 256) {p id : UInt32} : ownId a p = some id ↔
    (p = u32Max ∧ id = u32Max) ∨ (p ≠ u32Max ∧ idLayer p = a ∧ idPolygon p = id.toNat) := by
  unfold ownId
  by_cases hp : p = u32Max
  · simp [hp, eq_comm]
  · rw [if_neg hp]
    have h1 : layerOf p = UInt8.ofNat a ↔ idLayer p = a := by
      rw [← UInt8.toNat_inj, layerOf_toNat, UInt8.toNat_ofNat_of_lt' (by show a < 2 ^ 8; omega)]
    by_cases hl : layerOf p = UInt8.ofNat a
    · rw [if_pos hl, Option.some.injEq, ← UInt32.toNat_inj, polygonOf_toNat]
      simp [hp, h1.1 hl]
    · rw [if_neg hl]
      simp [hp, mt h1.2 hl]

theorem mapNeighbours_same (f : List UInt32 → List UInt32) (l : Layer K) : SameButNeighbours l (l.mapNeighbours f) :=
  ⟨rfl, rfl, rfl, rfl, rfl, by simp [Layer.mapNeighbours, Function.comp_def]⟩

theorem sameShape_mapIdx {m : Mesh K} (f : Nat → List UInt32 → List UInt32) :
    SameShape m { m with layers := m.layers.mapIdx (fun i l => l.mapNeighbours (f i)) } := by
  refine ⟨rfl, List.forall₂_iff_get.2 ⟨by simp, ?_⟩⟩
  intro i h1 h2
  simp only [List.get_eq_getElem, List.getElem_mapIdx]
  exact mapNeighbours_same _ _

theorem lists_mapIdx {m : Mesh K} (f : Nat → List UInt32 → List UInt32) {a i : Nat} {id : UInt32} :
    Lists { m with layers := m.layers.mapIdx (fun i l => l.mapNeighbours (f i)) } a i id ↔
      ∃ l v, m.layers[a]? = some l ∧ l.vertices[i]? = some v ∧ id ∈ f a v.polygons := by
  unfold Lists
  simp only [List.getElem?_mapIdx, Option.map_eq_some_iff]
  constructor
  · rintro ⟨l', v', ⟨l, hl, rfl⟩, hv, hid⟩
    simp only [Layer.mapNeighbours, List.getElem?_map, Option.map_eq_some_iff] at hv
    obtain ⟨v, hv, rfl⟩ := hv
    exact ⟨l, v, hl, hv, hid⟩
  · rintro ⟨l, v, hl, hv, hid⟩
    refine ⟨_, { v with polygons := f a v.polygons }, ⟨l, hl, rfl⟩, ?_, hid⟩
    simp only [Layer.mapNeighbours, List.getElem?_map, hv, Option.map_some]

theorem removeStitches_lists {m : Mesh K} (hm : m.layers.length ≤ 256) {a i : Nat} {id : UInt32} (hid : id ≠ u32Max) :
    Lists m.removeStitches a i id ↔ ∃ x, x ≠ u32Max ∧ Lists m a i x ∧ idLayer x = a ∧ idPolygon x = id.toNat := by
  unfold Mesh.removeStitches
  rw [lists_mapIdx (f := fun i ps => ps.filterMap (ownId i))]
  simp only [List.mem_filterMap]
  constructor
  · rintro ⟨l, v, hl, hv, x, hx, h⟩
    rcases (ownId_spec (by have := lt_of_getElem? hl; omega)).1 h with ⟨-, h⟩ | ⟨h1, h2, h3⟩
    · exact absurd h hid
    · exact ⟨x, h1, ⟨l, v, hl, hv, hx⟩, h2, h3⟩
  · rintro ⟨x, hx, ⟨l, v, hl, hv, h⟩, h2, h3⟩
    exact ⟨l, v, hl, hv, x, h, (ownId_spec (by have := lt_of_getElem? hl; omega)).2 (.inr ⟨hx, h2, h3⟩)⟩

theorem removeStitches_shape (m : Mesh K) : SameShape m m.removeStitches :=
  sameShape_mapIdx (fun i ps => ps.filterMap (ownId i))

theorem idLayer_pack_lt {a : Nat} (ha : a < 256) {id : UInt32} (hid : id.toNat < 2 ^ 24 - 1) :
    ∃ x, x ≠ u32Max ∧ idLayer x = a ∧ idPolygon x = id.toNat := by
  obtain ⟨x, -, h1, h2, h3⟩ := liftId_spec ha hid
  exact ⟨x, h1, h2, h3⟩

/-- **C19**: stitching unstitched layers, and then removing all stitches, gives back the same mesh but for the order of
neighbours, the gaps and the corner flags: every vertex lists the polygons it listed before. -/
theorem C19_round_trip (m : Mesh K) (hm : m.Unstitched) (s : StitchVertices) (hs : StitchesExist m s) (oneWay : Bool)
    (sorter : Sorter) (hsort : sorter.Ok) :
    ∃ m', m.stitchAtVertices sorter s oneWay = .ok m' ∧ SameShape m m'.removeStitches ∧
      ∀ a i id, id ≠ u32Max → (Lists m'.removeStitches a i id ↔ Lists m a i id) := by
  obtain ⟨m', e, hsh, hl, -⟩ := C20_stitch m hm s hs oneWay sorter hsort
  have hlen : m'.layers.length ≤ 256 := by rw [← hsh.2.length_eq]; exact hm.layers
  refine ⟨m', e, hsh.trans (removeStitches_shape m'), ?_⟩
  intro a i id hid
  rw [removeStitches_lists hlen hid]
  constructor
  · rintro ⟨x, hx, h1, h2, h3⟩
    have h4 : UInt32.ofNat (idPolygon x) = id := UInt32.toNat_inj.1 (by rw [ofNat_idPolygon_toNat, h3])
    rcases (hl a i x hx).1 h1 with ⟨-, h⟩ | ⟨j, ⟨e, he, hlink⟩, -⟩
    · rw [h4] at h; exact h
    · exfalso
      have hne : e.1.1.toNat ≠ e.1.2.toNat := fun h => (hs e he).1 (UInt8.toNat_inj.1 h)
      rcases hlink with ⟨h5, h6, -⟩ | ⟨-, h5, h6, -⟩
      · exact hne (h5.trans (h2.symm.trans h6.symm))
      · exact hne (h6.trans (h2.trans h5.symm))
  · intro h
    obtain ⟨l, hla, -, hlt⟩ := unstitched_lt hm h hid
    obtain ⟨x, hx, h2, h3⟩ := idLayer_pack_lt (a := a) (by have := lt_of_getElem? hla; have := hm.layers; omega) hlt
    have h4 : UInt32.ofNat (idPolygon x) = id := UInt32.toNat_inj.1 (by rw [ofNat_idPolygon_toNat, h3])
    exact ⟨x, hx, (hl a i x hx).2 (.inl ⟨h2, by rw [h4]; exact h⟩), h2, h3⟩

/-! ### Removing and redoing the stitches of one layer -/

/-- **C22**: removing the stitches to layer `t` keeps, in order, the references that do not go between layer `t` and
another layer, and turns those of the vertices of layer `t` to its own polygons back to polygon numbers; nothing
else changes. -/
theorem C22_remove_to (m : Mesh K) (hm : m.layers.length ≤ 256) (t : UInt8) :
    m.removeStitchesTo t = { m with layers := (m.removeStitchesTo t).layers } ∧
    (m.removeStitchesTo t).layers.length = m.layers.length ∧
    ∀ (a : Nat) (l : Layer K), m.layers[a]? = some l → ∃ l', (m.removeStitchesTo t).layers[a]? = some l' ∧
      l' = { l with vertices := l'.vertices } ∧
      List.Forall₂ (fun (v v' : Vertex K) => v'.coords = v.coords ∧ v'.isCorner = v.isCorner ∧
        (a ≠ t.toNat → v'.polygons = v.polygons.filter (fun id => id = u32Max ∨ idLayer id ≠ t.toNat)) ∧
        (a = t.toNat → v'.polygons = (v.polygons.filter (fun id => id = u32Max ∨ idLayer id = t.toNat)).map
          (fun id => if id = u32Max then u32Max else UInt32.ofNat (idPolygon id)))) l.vertices l'.vertices := by
  refine ⟨rfl, by simp [Mesh.removeStitchesTo], ?_⟩
  intro a l hl
  have ha : a < 256 := by have := lt_of_getElem? hl; omega
  have hta : UInt8.ofNat a = t ↔ a = t.toNat := by
    rw [← UInt8.toNat_inj, UInt8.toNat_ofNat_of_lt' (by show a < 2 ^ 8; omega)]
  refine ⟨_, by simp only [Mesh.removeStitchesTo, List.getElem?_mapIdx, hl, Option.map_some]; rfl, rfl, ?_⟩
  simp only [Layer.mapNeighbours, List.forall₂_map_right_iff, List.forall₂_same]
  intro v _
  refine ⟨trivial, trivial, fun hne => ?_, fun heq => ?_⟩
  · rw [if_neg (mt hta.1 hne)]
    apply List.filter_congr
    intro id _
    rw [Bool.eq_iff_iff]
    simp [← UInt8.toNat_inj, layerOf_toNat]
  · rw [if_pos (hta.2 heq)]
    generalize v.polygons = ps
    induction ps with
    | nil => rfl
    | cons p ps ih =>
      rw [List.filterMap_cons, List.filter_cons]
      by_cases hp : p = u32Max
      · rw [show ownId a p = some p by unfold ownId; rw [if_pos hp]]
        simp [hp, ih]
      · by_cases hl : idLayer p = a
        · rw [(ownId_spec ha (id := UInt32.ofNat (idPolygon p))).2 (.inr ⟨hp, hl, (ofNat_idPolygon_toNat p).symm⟩)]
          have hl' : idLayer p = t.toNat := hl.trans heq
          simp [hp, hl', ih]
        · have : ownId a p = none := by
            rw [Option.eq_none_iff_forall_ne_some]
            intro id hid
            rcases (ownId_spec ha).1 hid with ⟨h, -⟩ | ⟨-, h, -⟩
            · exact hp h
            · exact hl h
          rw [this]
          have hl' : idLayer p ≠ t.toNat := heq ▸ hl
          simp [hp, hl', ih]

theorem removeTo_shape (m : Mesh K) (t : UInt8) : SameShape m (m.removeStitchesTo t) :=
  sameShape_mapIdx (fun i ps => if UInt8.ofNat i = t then ps.filterMap (ownId i)
    else ps.filter (fun p => p == u32Max || layerOf p != t))

theorem removeTo_lists {m : Mesh K} (hm : m.layers.length ≤ 256) {t : UInt8} {a i : Nat} (ha : a ≠ t.toNat) {id : UInt32}
    (hid : id ≠ u32Max) : Lists (m.removeStitchesTo t) a i id ↔ Lists m a i id ∧ idLayer id ≠ t.toNat := by
  unfold Mesh.removeStitchesTo
  rw [lists_mapIdx (f := fun i ps => if UInt8.ofNat i = t then ps.filterMap (ownId i)
    else ps.filter (fun p => p == u32Max || layerOf p != t))]
  have hta : a < m.layers.length → UInt8.ofNat a ≠ t := by
    intro hlt h
    apply ha
    rw [← h, UInt8.toNat_ofNat_of_lt' (by show a < 2 ^ 8; omega)]
  have hmem : ∀ ps : List UInt32, id ∈ ps.filter (fun p => p == u32Max || layerOf p != t) ↔
      id ∈ ps ∧ idLayer id ≠ t.toNat := by
    intro ps
    rw [List.mem_filter, Bool.or_eq_true, beq_iff_eq, bne_iff_ne, ne_eq, ← UInt8.toNat_inj, layerOf_toNat]
    simp [hid]
  constructor
  · rintro ⟨l, v, hl, hv, h⟩
    rw [if_neg (hta (lt_of_getElem? hl)), hmem] at h
    exact ⟨⟨l, v, hl, hv, h.1⟩, h.2⟩
  · rintro ⟨⟨l, v, hl, hv, h⟩, h2⟩
    exact ⟨l, v, hl, hv, by rw [if_neg (hta (lt_of_getElem? hl)), hmem]; exact ⟨h, h2⟩⟩

theorem lifted_some {t : UInt8} {a : Nat} : Lifted (some t) a ↔ a = t.toNat := by
  unfold Lifted
  simp [eq_comm]

theorem gives_iff_linked_target {m1 : Mesh K} {s : StitchVertices} {t : UInt8} {oneWay : Bool} {a i : Nat} {id : UInt32} :
    (∃ x ∈ stitchList (some t) s, StitchGives m1 oneWay x a i id) ↔
      ∃ j, Linked s oneWay a i (idLayer id) j ∧ (a = t.toNat ∨ idLayer id = t.toNat) ∧ Lists m1 (idLayer id) j id := by
  have htgt : ∀ e : UInt8 × UInt8, stitchesTarget (some t) e = true ↔ t.toNat = e.1.toNat ∨ t.toNat = e.2.toNat := by
    intro e
    unfold stitchesTarget
    rw [Bool.or_eq_true, beq_iff_eq, beq_iff_eq, ← UInt8.toNat_inj, ← UInt8.toNat_inj]
  constructor
  · rintro ⟨x, hx, hg⟩
    obtain ⟨e, he, ht, p, hp, rfl⟩ := mem_stitchList.1 hx
    rw [htgt] at ht
    rcases hg with ⟨h1, h2, h3, h4⟩ | ⟨h0, h1, h2, h3, h4⟩
    · simp only at h1 h2 h3 h4
      refine ⟨p.2, ⟨e, he, .inl ⟨h1, h3.symm, ?_⟩⟩, ?_, ?_⟩
      · rw [← h2]; exact hp
      · rcases ht with ht | ht
        · exact .inl (h1.symm.trans ht.symm)
        · exact .inr (h3.trans ht.symm)
      · rw [h3]; exact h4
    · simp only at h1 h2 h3 h4
      refine ⟨p.1, ⟨e, he, .inr ⟨h0, h1, h3.symm, ?_⟩⟩, ?_, ?_⟩
      · rw [← h2]; exact hp
      · rcases ht with ht | ht
        · exact .inr (h3.trans ht.symm)
        · exact .inl (h1.symm.trans ht.symm)
      · rw [h3]; exact h4
  · rintro ⟨j, ⟨e, he, ⟨h1, h2, h3⟩ | ⟨h0, h1, h2, h3⟩⟩, ht, hl⟩
    · refine ⟨⟨e.1.1, e.1.2, i, j⟩, mem_stitchList.2 ⟨e, he, (htgt _).2 ?_, (i, j), h3, rfl⟩,
        .inl ⟨h1, rfl, h2.symm, by simp only; rw [h2]; exact hl⟩⟩
      rcases ht with ht | ht
      · exact .inl (ht.symm.trans h1.symm)
      · exact .inr (ht.symm.trans h2.symm)
    · refine ⟨⟨e.1.1, e.1.2, j, i⟩, mem_stitchList.2 ⟨e, he, (htgt _).2 ?_, (j, i), h3, rfl⟩,
        .inr ⟨h0, h1, rfl, h2.symm, by simp only; rw [h2]; exact hl⟩⟩
      rcases ht with ht | ht
      · exact .inr (ht.symm.trans h1.symm)
      · exact .inl (ht.symm.trans h2.symm)

theorem lists_set_ne {m : Mesh K} {t a i : Nat} {l : Layer K} {id : UInt32} (h : a ≠ t) :
    Lists { m with layers := m.layers.set t l } a i id ↔ Lists m a i id := by
  unfold Lists
  simp only [List.getElem?_set_ne (Ne.symm h)]

theorem lists_set_eq {m m' : Mesh K} {t i : Nat} {l : Layer K} {id : UInt32} (hlen : m.layers.length = m'.layers.length) :
    Lists { m with layers := m.layers.set t l } t i id ↔ Lists { m' with layers := m'.layers.set t l } t i id := by
  unfold Lists
  simp only [List.getElem?_set_self']
  by_cases h : t < m'.layers.length
  · rw [List.getElem?_eq_getElem h, List.getElem?_eq_getElem (hlen ▸ h)]
    simp
  · rw [List.getElem?_eq_none (by omega), List.getElem?_eq_none (by omega)]

/-- **C48**: updating one layer of a stitched mesh. Removing the stitches to layer `t`, replacing the layer, and
redoing its stitches gives the same connections as stitching all layers anew (with a list of stitches that differs from the
first one only in what concerns layer `t`). -/
theorem C48_restitch (m : Mesh K) (hm : m.Unstitched) (s : StitchVertices) (hs : StitchesExist m s) (oneWay : Bool)
    (sorter : Sorter) (hsort : sorter.Ok) (t : UInt8) (new : Layer K)
    (hnew : ({ m with layers := m.layers.set t.toNat new } : Mesh K).Unstitched) (s' : StitchVertices)
    (hs' : StitchesExist { m with layers := m.layers.set t.toNat new } s')
    (hsame : ∀ e, e.1.1 ≠ t → e.1.2 ≠ t → (e ∈ s ↔ e ∈ s')) :
    ∃ m2 m', m.stitchAtVertices sorter s oneWay = .ok m2 ∧
      let m3 := m2.removeStitchesTo t
      ({ m3 with layers := m3.layers.set t.toNat new } : Mesh K).restitchAtVertices sorter t s' oneWay = .ok m' ∧
      SameShape { m with layers := m.layers.set t.toNat new } m' ∧
      StitchedBy { m with layers := m.layers.set t.toNat new } m' s' oneWay ∧
      (∀ l ∈ m'.layers, ∀ v ∈ l.vertices, (v.isCorner = true ↔ u32Max ∈ v.polygons)) := by
  obtain ⟨m2, e2, hsh2, hl2, -⟩ := C20_stitch m hm s hs oneWay sorter hsort
  obtain ⟨mN, hmN⟩ : ∃ mN : Mesh K, mN = { m with layers := m.layers.set t.toNat new } := ⟨_, rfl⟩
  obtain ⟨m3, hm3⟩ : ∃ m3 : Mesh K, m3 = m2.removeStitchesTo t := ⟨_, rfl⟩
  obtain ⟨m4, hm4⟩ : ∃ m4 : Mesh K, m4 = { m3 with layers := m3.layers.set t.toNat new } := ⟨_, rfl⟩
  rw [← hmN] at hnew hs' ⊢
  have hsh3 : SameShape m m3 := hm3 ▸ hsh2.trans (removeTo_shape m2 t)
  have hlen2 : m2.layers.length ≤ 256 := by rw [← hsh2.2.length_eq]; exact hm.layers
  have hlen3 : m3.layers.length = m.layers.length := hsh3.2.length_eq.symm
  have hsh4 : SameShape mN m4 := by
    refine ⟨?_, ?_⟩
    · rw [hm4, hmN, hsh3.1]
    · rw [hm4, hmN]
      refine List.forall₂_iff_get.2 ⟨by simp [hlen3], ?_⟩
      intro a h1 h2
      simp only [List.get_eq_getElem, List.getElem_set]
      split
      · exact .refl _
      · exact (List.forall₂_iff_get.1 hsh3.2).2 a (by simpa using h1) (by simpa using h2)
  -- lists before restitching
  have hl4 : ∀ a i id, id ≠ u32Max → (Lists m4 a i id ↔
      (a = t.toNat ∧ Lists mN a i id) ∨ (a ≠ t.toNat ∧ Lists m2 a i id ∧ idLayer id ≠ t.toNat)) := by
    intro a i id hid
    by_cases ha : a = t.toNat
    · subst ha
      rw [hm4, hmN, lists_set_eq (m' := m) hlen3]
      simp
    · rw [hm4, lists_set_ne ha, hm3, removeTo_lists hlen2 ha hid]
      simp [ha]
  have hNm : ∀ a i id, a ≠ t.toNat → (Lists mN a i id ↔ Lists m a i id) := by
    intro a i id ha
    rw [hmN, lists_set_ne ha]
  have hlink : ∀ a i b j, a ≠ t.toNat → b ≠ t.toNat → (Linked s oneWay a i b j ↔ Linked s' oneWay a i b j) := by
    intro a i b j ha hb
    unfold Linked
    constructor
    · rintro ⟨e, he, h⟩
      refine ⟨e, (hsame e ?_ ?_).1 he, h⟩
      · rintro rfl; rcases h with ⟨h, -⟩ | ⟨-, -, h, -⟩
        · exact ha h.symm
        · exact hb h.symm
      · rintro rfl; rcases h with ⟨-, h, -⟩ | ⟨-, h, -⟩
        · exact hb h.symm
        · exact ha h.symm
    · rintro ⟨e, he, h⟩
      refine ⟨e, (hsame e ?_ ?_).2 he, h⟩
      · rintro rfl; rcases h with ⟨h, -⟩ | ⟨-, -, h, -⟩
        · exact ha h.symm
        · exact hb h.symm
      · rintro rfl; rcases h with ⟨-, h, -⟩ | ⟨-, h, -⟩
        · exact hb h.symm
        · exact ha h.symm
  have hnolink : ∀ a i j, ¬ Linked s' oneWay a i a j := by
    rintro a i j ⟨e, he, ⟨h1, h2, -⟩ | ⟨-, h1, h2, -⟩⟩
    · exact (hs' e he).1 (UInt8.toNat_inj.1 (h1.trans h2.symm))
    · exact (hs' e he).1 (UInt8.toNat_inj.1 (h2.trans h1.symm))
  -- lists after renumbering
  have hren : ∀ a i id, id ≠ u32Max → (Renumbered m4 (some t) a i id ↔
      (idLayer id = a ∧ Lists mN a i (UInt32.ofNat (idPolygon id))) ∨
      (a ≠ t.toNat ∧ idLayer id ≠ t.toNat ∧ ∃ j, Linked s' oneWay a i (idLayer id) j ∧
        Lists mN (idLayer id) j (UInt32.ofNat (idPolygon id)))) := by
    intro a i id hid
    unfold Renumbered
    rw [lifted_some, hl4 a i id hid, hl4 a i _ (ofNat_idPolygon_ne id)]
    by_cases ha : a = t.toNat
    · simp [ha]
    · simp only [ha, not_true, false_and, not_false_eq_true, true_and, ne_eq, false_or]
      rw [hl2 a i id hid]
      by_cases hb : idLayer id = t.toNat
      · have : idLayer id ≠ a := fun h => ha (h.symm.trans hb)
        simp [hb]
        exact fun h => absurd h.symm ha
      · simp only [hb, not_false_eq_true, and_true, true_and]
        rw [hNm a i _ ha]
        apply or_congr Iff.rfl
        constructor
        · rintro ⟨j, h1, h2⟩
          exact ⟨j, (hlink _ _ _ _ ha hb).1 h1, (hNm _ _ _ hb).2 h2⟩
        · rintro ⟨j, h1, h2⟩
          exact ⟨j, (hlink _ _ _ _ ha hb).2 h1, (hNm _ _ _ hb).1 h2⟩
  obtain ⟨m1, m', e, hsh, hl1, hl', hcor⟩ := internals_spec (target := some t) (oneWay := oneWay) (s := s') (m := m4) hsort
    (by rw [hm4]; simp only [List.length_set]; rw [hlen3]; exact hm.layers)
    (fun a l hl ht v hv id hid hne => by
      rw [lifted_some] at ht
      obtain ⟨i, hi⟩ := List.mem_iff_getElem?.1 hv
      have h := (hl4 a i id hne).1 ⟨l, v, hl, hi, hid⟩
      rcases h with ⟨-, h⟩ | ⟨h, -⟩
      · obtain ⟨-, -, -, hlt⟩ := unstitched_lt hnew h hne
        exact hlt
      · exact absurd ht h)
    (fun x hx => by
      obtain ⟨e, he, -, p, hp, rfl⟩ := mem_stitchList.1 hx
      obtain ⟨h1, h2⟩ := hs' e he
      exact ⟨h1, hsh4.symm.hasVertex (h2 p hp).1, hsh4.symm.hasVertex (h2 p hp).2⟩)
    (hsh4.corners hnew.vertices)
    (fun a i id hne h => by
      apply hsh4.symm.hasPolygon
      have : ∃ b j, idLayer id = b ∧ Lists mN b j (UInt32.ofNat (idPolygon id)) := by
        rcases (hren a i id hne).1 h with ⟨h1, h2⟩ | ⟨-, -, j, -, h2⟩
        · exact ⟨a, i, h1, h2⟩
        · exact ⟨_, j, rfl, h2⟩
      obtain ⟨b, j, h1, h2⟩ := this
      obtain ⟨l, hl, hlt, -⟩ := unstitched_lt hnew h2 (ofNat_idPolygon_ne id)
      rw [ofNat_idPolygon_toNat] at hlt
      exact ⟨l, _, by rw [h1]; exact hl, List.getElem?_eq_getElem hlt⟩)
  refine ⟨m2, m', e2, ?_, hsh4.trans hsh, ?_, hcor⟩
  · rw [← hm3, ← hm4]; exact e
  · intro a i id hid
    rw [hl' a i id hid, gives_iff_linked_target, hl1 a i id hid, hren a i id hid, or_assoc]
    apply or_congr Iff.rfl
    have hown : ∀ j, Lists m1 (idLayer id) j id ↔ Lists mN (idLayer id) j (UInt32.ofNat (idPolygon id)) := by
      intro j
      rw [hl1 _ j id hid, hren _ j id hid]
      constructor
      · rintro (⟨-, h⟩ | ⟨-, -, j', h, -⟩)
        · exact h
        · exact absurd h (hnolink _ _ _)
      · exact fun h => .inl ⟨rfl, h⟩
    constructor
    · rintro (⟨-, -, h⟩ | ⟨j, h1, -, h2⟩)
      · exact h
      · exact ⟨j, h1, (hown j).1 h2⟩
    · rintro ⟨j, h1, h2⟩
      by_cases ht : a = t.toNat ∨ idLayer id = t.toNat
      · exact .inr ⟨j, h1, ht, (hown j).2 h2⟩
      · push Not at ht
        exact .inl ⟨ht.1, ht.2, j, h1, h2⟩

end Polyanya
