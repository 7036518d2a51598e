import Verif.Spec.Stitching
import Verif.Props.Cleanup
/-
What stitching does to the lists of neighbours.
-/

namespace Polyanya

variable {K : Type} [Scalar K]

/-! ### Shapes -/

theorem SameButNeighbours.refl (l : Layer K) : SameButNeighbours l l := ⟨rfl, rfl, rfl, rfl, rfl, rfl⟩

theorem SameButNeighbours.trans {a b c : Layer K} (h1 : SameButNeighbours a b) (h2 : SameButNeighbours b c) :
    SameButNeighbours a c :=
  ⟨h2.polygons.trans h1.polygons, h2.offset.trans h1.offset, h2.scale.trans h1.scale, h2.baked.trans h1.baked,
    h2.islands.trans h1.islands, h2.coords.trans h1.coords⟩

theorem SameButNeighbours.symm {a b : Layer K} (h : SameButNeighbours a b) : SameButNeighbours b a :=
  ⟨h.polygons.symm, h.offset.symm, h.scale.symm, h.baked.symm, h.islands.symm, h.coords.symm⟩

theorem SameButNeighbours.length {a b : Layer K} (h : SameButNeighbours a b) : b.vertices.length = a.vertices.length := by
  have := congrArg List.length h.coords
  simpa using this

theorem SameShape.refl (m : Mesh K) : SameShape m m :=
  ⟨rfl, List.forall₂_same.2 (fun l _ => SameButNeighbours.refl l)⟩

theorem forall₂_trans' {α : Type} {R : α → α → Prop} (hR : ∀ a b c, R a b → R b c → R a c) :
    ∀ {l l' l'' : List α}, List.Forall₂ R l l' → List.Forall₂ R l' l'' → List.Forall₂ R l l''
  | _, _, _, .nil, .nil => .nil
  | _, _, _, .cons h1 t1, .cons h2 t2 => .cons (hR _ _ _ h1 h2) (forall₂_trans' hR t1 t2)

theorem SameShape.trans {a b c : Mesh K} (h1 : SameShape a b) (h2 : SameShape b c) : SameShape a c := by
  refine ⟨?_, forall₂_trans' (R := SameButNeighbours) (fun _ _ _ h h' => SameButNeighbours.trans h h') h1.2 h2.2⟩
  obtain ⟨e1, -⟩ := h1
  obtain ⟨e2, -⟩ := h2
  rw [e2, e1]

theorem SameShape.symm {a b : Mesh K} (h : SameShape a b) : SameShape b a := by
  refine ⟨by rw [h.1], ?_⟩
  exact (h.2.imp (fun _ _ hh => hh.symm)).flip

theorem SameShape.layer {m m' : Mesh K} (h : SameShape m m') {a : Nat} {l' : Layer K} (hl : m'.layers[a]? = some l') :
    ∃ l, m.layers[a]? = some l ∧ SameButNeighbours l l' := by
  obtain ⟨hi, rfl⟩ := List.getElem?_eq_some_iff.1 hl
  have hlen := h.2.length_eq
  have := (List.forall₂_iff_get.1 h.2).2 a (by omega) hi
  exact ⟨_, List.getElem?_eq_getElem (by omega), this⟩

theorem SameShape.hasVertex {m m' : Mesh K} (h : SameShape m m') {a i : Nat} (hv : HasVertex m' a i) : HasVertex m a i := by
  obtain ⟨l', v', hl, hv⟩ := hv
  obtain ⟨l, hl, hs⟩ := h.layer hl
  have := lt_of_getElem? hv
  rw [hs.length] at this
  exact ⟨l, _, hl, List.getElem?_eq_getElem this⟩

theorem SameShape.hasPolygon {m m' : Mesh K} (h : SameShape m m') {id : UInt32}
    (hp : ∃ l p, HasPolygon m' id l p) : ∃ l p, HasPolygon m id l p := by
  obtain ⟨l', p, hl, hp⟩ := hp
  obtain ⟨l, hl, hs⟩ := h.layer hl
  exact ⟨l, p, hl, by rw [← hs.polygons]; exact hp⟩

theorem Lists.hasVertex {m : Mesh K} {a i : Nat} {id : UInt32} (h : Lists m a i id) : HasVertex m a i := by
  obtain ⟨l, v, h1, h2, -⟩ := h
  exact ⟨l, v, h1, h2⟩

theorem refsInRange_iff {m : Mesh K} : m.RefsInRange ↔
    (∀ a i id, Lists m a i id → id ≠ u32Max → ∃ l p, HasPolygon m id l p) ∧
    (∀ l ∈ m.layers, ∀ p ∈ l.polygons, ∀ v ∈ p.vertices, v.toNat < l.vertices.length) := by
  constructor
  · intro h
    refine ⟨?_, h.vertices⟩
    rintro a i id ⟨l, v, hl, hv, hid⟩ hne
    exact h.refs l (List.mem_of_getElem? hl) v (List.mem_of_getElem? hv) id hid hne
  · rintro ⟨h1, h2⟩
    refine ⟨?_, h2⟩
    intro l hl v hv id hid hne
    obtain ⟨a, ha⟩ := List.mem_iff_getElem?.1 hl
    obtain ⟨i, hi⟩ := List.mem_iff_getElem?.1 hv
    exact h1 a i id ⟨l, v, ha, hi, hid⟩ hne

theorem SameShape.corners {m m' : Mesh K} (h : SameShape m m')
    (hc : ∀ l ∈ m.layers, ∀ p ∈ l.polygons, ∀ v ∈ p.vertices, v.toNat < l.vertices.length) :
    ∀ l ∈ m'.layers, ∀ p ∈ l.polygons, ∀ v ∈ p.vertices, v.toNat < l.vertices.length := by
  intro l' hl' p hp v hv
  obtain ⟨a, ha⟩ := List.mem_iff_getElem?.1 hl'
  obtain ⟨l, hl, hs⟩ := h.layer ha
  rw [hs.length]
  exact hc l (List.mem_of_getElem? hl) p (by rw [← hs.polygons]; exact hp) v hv

/-! ### Appending neighbours -/

theorem sameShape_set {m : Mesh K} {a : Nat} {l l' : Layer K} (hl : m.layers[a]? = some l) (hs : SameButNeighbours l l') :
    SameShape m { m with layers := m.layers.set a l' } := by
  refine ⟨rfl, List.forall₂_iff_get.2 ⟨by simp, ?_⟩⟩
  intro i h1 h2
  simp only [List.get_eq_getElem, List.getElem_set]
  split
  · rename_i h
    subst h
    rw [List.getElem?_eq_getElem h1, Option.some.injEq] at hl
    rw [hl]; exact hs
  · exact .refl _

theorem append_spec {m : Mesh K} {la : UInt8} {v : Nat} (ids : List UInt32) (hv : HasVertex m la.toNat v) :
    ∃ m', m.appendNeighbours la v ids = .ok m' ∧ SameShape m m' ∧
      ∀ a i id, Lists m' a i id ↔ Lists m a i id ∨ (a = la.toNat ∧ i = v ∧ id ∈ ids) := by
  obtain ⟨l, vx, hl, hvx⟩ := hv
  obtain ⟨vx', hvx'⟩ : ∃ vx' : Vertex K, vx' = { vx with polygons := vx.polygons ++ ids } := ⟨_, rfl⟩
  obtain ⟨l', hl'⟩ : ∃ l' : Layer K, l' = { l with vertices := l.vertices.set v vx' } := ⟨_, rfl⟩
  have hvs : l'.vertices = l.vertices.set v vx' := by rw [hl']
  have hps : vx'.polygons = vx.polygons ++ ids := by rw [hvx']
  have hla := lt_of_getElem? hl
  have hlv := lt_of_getElem? hvx
  refine ⟨{ m with layers := m.layers.set la.toNat l' }, ?_, ?_, ?_⟩
  · unfold Mesh.appendNeighbours
    rw [idx_eq_ok.2 hl, res_bind_ok, idx_eq_ok.2 hvx, res_bind_ok, ← hvx', ← hl']
  · have hc : l'.vertices.map (·.coords) = l.vertices.map (·.coords) := by
      rw [hvs, List.map_set]
      obtain ⟨hlt, heq⟩ := List.getElem?_eq_some_iff.1 hvx
      have : vx'.coords = (l.vertices.map (·.coords))[v]'(by simpa using hlt) := by rw [hvx']; simp [heq]
      rw [this, List.set_getElem_self]
    refine sameShape_set hl ⟨?_, ?_, ?_, ?_, ?_, hc⟩ <;> rw [hl']
  · intro a i id
    have hset : ∀ x, (m.layers.set la.toNat l')[a]? = some x ↔ (a = la.toNat ∧ x = l') ∨ (a ≠ la.toNat ∧ m.layers[a]? = some x) := by
      intro x
      rw [List.getElem?_set]
      by_cases h : la.toNat = a
      · subst h; simp [hla, eq_comm]
      · rw [if_neg h]
        simp [Ne.symm h]
    have hset2 : ∀ x, l'.vertices[i]? = some x ↔ (i = v ∧ x = vx') ∨ (i ≠ v ∧ l.vertices[i]? = some x) := by
      intro x
      rw [hvs, List.getElem?_set]
      by_cases h : v = i
      · subst h; simp [hlv, eq_comm]
      · rw [if_neg h]
        simp [Ne.symm h]
    unfold Lists
    constructor
    · rintro ⟨x, y, h1, h2, h3⟩
      rcases (hset x).1 h1 with ⟨ha, rfl⟩ | ⟨-, h1⟩
      · rcases (hset2 y).1 h2 with ⟨hi, rfl⟩ | ⟨-, h2⟩
        · rw [hps] at h3
          rcases List.mem_append.1 h3 with h3 | h3
          · exact .inl ⟨l, vx, ha ▸ hl, hi ▸ hvx, h3⟩
          · exact .inr ⟨ha, hi, h3⟩
        · exact .inl ⟨l, y, ha ▸ hl, h2, h3⟩
      · exact .inl ⟨x, y, h1, h2, h3⟩
    · rintro (⟨x, y, h1, h2, h3⟩ | ⟨ha, hi, h3⟩)
      · by_cases ha : a = la.toNat
        · rw [ha, hl, Option.some.injEq] at h1
          subst h1
          by_cases hi : i = v
          · rw [hi, hvx, Option.some.injEq] at h2
            subst h2
            exact ⟨l', vx', (hset l').2 (.inl ⟨ha, rfl⟩), (hset2 vx').2 (.inl ⟨hi, rfl⟩), by
              rw [hps]; exact List.mem_append_left _ h3⟩
          · exact ⟨l', y, (hset l').2 (.inl ⟨ha, rfl⟩), (hset2 y).2 (.inr ⟨hi, h2⟩), h3⟩
        · exact ⟨x, y, (hset x).2 (.inr ⟨ha, h1⟩), h2, h3⟩
      · exact ⟨l', vx', (hset l').2 (.inl ⟨ha, rfl⟩), (hset2 vx').2 (.inl ⟨hi, rfl⟩), by
          rw [hps]; exact List.mem_append_right _ h3⟩

/-! ### One stitch, all stitches -/

/-- Stitch `s`, applied to mesh `m`, gives `id` to vertex `i` of layer `a`. -/
def StitchGives (m : Mesh K) (oneWay : Bool) (s : Stitch) (a i : Nat) (id : UInt32) : Prop :=
  (s.src.toNat = a ∧ s.srcVertex = i ∧ idLayer id = s.dst.toNat ∧ Lists m s.dst.toNat s.dstVertex id) ∨
  (oneWay = false ∧ s.dst.toNat = a ∧ s.dstVertex = i ∧ idLayer id = s.src.toNat ∧
    Lists m s.src.toNat s.srcVertex id)

theorem mem_ownIds {v : Vertex K} {la : UInt8} {id : UInt32} :
    id ∈ v.ownIds la ↔ id ∈ v.polygons ∧ id ≠ u32Max ∧ idLayer id = la.toNat := by
  unfold Vertex.ownIds
  rw [List.mem_filter, Bool.and_eq_true, bne_iff_ne, beq_iff_eq, ← layerOf_toNat, UInt8.toNat_inj]

theorem vertexAt_iff {m : Mesh K} {la : UInt8} {i : Nat} {v : Vertex K} :
    m.vertexAt la i = .ok v ↔ ∃ l, m.layers[la.toNat]? = some l ∧ l.vertices[i]? = some v := by
  unfold Mesh.vertexAt
  simp only [bind_eq_ok, idx_eq_ok]

theorem lists_iff_of_vertex {m : Mesh K} {a i : Nat} {l : Layer K} {v : Vertex K} (hl : m.layers[a]? = some l)
    (hv : l.vertices[i]? = some v) (id : UInt32) : Lists m a i id ↔ id ∈ v.polygons := by
  constructor
  · rintro ⟨l', v', h1, h2, h3⟩
    rw [hl, Option.some.injEq] at h1
    subst h1
    rw [hv, Option.some.injEq] at h2
    subst h2
    exact h3
  · intro h
    exact ⟨l, v, hl, hv, h⟩

theorem stitchOne_spec {m : Mesh K} (oneWay : Bool) {s : Stitch} (hne : s.src ≠ s.dst)
    (h1 : HasVertex m s.src.toNat s.srcVertex) (h2 : HasVertex m s.dst.toNat s.dstVertex) :
    ∃ m', m.stitchOne oneWay s = .ok m' ∧ SameShape m m' ∧
      ∀ a i id, id ≠ u32Max → (Lists m' a i id ↔ Lists m a i id ∨ StitchGives m oneWay s a i id) := by
  obtain ⟨l1, v1, hl1, hv1⟩ := id h1
  obtain ⟨l2, v2, hl2, hv2⟩ := id h2
  have hne' : s.src.toNat ≠ s.dst.toNat := fun h => hne (UInt8.toNat_inj.1 h)
  have key : ∃ m', (if oneWay then (.ok m : Res (Mesh K)) else m.appendNeighbours s.dst s.dstVertex (v1.ownIds s.src)) = .ok m' ∧
      SameShape m m' ∧ ∀ a i id, Lists m' a i id ↔ Lists m a i id ∨
        (oneWay = false ∧ a = s.dst.toNat ∧ i = s.dstVertex ∧ id ∈ v1.ownIds s.src) := by
    cases oneWay with
    | true => exact ⟨m, by simp, .refl m, by simp⟩
    | false =>
      obtain ⟨m', e, hs, hl⟩ := append_spec (v1.ownIds s.src) h2
      exact ⟨m', by simpa using e, hs, by simpa using hl⟩
  obtain ⟨ma, ea, hsa, hla⟩ := key
  obtain ⟨mb, eb, hsb, hlb⟩ := append_spec (v2.ownIds s.dst) (hsa.symm.hasVertex h1)
  refine ⟨mb, ?_, hsa.trans hsb, ?_⟩
  · unfold Mesh.stitchOne
    rw [vertexAt_iff.2 ⟨l1, hl1, hv1⟩, res_bind_ok]
    rw [vertexAt_iff.2 ⟨l2, hl2, hv2⟩, res_bind_ok]
    cases oneWay with
    | true =>
      simp only [if_true] at ea ⊢
      rw [ea, res_bind_ok, eb]
    | false =>
      simp only [Bool.false_eq_true, if_false] at ea ⊢
      rw [ea, res_bind_ok, eb]
  · intro a i id hid
    rw [hlb, hla, or_assoc]
    apply or_congr Iff.rfl
    unfold StitchGives
    rw [lists_iff_of_vertex hl1 hv1, lists_iff_of_vertex hl2 hv2, mem_ownIds, mem_ownIds]
    constructor
    · rintro (⟨h, rfl, rfl, h3, -, h4⟩ | ⟨rfl, rfl, h3, -, h4⟩)
      · exact .inr ⟨h, rfl, rfl, h4, h3⟩
      · exact .inl ⟨rfl, rfl, h4, h3⟩
    · rintro (⟨rfl, rfl, h3, h4⟩ | ⟨h, rfl, rfl, h3, h4⟩)
      · exact .inr ⟨rfl, rfl, h4, hid, h3⟩
      · exact .inl ⟨h, rfl, rfl, h4, hid, h3⟩

theorem stitchAll_spec (oneWay : Bool) : ∀ {ss : List Stitch} {m : Mesh K}, (∀ s ∈ ss, s.src ≠ s.dst ∧
      HasVertex m s.src.toNat s.srcVertex ∧ HasVertex m s.dst.toNat s.dstVertex) →
    ∃ m', ss.foldlM (Mesh.stitchOne oneWay) m = .ok m' ∧ SameShape m m' ∧
      ∀ a i id, id ≠ u32Max → (Lists m' a i id ↔ Lists m a i id ∨ ∃ s ∈ ss, StitchGives m oneWay s a i id)
  | [], m, _ => ⟨m, rfl, .refl m, by simp⟩
  | s :: ss, m, h => by
    obtain ⟨hne, h1, h2⟩ := h s (by simp)
    obtain ⟨m1, e1, hs1, hl1⟩ := stitchOne_spec oneWay hne h1 h2
    obtain ⟨m2, e2, hs2, hl2⟩ := stitchAll_spec oneWay (ss := ss) (m := m1) (fun s' hs' => by
      obtain ⟨h1, h2, h3⟩ := h s' (by simp [hs'])
      exact ⟨h1, hs1.symm.hasVertex h2, hs1.symm.hasVertex h3⟩)
    refine ⟨m2, by rw [List.foldlM_cons, e1]; exact e2, hs1.trans hs2, ?_⟩
    have hne' : s.src.toNat ≠ s.dst.toNat := fun h => hne (UInt8.toNat_inj.1 h)
    -- references to the own layer do not change
    have hown : ∀ b j id, id ≠ u32Max → idLayer id = b → (Lists m1 b j id ↔ Lists m b j id) := by
      intro b j id hid hb
      rw [hl1 b j id hid]
      constructor
      · rintro (h | ⟨rfl, -, h, -⟩ | ⟨-, rfl, -, h, -⟩)
        · exact h
        · exact absurd (hb.symm.trans h) hne'
        · exact absurd (h.symm.trans hb) hne'
      · exact .inl
    have hgives : ∀ s' a i id, id ≠ u32Max → (StitchGives m1 oneWay s' a i id ↔ StitchGives m oneWay s' a i id) := by
      intro s' a i id hid
      unfold StitchGives
      constructor
      · rintro (⟨h1, h2, h3, h4⟩ | ⟨h0, h1, h2, h3, h4⟩)
        · exact .inl ⟨h1, h2, h3, (hown _ _ _ hid h3).1 h4⟩
        · exact .inr ⟨h0, h1, h2, h3, (hown _ _ _ hid h3).1 h4⟩
      · rintro (⟨h1, h2, h3, h4⟩ | ⟨h0, h1, h2, h3, h4⟩)
        · exact .inl ⟨h1, h2, h3, (hown _ _ _ hid h3).2 h4⟩
        · exact .inr ⟨h0, h1, h2, h3, (hown _ _ _ hid h3).2 h4⟩
    intro a i id hid
    rw [hl2 a i id hid, hl1 a i id hid, or_assoc]
    apply or_congr Iff.rfl
    simp only [List.mem_cons, exists_eq_or_imp]
    apply or_congr Iff.rfl
    constructor
    · rintro ⟨s', hs', hg⟩; exact ⟨s', hs', (hgives _ _ _ _ hid).1 hg⟩
    · rintro ⟨s', hs', hg⟩; exact ⟨s', hs', (hgives _ _ _ _ hid).2 hg⟩

/-! ### Numbering -/

theorem lift_toNat {a : Nat} (ha : a < 256) : (UInt32.ofNat a <<< 24).toNat = a * 2 ^ 24 := by
  rw [UInt32.toNat_shiftLeft]
  have h1 : (24 : UInt32).toNat % 32 = 24 := rfl
  have h2 : (UInt32.ofNat a).toNat = a := by
    rw [UInt32.toNat_ofNat_of_lt' (by show a < 2 ^ 32; omega)]
  rw [h1, h2, Nat.shiftLeft_eq]
  omega

/-- `x` is the reference, among all layers, to polygon `p` of layer `a`. -/
theorem liftId_spec {a : Nat} (ha : a < 256) {p : UInt32} (hp : p.toNat < 2 ^ 24 - 1) :
    ∃ x, liftId a p = .ok x ∧ x ≠ u32Max ∧ idLayer x = a ∧ idPolygon x = p.toNat := by
  have hm : u32Max.toNat = 4294967295 := rfl
  have hne : p ≠ u32Max := by
    intro h; subst h; omega
  have hlift := lift_toNat ha
  have hlt : p.toNat + (UInt32.ofNat a <<< 24).toNat < 2 ^ 32 := by rw [hlift]; omega
  have hto : (p + (UInt32.ofNat a <<< 24)).toNat = p.toNat + a * 2 ^ 24 := by
    rw [UInt32.toNat_add, hlift]
    omega
  refine ⟨p + (UInt32.ofNat a <<< 24), ?_, ?_, ?_, ?_⟩
  · unfold liftId
    rw [if_neg hne, if_pos hlt]
  · intro h
    rw [h] at hto
    omega
  · unfold idLayer; rw [hto]; omega
  · unfold idPolygon; rw [hto]; omega

theorem idPolygon_lt (x : UInt32) : idPolygon x < 2 ^ 24 := Nat.mod_lt _ (by decide)

theorem ofNat_idPolygon_toNat (x : UInt32) : (UInt32.ofNat (idPolygon x)).toNat = idPolygon x := by
  have := idPolygon_lt x
  rw [UInt32.toNat_ofNat_of_lt' (by show _ < 2 ^ 32; omega)]

theorem idLayer_lt (x : UInt32) : idLayer x < 256 := by
  have := x.toNat_lt
  unfold idLayer
  omega

/-- Is the layer renumbered? -/
def Lifted (target : Option UInt8) (a : Nat) : Prop := ∀ t, target = some t → t.toNat = a

theorem lift_skip {target : Option UInt8} {a : Nat} (ha : a < 256) :
    skipLayer target a = true ↔ ¬ Lifted target a := by
  unfold Lifted skipLayer
  cases target with
  | none => simp
  | some t =>
    simp only [bne_iff_ne, ne_eq, Option.some.injEq, forall_eq', not_iff_not]
    rw [← UInt8.toNat_inj, UInt8.toNat_ofNat_of_lt' (by show a < 2 ^ 8; omega)]

theorem lift_vertex {a : Nat} (ha : a < 256) {v : Vertex K}
    (hv : ∀ id ∈ v.polygons, id ≠ u32Max → id.toNat < 2 ^ 24 - 1) :
    ∃ ps, v.polygons.mapM (liftId a) = .ok ps ∧
      ∀ id, id ≠ u32Max → (id ∈ ps ↔ idLayer id = a ∧ UInt32.ofNat (idPolygon id) ∈ v.polygons) := by
  generalize v.polygons = qs at hv
  induction qs with
  | nil => exact ⟨[], rfl, by simp⟩
  | cons q qs ih =>
    obtain ⟨ps, hps, hmem⟩ := ih (fun id hid => hv id (by simp [hid]))
    by_cases hq : q = u32Max
    · refine ⟨q :: ps, ?_, ?_⟩
      · rw [List.mapM_cons, show liftId a q = .ok q by unfold liftId; rw [if_pos hq], res_bind_ok, hps]
        rfl
      · intro id hid
        rw [List.mem_cons, List.mem_cons, hmem id hid]
        have h1 : id ≠ q := by rw [hq]; exact hid
        have h2 : UInt32.ofNat (idPolygon id) ≠ q := by
          intro h
          have := congrArg UInt32.toNat h
          rw [ofNat_idPolygon_toNat, hq] at this
          have hm : u32Max.toNat = 4294967295 := rfl
          have := idPolygon_lt id
          omega
        simp [h1, h2]
    · obtain ⟨x, hx, hxm, hx1, hx2⟩ := liftId_spec ha (hv q (by simp) hq)
      refine ⟨x :: ps, ?_, ?_⟩
      · rw [List.mapM_cons, hx, res_bind_ok, hps]; rfl
      · intro id hid
        rw [List.mem_cons, List.mem_cons, hmem id hid]
        have h1 : id = x ↔ idLayer id = a ∧ UInt32.ofNat (idPolygon id) = q := by
          constructor
          · rintro rfl
            refine ⟨hx1, UInt32.toNat_inj.1 ?_⟩
            rw [ofNat_idPolygon_toNat, hx2]
          · rintro ⟨h1, h2⟩
            apply id_ext (h1.trans hx1.symm)
            rw [hx2, ← h2, ofNat_idPolygon_toNat]
        rw [h1]
        tauto

theorem lift_layer {target : Option UInt8} {a : Nat} (ha : a < 256) {l : Layer K}
    (hl : Lifted target a → ∀ v ∈ l.vertices, ∀ id ∈ v.polygons, id ≠ u32Max → id.toNat < 2 ^ 24 - 1) :
    ∃ l', l.lift target a = .ok l' ∧ SameButNeighbours l l' ∧
      List.Forall₂ (fun v v' => ∀ id, id ≠ u32Max → (id ∈ v'.polygons ↔
        (Lifted target a ∧ idLayer id = a ∧ UInt32.ofNat (idPolygon id) ∈ v.polygons) ∨
        (¬ Lifted target a ∧ id ∈ v.polygons))) l.vertices l'.vertices := by
  unfold Layer.lift
  by_cases h : Lifted target a
  · rw [if_neg (by rw [lift_skip ha]; exact not_not_intro h)]
    have hl := hl h
    have key : ∃ vs, l.vertices.mapM (fun v => do
        let ps ← v.polygons.mapM (liftId a)
        (.ok { v with polygons := ps } : Res (Vertex K))) = .ok vs ∧
        vs.map (·.coords) = l.vertices.map (·.coords) ∧
        List.Forall₂ (fun v v' => ∀ id, id ≠ u32Max → (id ∈ v'.polygons ↔
          idLayer id = a ∧ UInt32.ofNat (idPolygon id) ∈ v.polygons)) l.vertices vs := by
      generalize l.vertices = ws at hl
      induction ws with
      | nil => exact ⟨[], rfl, rfl, .nil⟩
      | cons w ws ih =>
        obtain ⟨vs, h1, h2, h3⟩ := ih (fun v hv => hl v (by simp [hv]))
        obtain ⟨ps, hps, hmem⟩ := lift_vertex ha (hl w (by simp))
        refine ⟨{ w with polygons := ps } :: vs, ?_, by simp [h2], .cons hmem h3⟩
        rw [List.mapM_cons, hps, res_bind_ok, res_bind_ok, h1]; rfl
    obtain ⟨vs, h1, h2, h3⟩ := key
    refine ⟨{ l with vertices := vs }, by rw [h1, res_bind_ok], ⟨rfl, rfl, rfl, rfl, rfl, h2⟩, h3.imp ?_⟩
    intro v v' hv id hid
    rw [hv id hid]
    simp [h]
  · rw [if_pos (by rw [lift_skip ha]; exact h)]
    exact ⟨l, rfl, .refl l, List.forall₂_same.2 (fun v _ id _ => by simp [h])⟩

theorem liftAll_spec {target : Option UInt8} {m : Mesh K} (hm : m.layers.length ≤ 256)
    (hl : ∀ a l, m.layers[a]? = some l → Lifted target a →
      ∀ v ∈ l.vertices, ∀ id ∈ v.polygons, id ≠ u32Max → id.toNat < 2 ^ 24 - 1) :
    ∃ m', m.liftAll target = .ok m' ∧ SameShape m m' ∧ ∀ a i id, id ≠ u32Max → (Lists m' a i id ↔
      (Lifted target a ∧ idLayer id = a ∧ Lists m a i (UInt32.ofNat (idPolygon id))) ∨
      (¬ Lifted target a ∧ Lists m a i id)) := by
  have hsafe : ∀ li ∈ m.layers.zipIdx, Safe (li.1.lift target li.2) := by
    intro li hli
    rw [List.mem_zipIdx_iff_getElem?] at hli
    obtain ⟨l', h, -⟩ := lift_layer (target := target) (by have := lt_of_getElem? hli; omega) (hl li.2 li.1 hli)
    exact ⟨l', h⟩
  obtain ⟨ls, hls⟩ := (safe_mapM _ hsafe).ex
  rw [mapM_ok_iff] at hls
  have hlen : ls.length = m.layers.length := by
    have := hls.length_eq; simpa using this.symm
  have hat : ∀ a (l : Layer K), m.layers[a]? = some l → ∃ l', ls[a]? = some l' ∧ l.lift target a = .ok l' := by
    intro a l hla
    have hlt := lt_of_getElem? hla
    have h := (List.forall₂_iff_get.1 hls).2 a (by simpa using hlt) (by omega)
    simp only [List.get_eq_getElem, List.getElem_zipIdx, Nat.zero_add] at h
    rw [List.getElem?_eq_getElem hlt, Option.some.injEq] at hla
    rw [hla] at h
    exact ⟨_, List.getElem?_eq_getElem (by omega), h⟩
  have hat' : ∀ a (l : Layer K), m.layers[a]? = some l → ∃ l', ls[a]? = some l' ∧ SameButNeighbours l l' ∧
      List.Forall₂ (fun v v' => ∀ id, id ≠ u32Max → (id ∈ v'.polygons ↔
        (Lifted target a ∧ idLayer id = a ∧ UInt32.ofNat (idPolygon id) ∈ v.polygons) ∨
        (¬ Lifted target a ∧ id ∈ v.polygons))) l.vertices l'.vertices := by
    intro a l hla
    obtain ⟨l', h1, h2⟩ := hat a l hla
    obtain ⟨l'', h3, h4, h5⟩ := lift_layer (target := target) (by have := lt_of_getElem? hla; omega) (hl a l hla)
    rw [h2, Except.ok.injEq] at h3
    exact ⟨l', h1, h3 ▸ h4, h3 ▸ h5⟩
  refine ⟨{ m with layers := ls }, ?_, ⟨rfl, ?_⟩, ?_⟩
  · unfold Mesh.liftAll
    rw [mapM_ok_iff.2 hls, res_bind_ok]
  · refine List.forall₂_iff_get.2 ⟨hlen.symm, ?_⟩
    intro a h1 h2
    obtain ⟨l', h3, h4, -⟩ := hat' a _ (List.getElem?_eq_getElem h1)
    rw [List.getElem?_eq_getElem h2, Option.some.injEq] at h3
    simp only [List.get_eq_getElem]
    rw [h3]; exact h4
  · intro a i id hid
    by_cases hex : HasVertex m a i
    · obtain ⟨l, v, hla, hv⟩ := hex
      obtain ⟨l', h1, h2, h3⟩ := hat' a l hla
      have hlt := lt_of_getElem? hv
      have hlt' : i < l'.vertices.length := by rw [← h3.length_eq]; exact hlt
      have hi := (List.forall₂_iff_get.1 h3).2 i hlt hlt'
      simp only [List.get_eq_getElem] at hi
      rw [List.getElem?_eq_getElem hlt, Option.some.injEq] at hv
      rw [hv] at hi
      rw [lists_iff_of_vertex (m := { m with layers := ls }) h1 (List.getElem?_eq_getElem hlt'), hi id hid,
        lists_iff_of_vertex hla (by rw [List.getElem?_eq_getElem hlt, hv]),
        lists_iff_of_vertex hla (by rw [List.getElem?_eq_getElem hlt, hv])]
    · have hno : ∀ x, ¬ Lists m a i x := fun x hx => hex hx.hasVertex
      constructor
      · rintro ⟨l', v', h1, h2, h3⟩
        exfalso
        have hlt : a < m.layers.length := by rw [← hlen]; exact lt_of_getElem? h1
        obtain ⟨l'', h4, h5, h6⟩ := hat' a _ (List.getElem?_eq_getElem hlt)
        simp only at h1
        rw [h1, Option.some.injEq] at h4
        subst h4
        exact hex ⟨_, _, List.getElem?_eq_getElem hlt, List.getElem?_eq_getElem (by
          have := lt_of_getElem? h2
          rw [h6.length_eq]; exact this)⟩
      · rintro (⟨-, -, h⟩ | ⟨-, h⟩) <;> exact absurd h (hno _)

/-! ### Reordering -/

theorem reorder_lists {m : Mesh K} (hm : m.RefsInRange) {s : Sorter} (hs : s.Ok) :
    ∃ m', m.reorderNeighbors s = .ok m' ∧ SameShape m m' ∧
      (∀ a i id, id ≠ u32Max → (Lists m' a i id ↔ Lists m a i id)) ∧
      (∀ l ∈ m'.layers, ∀ v ∈ l.vertices, (v.isCorner = true ↔ u32Max ∈ v.polygons)) := by
  obtain ⟨m', h, heq, hall⟩ := C23_reorder m hm s hs
  have hlen := hall.length_eq
  refine ⟨m', h, ⟨heq, hall.imp (fun _ _ h => h.1)⟩, ?_, ?_⟩
  · intro a i id hid
    constructor
    · rintro ⟨l', v', h1, h2, h3⟩
      have ha := lt_of_getElem? h1
      have hi := lt_of_getElem? h2
      have h4 := (List.forall₂_iff_get.1 hall).2 a (by omega) ha
      simp only [List.get_eq_getElem] at h4
      rw [List.getElem?_eq_getElem ha, Option.some.injEq] at h1
      rw [h1] at h4
      have hlen2 := h4.2.length_eq
      have h5 := (List.forall₂_iff_get.1 h4.2).2 i (by omega) hi
      simp only [List.get_eq_getElem] at h5
      rw [List.getElem?_eq_getElem hi, Option.some.injEq] at h2
      rw [h2] at h5
      exact ⟨_, _, List.getElem?_eq_getElem (by omega), List.getElem?_eq_getElem (by omega), (h5.1.same id hid).1 h3⟩
    · rintro ⟨l, v, h1, h2, h3⟩
      have ha := lt_of_getElem? h1
      have hi := lt_of_getElem? h2
      have h4 := (List.forall₂_iff_get.1 hall).2 a ha (by omega)
      simp only [List.get_eq_getElem] at h4
      rw [List.getElem?_eq_getElem ha, Option.some.injEq] at h1
      rw [h1] at h4
      have hlen2 := h4.2.length_eq
      have h5 := (List.forall₂_iff_get.1 h4.2).2 i hi (by omega)
      simp only [List.get_eq_getElem] at h5
      rw [List.getElem?_eq_getElem hi, Option.some.injEq] at h2
      rw [h2] at h5
      exact ⟨_, _, List.getElem?_eq_getElem (by omega), List.getElem?_eq_getElem (by omega), (h5.1.same id hid).2 h3⟩
  · intro l' hl' v' hv'
    obtain ⟨a, ha, rfl⟩ := List.getElem_of_mem hl'
    obtain ⟨i, hi, rfl⟩ := List.getElem_of_mem hv'
    have h4 := (List.forall₂_iff_get.1 hall).2 a (by omega) ha
    simp only [List.get_eq_getElem] at h4
    have hlen2 := h4.2.length_eq
    have h5 := (List.forall₂_iff_get.1 h4.2).2 i (by omega) hi
    exact h5.2

end Polyanya
