import Verif.Props.TrimeshExamples
import Verif.Spec.Ext
/-
C31, C50: the order in which the triangles around a vertex are listed.
-/

namespace Polyanya

variable {K : Type} [Scalar K]

/-! ### Specification -/

/-- Triangle number `k` comes to vertex `v` along an edge; `d` goes back along it. -/
def ComesFrom (t : Trimesh K) (v k : Nat) (d : Vec2 K) : Prop :=
  ∃ w c cw, TriangleEdge t k w v ∧ t.vertices[v]? = some c ∧ t.vertices[w]? = some cw ∧ d = cw - c

/-- Seen from vertex `v`, triangle `b` is to the left of triangle `a`. -/
def LeftOf (t : Trimesh K) (v : Nat) (a b : UInt32) : Prop :=
  ∃ da db, ComesFrom t v a.toNat da ∧ ComesFrom t v b.toNat db ∧ (Scalar.lit 0 0 <. da.perpDot db) = true

/-- The relation is a strict total order on the elements of the list. -/
def OrdersOn (less : UInt32 → UInt32 → Prop) (l : List UInt32) : Prop :=
  (∀ a ∈ l, ∀ b ∈ l, a ≠ b → less a b ∨ less b a) ∧ (∀ a ∈ l, ∀ b ∈ l, less a b → ¬ less b a) ∧
  ∀ a ∈ l, ∀ b ∈ l, ∀ c ∈ l, less a b → less b c → less a c

/-- What is assumed of the sort here: it sorts, if the comparison is an order. -/
def TriSorter.Sorts (s : TriSorter) : Prop := ∀ less l l', s less l = some l' → OrdersOn (fun a b => less a b = true) l →
  l.Nodup → l'.Pairwise (fun a b => less a b = true)

/-- The neighbours listed by vertex `v`: the triangles of `ring`, with a gap between two that follow each other iff they do
not share an edge there. -/
def ListedAs (t : Trimesh K) (v : Nat) (ring polygons : List UInt32) : Prop :=
  ∃ gap : UInt32 × UInt32 → Bool,
    ring.Nodup ∧ (∀ id, id ∈ ring ↔ id ≠ u32Max ∧ InTriangle t v id.toNat) ∧
    polygons = (ring.zip (ring.rotate 1)).flatMap (fun e => if gap e then [u32Max, e.2] else [e.2]) ∧
    ∀ e ∈ ring.zip (ring.rotate 1), (gap e = false ↔ NextTo t v e.1.toNat e.2.toNat)

/-- The ids of the triangles around a vertex. -/
def RoundAbout (t : Trimesh K) (v : Nat) (ids : List UInt32) : Prop :=
  ids.Nodup ∧ ∀ id, id ∈ ids ↔ id ≠ u32Max ∧ InTriangle t v id.toNat

/-! ### Proofs -/

theorem roundAbout_perm {t : Trimesh K} (ht : t.Valid) {v : Nat} {ids : List UInt32} (h : RoundAbout t v ids) :
    ids.Perm (trianglesOf t v) :=
  (List.perm_ext_iff_of_nodup h.1 (trianglesOf_nodup ht v)).2 (fun id => by rw [h.2, mem_trianglesOf ht])

/-- The direction computed for the sort. -/
theorem ccwEdge_spec {t : Trimesh K} (ht : t.Valid) {v : Nat} {c : Vec2 K} (hc : t.vertices[v]? = some c) {id : UInt32}
    (h : InTriangle t v id.toNat) :
    ∃ d, ccwEdge (toPolygons t.triangles) t.toVertices v c id = .ok d ∧ ComesFrom t v id.toNat d ∧
      ∀ d', ComesFrom t v id.toNat d' → d' = d := by
  obtain ⟨pl, p, n, h1, h2, h3, h4, h5, h6, h7, h8⟩ := neighbors_of ht h
  have hp := List.getElem?_eq_getElem h6
  have hnb : t.toVertices[p]? = some (Vertex.new t.vertices[p] (trianglesOf t p)) := by
    rw [toVertices_get, hp]; rfl
  refine ⟨t.vertices[p] - c, ?_, ⟨p, c, _, h4, hc, hp, rfl⟩, ?_⟩
  · unfold ccwEdge
    rw [idx_eq_ok.2 h1, res_bind_ok, h2, res_bind_ok, idx_eq_ok.2 hnb, res_bind_ok]
    rfl
  · rintro d' ⟨w, c', cw, hw, hc', hcw, rfl⟩
    have := h7 w hw
    subst this
    rw [hc, Option.some.injEq] at hc'
    rw [hp, Option.some.injEq] at hcw
    subst hc' hcw
    rfl

/-- The comparison of the sort says whether the second one is to the left. -/
theorem less_iff {t : Trimesh K} (ht : t.Valid) {v : Nat} {c : Vec2 K} (hc : t.vertices[v]? = some c) {a b : UInt32}
    (ha : InTriangle t v a.toNat) (hb : InTriangle t v b.toNat) :
    (match ccwEdge (toPolygons t.triangles) t.toVertices v c a, ccwEdge (toPolygons t.triangles) t.toVertices v c b with
      | .ok ea, .ok eb => Scalar.lit 0 0 <. ea.perpDot eb
      | _, _ => false) = true ↔ LeftOf t v a b := by
  obtain ⟨da, h1, h2, h3⟩ := ccwEdge_spec ht hc ha
  obtain ⟨db, k1, k2, k3⟩ := ccwEdge_spec ht hc hb
  rw [h1, k1]
  constructor
  · exact fun h => ⟨da, db, h2, k2, h⟩
  · rintro ⟨da', db', ha', hb', h⟩
    rw [h3 _ ha', k3 _ hb'] at h
    exact h

/-- How the list of a vertex is made. -/
theorem orderAll_made {sorter : TriSorter} {polygons : List Polygon} {unordered : List (Vertex K)} :
    ∀ {l : List (Vertex K × Nat)} {vs : List (Vertex K)}, orderAll sorter polygons unordered l = .ok (.ok vs) →
    List.Forall₂ (fun (x : Vertex K × Nat) vx => ∃ first rest ps, sortCcw sorter polygons unordered x.2 x.1 = .ok (first :: rest) ∧
      addGaps polygons x.2 first rest = .ok ps ∧ vx = Vertex.new x.1.coords ps) l vs
  | [], vs, h => by
    simp only [orderAll, Except.ok.injEq] at h
    subst h
    exact .nil
  | (v, vi) :: l, vs, h => by
    simp only [orderAll, bind_eq_ok] at h
    obtain ⟨sorted, h1, h⟩ := h
    cases sorted with
    | nil => simp at h
    | cons first rest =>
      simp only [bind_eq_ok] at h
      obtain ⟨ps, h2, r, h3, h⟩ := h
      cases r with
      | error e => simp at h
      | ok out =>
        simp only [Except.ok.injEq] at h
        subst h
        exact .cons ⟨first, rest, ps, h1, h2, rfl⟩ (orderAll_made h3)

theorem toMesh_vertex {t : Trimesh K} (ht : t.Valid) {sorter : TriSorter} (hs : sorter.Permutes) {m : Mesh K}
    (h : t.toMesh sorter = .ok (.ok m)) {v : Nat} {c : Vec2 K} (hc : t.vertices[v]? = some c) :
    ∃ l vx ring, m.layers = [l] ∧ l.vertices[v]? = some vx ∧
      sortCcw sorter (toPolygons t.triangles) t.toVertices v (Vertex.new c (trianglesOf t v)) = .ok ring ∧
      ListedAs t v ring vx.polygons ∧ (vx.isCorner = true ↔ u32Max ∈ vx.polygons) := by
  unfold Trimesh.toMesh at h
  simp only [] at h
  rw [toVertices_zipIdx, bind_eq_ok] at h
  obtain ⟨r, h1, h2⟩ := h
  cases r with
  | error e => simp at h2
  | ok vs =>
    simp only at h2
    have hmade := orderAll_made h1
    have hlt := lt_of_getElem? hc
    have hlen : vs.length = t.vertices.length := by simpa using hmade.length_eq.symm
    have := hmade.get (i := v) (by simpa using hlt) (by omega)
    simp only [List.get_eq_getElem, List.getElem_map, List.getElem_zipIdx, Nat.zero_add] at this
    obtain ⟨first, rest, ps, k1, k2, k3⟩ := this
    have hcv : t.vertices[v] = c := by
      rw [List.getElem?_eq_getElem hlt, Option.some.injEq] at hc
      exact hc
    rw [hcv] at k1 k3
    have hperm : (first :: rest).Perm (trianglesOf t v) := by
      rcases sortCcw_spec ht hs (v := v) (c := c) with ⟨e, -⟩ | ⟨ps', e, hp⟩
      · rw [e] at k1; simp at k1
      · rw [e, Except.ok.injEq] at k1
        rw [← k1]; exact hp
    have hin : ∀ q ∈ first :: rest, q ≠ u32Max ∧ InTriangle t v q.toNat := by
      intro q hq
      rw [hperm.mem_iff, mem_trianglesOf ht] at hq
      exact hq
    rw [addGaps_spec ht hin, Except.ok.injEq] at k2
    have hvx : vs[v]? = some (Vertex.new c ps) := by
      rw [List.getElem?_eq_getElem (by omega), k3]
      rfl
    unfold Mesh.new at h2
    rw [bind_eq_ok] at h2
    obtain ⟨r, h3, h4⟩ := h2
    cases r with
    | error e => simp at h4
    | ok l =>
      simp only [Except.ok.injEq] at h4
      subst h4
      have hl : l.vertices = vs := by
        unfold Layer.new at h3
        split at h3
        · simp at h3
        · split at h3
          · simp at h3
          · simp only [bind_eq_ok, Except.ok.injEq] at h3
            obtain ⟨lb, h3, rfl⟩ := h3
            unfold Layer.bake Layer.bakeIslands at h3
            simp only [bind_eq_ok, Except.ok.injEq] at h3
            obtain ⟨isl, -, rfl⟩ := h3
            rfl
      refine ⟨l, _, first :: rest, rfl, by rw [hl]; exact hvx, k1, ⟨gapBetween t v, ?_, ?_, k2.symm, ?_⟩, ?_⟩
      · exact hperm.nodup_iff.2 (trianglesOf_nodup ht v)
      · intro id
        rw [hperm.mem_iff, mem_trianglesOf ht]
      · intro e _
        simp [gapBetween]
      · simp [Vertex.new]

theorem OrdersOn.congr {r s : UInt32 → UInt32 → Prop} {l : List UInt32} (h : ∀ a ∈ l, ∀ b ∈ l, r a b ↔ s a b)
    (hr : OrdersOn r l) : OrdersOn s l := by
  refine ⟨?_, ?_, ?_⟩
  · intro a ha b hb hne
    rw [← h a ha b hb, ← h b hb a ha]
    exact hr.1 a ha b hb hne
  · intro a ha b hb
    rw [← h a ha b hb, ← h b hb a ha]
    exact hr.2.1 a ha b hb
  · intro a ha b hb c hc
    rw [← h a ha b hb, ← h b hb c hc, ← h a ha c hc]
    exact hr.2.2 a ha b hb c hc

/-- **C31**: where the triangles around a vertex are ordered from right to left (for instance when they all lie on one side of
a line through the vertex, `ordersOn_of_side`), they are listed in this order, that is counterclockwise, with gaps exactly
between those that do not share an edge. -/
theorem C31_counterclockwise (t : Trimesh K) (ht : t.Valid) (sorter : TriSorter) (hs : sorter.Permutes) (ho : sorter.Sorts)
    (m : Mesh K) (h : t.toMesh sorter = .ok (.ok m)) (v : Nat) (c : Vec2 K) (hc : t.vertices[v]? = some c)
    (ids : List UInt32) (hids : RoundAbout t v ids) (hord : OrdersOn (LeftOf t v) ids) :
    ∃ l vx ring, m.layers = [l] ∧ l.vertices[v]? = some vx ∧ ring.Perm ids ∧ ring.Pairwise (LeftOf t v) ∧
      ListedAs t v ring vx.polygons := by
  obtain ⟨l, vx, ring, h1, h2, h3, h4, -⟩ := toMesh_vertex ht hs h hc
  have hperm := roundAbout_perm ht hids
  have hin : ∀ a ∈ trianglesOf t v, InTriangle t v a.toNat := fun a ha => ((mem_trianglesOf ht).1 ha).2
  have hord' : OrdersOn (LeftOf t v) (trianglesOf t v) := by
    refine ⟨?_, ?_, ?_⟩
    · intro a ha b hb
      exact hord.1 a (hperm.mem_iff.2 ha) b (hperm.mem_iff.2 hb)
    · intro a ha b hb
      exact hord.2.1 a (hperm.mem_iff.2 ha) b (hperm.mem_iff.2 hb)
    · intro a ha b hb c hc
      exact hord.2.2 a (hperm.mem_iff.2 ha) b (hperm.mem_iff.2 hb) c (hperm.mem_iff.2 hc)
  have hrp : ring.Perm (trianglesOf t v) := by
    rcases sortCcw_spec ht hs (v := v) (c := c) with ⟨e, -⟩ | ⟨ps', e, hp⟩
    · rw [e] at h3; simp at h3
    · rw [e, Except.ok.injEq] at h3
      rw [← h3]; exact hp
  refine ⟨l, vx, ring, h1, h2, hrp.trans hperm.symm, ?_, h4⟩
  unfold sortCcw at h3
  split at h3
  · rename_i hlen
    rw [Except.ok.injEq] at h3
    have hlen : (trianglesOf t v).length < 2 := hlen
    have h3 : trianglesOf t v = ring := h3
    rw [← h3]
    match hl : trianglesOf t v with
    | [] => exact .nil
    | [a] => exact List.pairwise_singleton _ _
    | a :: b :: r => rw [hl] at hlen; simp at hlen
  · rw [bind_eq_ok] at h3
    obtain ⟨_, -, h3⟩ := h3
    split at h3
    · rename_i l' hl'
      rw [Except.ok.injEq] at h3
      subst h3
      have := ho _ _ _ hl' (hord'.congr (fun a ha b hb => (less_iff ht hc (hin a ha) (hin b hb)).symm)) (trianglesOf_nodup ht v)
      refine List.Pairwise.imp_of_mem ?_ this
      intro a b ha hb hab
      exact (less_iff ht hc (hin a (hrp.mem_iff.1 ha)) (hin b (hrp.mem_iff.1 hb))).1 hab
    · simp at h3

/-- **C31**: a vertex is always marked as a corner if one of its triangles has an edge there that no other triangle shares:
no corner is missed, whatever the sort does. -/
theorem C31_no_corner_missed (t : Trimesh K) (ht : t.Valid) (sorter : TriSorter) (hs : sorter.Permutes)
    (m : Mesh K) (h : t.toMesh sorter = .ok (.ok m)) (v : Nat) (c : Vec2 K) (hc : t.vertices[v]? = some c)
    (k : Nat) (hk : InTriangle t v k) (hopen : (∀ k', ¬ NextTo t v k k') ∨ ∀ k', ¬ NextTo t v k' k) :
    ∃ l vx, m.layers = [l] ∧ l.vertices[v]? = some vx ∧ vx.isCorner = true := by
  obtain ⟨l, vx, ring, h1, h2, -, ⟨gap, h3, h4, h5, h6⟩, h7⟩ := toMesh_vertex ht hs h hc
  refine ⟨l, vx, h1, h2, h7.2 ?_⟩
  have hlt := inTriangle_lt hk
  have := ht.triangles
  have ek := toNat_ofNat_lt (n := k) (by omega)
  have hmem : UInt32.ofNat k ∈ ring := by
    rw [h4, ek]
    refine ⟨?_, hk⟩
    intro hmax
    have hmax := congrArg UInt32.toNat hmax
    rw [ek] at hmax
    have : u32Max.toNat = 2 ^ 32 - 1 := rfl
    omega
  have hgap : ∃ e ∈ ring.zip (ring.rotate 1), gap e = true := by
    rcases hopen with hopen | hopen
    · obtain ⟨i, hi, e⟩ := List.getElem_of_mem hmem
      refine ⟨(ring[i], (ring.rotate 1)[i]'(by simpa using hi)), ?_, ?_⟩
      · rw [List.mem_iff_getElem]
        exact ⟨i, by simpa using hi, by simp⟩
      · by_contra hg
        rw [Bool.not_eq_true] at hg
        have := (h6 _ (by rw [List.mem_iff_getElem]; exact ⟨i, by simpa using hi, by simp⟩)).1 hg
        simp only [e, ek] at this
        exact hopen _ this
    · have hmem' : UInt32.ofNat k ∈ ring.rotate 1 := by rw [List.mem_rotate]; exact hmem
      obtain ⟨i, hi, e⟩ := List.getElem_of_mem hmem'
      have hi' : i < ring.length := by simpa using hi
      refine ⟨(ring[i], (ring.rotate 1)[i]'hi), ?_, ?_⟩
      · rw [List.mem_iff_getElem]
        exact ⟨i, by simpa using hi', by simp⟩
      · by_contra hg
        rw [Bool.not_eq_true] at hg
        have := (h6 _ (by rw [List.mem_iff_getElem]; exact ⟨i, by simpa using hi', by simp⟩)).1 hg
        simp only [e, ek] at this
        exact hopen _ this
  obtain ⟨e, he, hg⟩ := hgap
  rw [h5, List.mem_flatMap]
  exact ⟨e, he, by simp [hg]⟩

/-! ### Sorting -/

theorem shiftLeft_sorted {less : UInt32 → UInt32 → Bool} {x : UInt32} : ∀ {l : List UInt32},
    OrdersOn (fun a b => less a b = true) (x :: l) → x ∉ l → l.Pairwise (fun a b => less b a = true) →
    (shiftLeft less x l).Pairwise (fun a b => less b a = true)
  | [], _, _, _ => List.pairwise_singleton _ _
  | y :: ys, ho, hx, hp => by
    rw [List.mem_cons, not_or] at hx
    unfold shiftLeft
    split
    · rename_i h
      rw [List.pairwise_cons] at hp ⊢
      refine ⟨?_, shiftLeft_sorted ⟨?_, ?_, ?_⟩ hx.2 hp.2⟩
      · intro z hz
        rcases List.mem_cons.1 ((shiftLeft_perm less x ys).mem_iff.1 hz) with rfl | hz
        · exact h
        · exact hp.1 z hz
      · intro a ha b hb
        exact ho.1 a (by simp at ha ⊢; tauto) b (by simp at hb ⊢; tauto)
      · intro a ha b hb
        exact ho.2.1 a (by simp at ha ⊢; tauto) b (by simp at hb ⊢; tauto)
      · intro a ha b hb c hc
        exact ho.2.2 a (by simp at ha ⊢; tauto) b (by simp at hb ⊢; tauto) c (by simp at hc ⊢; tauto)
    · rename_i h
      have hyx : less y x = true := (ho.1 y (by simp) x (by simp) (Ne.symm hx.1)).resolve_right h
      rw [List.pairwise_cons]
      refine ⟨?_, hp⟩
      intro z hz
      rcases List.mem_cons.1 hz with rfl | hz
      · exact hyx
      · rw [List.pairwise_cons] at hp
        exact ho.2.2 z (by simp [hz]) y (by simp) x (by simp) (hp.1 z hz) hyx

/-- The insertion sort of the standard library sorts. -/
theorem rustInsertion_sorts : rustInsertion.Sorts := by
  intro less l l' h ho hn
  simp only [rustInsertion, Option.some.injEq] at h
  subst h
  rw [List.pairwise_reverse]
  have key : ∀ l acc : List UInt32, (l ++ acc).Nodup → OrdersOn (fun a b => less a b = true) (l ++ acc) →
      acc.Pairwise (fun a b => less b a = true) →
      (l.foldl (fun acc x => shiftLeft less x acc) acc).Pairwise (fun a b => less b a = true) := by
    intro l
    induction l with
    | nil => intro acc _ _ h; exact h
    | cons x l ih =>
      intro acc hn ho hp
      rw [List.foldl_cons]
      have hperm : (l ++ shiftLeft less x acc).Perm (x :: l ++ acc) :=
        ((shiftLeft_perm less x acc).append_left l).trans List.perm_middle
      refine ih _ (hperm.nodup_iff.2 hn) ⟨?_, ?_, ?_⟩ ?_
      · intro a ha b hb
        exact ho.1 a (hperm.mem_iff.1 ha) b (hperm.mem_iff.1 hb)
      · intro a ha b hb
        exact ho.2.1 a (hperm.mem_iff.1 ha) b (hperm.mem_iff.1 hb)
      · intro a ha b hb c hc
        exact ho.2.2 a (hperm.mem_iff.1 ha) b (hperm.mem_iff.1 hb) c (hperm.mem_iff.1 hc)
      · refine shiftLeft_sorted ⟨?_, ?_, ?_⟩ ?_ hp
        · intro a ha b hb
          exact ho.1 a (by simp at ha ⊢; tauto) b (by simp at hb ⊢; tauto)
        · intro a ha b hb
          exact ho.2.1 a (by simp at ha ⊢; tauto) b (by simp at hb ⊢; tauto)
        · intro a ha b hb c hc
          exact ho.2.2 a (by simp at ha ⊢; tauto) b (by simp at hb ⊢; tauto) c (by simp at hc ⊢; tauto)
        · rw [List.cons_append, List.nodup_cons] at hn
          exact fun h => hn.1 (List.mem_append_right _ h)
  exact key l [] (by simpa using hn) (by simpa using ho) .nil

theorem three_cycle {less : UInt32 → UInt32 → Bool} {l ring : List UInt32} {i j k : UInt32}
    (h : rustInsertion less l = some ring) (hl : l.Perm [i, j, k])
    (e1 : less i j = true) (e2 : less j k = true) (e3 : less k i = true)
    (e4 : less j i = false) (e5 : less k j = false) (e6 : less i k = false) :
    ring = [i, j, k] ∨ ring = [j, k, i] ∨ ring = [k, i, j] := by
  have hp : l ∈ [i, j, k].permutations := List.mem_permutations.2 hl
  have hp' : l = [i, j, k] ∨ l = [j, i, k] ∨ l = [k, j, i] ∨ l = [j, k, i] ∨ l = [k, i, j] ∨ l = [i, k, j] := by
    simpa [List.permutations, List.permutationsAux, List.permutationsAux.rec, List.permutationsAux2] using hp
  rcases hp' with rfl | rfl | rfl | rfl | rfl | rfl <;>
    simp [rustInsertion, shiftLeft, e1, e2, e3, e4, e5, e6] at h <;> simp [← h]

/-- **C50** for three triangles: a vertex around which exactly three triangles close up, each to the left of the one before,
lists no gap and is no corner. -/
theorem C50_three_partial (t : Trimesh K) (ht : t.Valid) (m : Mesh K) (h : t.toMesh rustInsertion = .ok (.ok m)) (v : Nat)
    (c : Vec2 K) (hc : t.vertices[v]? = some c) (i j k : UInt32) (hids : RoundAbout t v [i, j, k])
    (h1 : NextTo t v i.toNat j.toNat) (h2 : NextTo t v j.toNat k.toNat) (h3 : NextTo t v k.toNat i.toNat)
    (l1 : LeftOf t v i j) (l2 : LeftOf t v j k) (l3 : LeftOf t v k i)
    (n1 : ¬ LeftOf t v j i) (n2 : ¬ LeftOf t v k j) (n3 : ¬ LeftOf t v i k) :
    ∃ l vx, m.layers = [l] ∧ l.vertices[v]? = some vx ∧ vx.isCorner = false := by
  obtain ⟨l, vx, ring, g1, g2, g3, ⟨gap, -, -, g5, g6⟩, g7⟩ := toMesh_vertex ht rustInsertion_permutes h hc
  refine ⟨l, vx, g1, g2, ?_⟩
  have hperm := roundAbout_perm ht hids
  have hin : ∀ a ∈ [i, j, k], InTriangle t v a.toNat := fun a ha => ((hids.2 a).1 ha).2
  have hmax : ∀ a ∈ [i, j, k], a ≠ u32Max := fun a ha => ((hids.2 a).1 ha).1
  -- the ring is a rotation of the three
  have hring : ring = [i, j, k] ∨ ring = [j, k, i] ∨ ring = [k, i, j] := by
    unfold sortCcw at g3
    have hlen : (Vertex.new c (trianglesOf t v)).polygons.length = 3 := by
      show (trianglesOf t v).length = 3
      rw [← hperm.length_eq]; rfl
    rw [if_neg (by omega), bind_eq_ok] at g3
    obtain ⟨_, -, g3⟩ := g3
    split at g3
    · rename_i l' hl'
      rw [Except.ok.injEq] at g3
      subst g3
      have hless := fun a (ha : a ∈ [i, j, k]) b (hb : b ∈ [i, j, k]) => less_iff ht hc (hin a ha) (hin b hb)
      refine three_cycle hl' hperm.symm ?_ ?_ ?_ ?_ ?_ ?_
      · exact (hless i (by simp) j (by simp)).2 l1
      · exact (hless j (by simp) k (by simp)).2 l2
      · exact (hless k (by simp) i (by simp)).2 l3
      · rw [← Bool.not_eq_true]; exact fun h => n1 ((hless j (by simp) i (by simp)).1 h)
      · rw [← Bool.not_eq_true]; exact fun h => n2 ((hless k (by simp) j (by simp)).1 h)
      · rw [← Bool.not_eq_true]; exact fun h => n3 ((hless i (by simp) k (by simp)).1 h)
    · simp at g3
  rw [← Bool.not_eq_true, g7, g5]
  have hng : ∀ e ∈ ring.zip (ring.rotate 1), gap e = false := by
    intro e he
    rw [g6 e he]
    rcases hring with rfl | rfl | rfl <;>
    · simp at he
      rcases he with rfl | rfl | rfl <;> assumption
  rw [List.mem_flatMap]
  rintro ⟨e, he, hm⟩
  rw [hng e he] at hm
  simp only [Bool.false_eq_true, if_false, List.mem_singleton] at hm
  have : e.2 ∈ ring := by
    have := (List.of_mem_zip he).2
    rwa [List.mem_rotate] at this
  have h' : e.2 ∈ [i, j, k] := by
    rcases hring with rfl | rfl | rfl <;> simp at this ⊢ <;> tauto
  exact hmax _ h' hm.symm

/-! ### Exact arithmetic -/

/-- In exact arithmetic: triangles that come to the vertex from one side of a line through it, in different directions, are
ordered from right to left. -/
theorem ordersOn_of_side {F : Type} [Field F] [LinearOrder F] [IsStrictOrderedRing F] [Scalar F] [ExactField F]
    (t : Trimesh F) (v : Nat) (ids : List UInt32) (n : Vec2 F)
    (dir : UInt32 → Vec2 F) (hdir : ∀ id ∈ ids, ∀ d, ComesFrom t v id.toNat d ↔ d = dir id)
    (hside : ∀ id ∈ ids, 0 < n.x * (dir id).x + n.y * (dir id).y)
    (hdiff : ∀ a ∈ ids, ∀ b ∈ ids, a ≠ b → (dir a).x * (dir b).y - (dir a).y * (dir b).x ≠ 0) :
    OrdersOn (LeftOf t v) ids := by
  have hl : ∀ a ∈ ids, ∀ b ∈ ids, LeftOf t v a b ↔ 0 < (dir a).x * (dir b).y - (dir a).y * (dir b).x := by
    intro a ha b hb
    have e : ∀ p q : Vec2 F, (Scalar.lit 0 0 <. p.perpDot q) = true ↔ 0 < p.x * q.y - p.y * q.x := by
      intro p q
      rw [ExactField.lt, ExactField.lit]
      unfold Vec2.perpDot
      simp only [ExactField.mul, ExactField.sub]
      simp
    constructor
    · rintro ⟨da, db, h1, h2, h3⟩
      rw [hdir a ha] at h1
      rw [hdir b hb] at h2
      subst h1 h2
      exact (e _ _).1 h3
    · intro h
      exact ⟨_, _, (hdir a ha _).2 rfl, (hdir b hb _).2 rfl, (e _ _).2 h⟩
  refine ⟨?_, ?_, ?_⟩
  · intro a ha b hb hne
    rw [hl a ha b hb, hl b hb a ha]
    rcases lt_or_gt_of_ne (hdiff a ha b hb hne) with h | h
    · right; linarith
    · left; exact h
  · intro a ha b hb
    rw [hl a ha b hb, hl b hb a ha]
    intro h1 h2; linarith
  · intro a ha b hb c hc
    rw [hl a ha b hb, hl b hb c hc, hl a ha c hc]
    intro h1 h2
    have ka := hside a ha
    have kb := hside b hb
    have kc := hside c hc
    have key : (n.x * (dir b).x + n.y * (dir b).y) * ((dir a).x * (dir c).y - (dir a).y * (dir c).x) =
        (n.x * (dir a).x + n.y * (dir a).y) * ((dir b).x * (dir c).y - (dir b).y * (dir c).x) +
        (n.x * (dir c).x + n.y * (dir c).y) * ((dir a).x * (dir b).y - (dir a).y * (dir b).x) := by ring
    have : 0 < (n.x * (dir b).x + n.y * (dir b).y) * ((dir a).x * (dir c).y - (dir a).y * (dir c).x) := by
      rw [key]; positivity
    exact (pos_iff_pos_of_mul_pos this).1 kb

/-! ### Concrete cases -/

/-- Three triangles all around the origin. -/
def trefoil : Trimesh Rat :=
  { vertices := [v2 0 0, v2 4 0, v2 (-2) 3, v2 (-2) (-3)]
    triangles := [(0, 3, 1), (0, 1, 2), (0, 2, 3)] }

theorem trefoil_valid : trefoil.Valid := by
  refine ⟨by decide, by decide, ?_, ?_⟩
  · have : ∀ t ∈ trefoil.triangles, t.1 < 4 ∧ t.2.1 < 4 ∧ t.2.2 < 4 := by decide
    exact fun a b c h => this _ h
  · have : ∀ t ∈ trefoil.triangles, t.1 ≠ t.2.1 ∧ t.2.1 ≠ t.2.2 ∧ t.2.2 ≠ t.1 := by decide
    exact fun a b c h => this _ h

/-- The conversion succeeds, the origin is no corner, and vertex 1 is one. -/
example : ∃ m, trefoil.toMesh rustInsertion = .ok (.ok m) ∧
    (∃ l vx, m.layers = [l] ∧ l.vertices[0]? = some vx ∧ vx.isCorner = false) ∧
    (∃ l vx, m.layers = [l] ∧ l.vertices[1]? = some vx ∧ vx.isCorner = true) ∧
    ∃ l vx ring, m.layers = [l] ∧ l.vertices[1]? = some vx ∧ ring.Perm [0, 1] ∧ ring.Pairwise (LeftOf trefoil 1) ∧
      ListedAs trefoil 1 ring vx.polygons := by
  have h : resIs (trefoil.toMesh rustInsertion) (fun r => match r with | .ok _ => true | .error _ => false) = true := by
    decide +kernel
  obtain ⟨r, e, h⟩ := of_resIs h
  cases r with
  | error _ => simp at h
  | ok m =>
    have hedge : ∀ k v w, TriangleEdge trefoil k v w → k < 3 := by
      rintro k v w ⟨a, b, c, hk, -⟩
      exact lt_of_getElem? hk
    have hround : ∀ (v : Nat) (ids : List UInt32), ids.Nodup →
        (∀ id ∈ ids, id.toNat < 3 ∧ (triList (trefoil.triangles.getD id.toNat (0, 0, 0))).contains v = true) →
        (∀ k < 3, (triList (trefoil.triangles.getD k (0, 0, 0))).contains v = true → UInt32.ofNat k ∈ ids) →
        RoundAbout trefoil v ids := by
      intro v ids hn h1 h2
      refine ⟨hn, fun id => ⟨fun hid => ?_, ?_⟩⟩
      · obtain ⟨hlt, hc⟩ := h1 id hid
        refine ⟨?_, ?_⟩
        · rintro rfl
          have : u32Max.toNat = 2 ^ 32 - 1 := rfl
          omega
        · have hg : trefoil.triangles[id.toNat]? = some (trefoil.triangles.getD id.toNat (0, 0, 0)) := by
            rw [List.getD_eq_getElem?_getD, List.getElem?_eq_getElem (by exact hlt)]
            rfl
          obtain ⟨⟨a, b, c⟩, hx⟩ : ∃ x, x = trefoil.triangles.getD id.toNat (0, 0, 0) := ⟨_, rfl⟩
          rw [← hx] at hg hc
          refine ⟨a, b, c, hg, ?_⟩
          simpa [triList] using hc
      · rintro ⟨-, a, b, c, hk, hv⟩
        have hlt : id.toNat < 3 := lt_of_getElem? hk
        have := h2 id.toNat hlt (by
          rw [List.getD_eq_getElem?_getD, hk]
          simpa [triList] using hv)
        rwa [UInt32.ofNat_toNat] at this
    have hcf : ∀ (v k w : Nat) (c cw : Vec2 Rat), TriangleEdge trefoil k w v → trefoil.vertices[v]? = some c →
        trefoil.vertices[w]? = some cw → (∀ w', TriangleEdge trefoil k w' v → w' = w) →
        ∀ d, ComesFrom trefoil v k d ↔ d = cw - c := by
      intro v k w c cw h1 h2 h3 h4 d
      constructor
      · rintro ⟨w', c', cw', k1, k2, k3, rfl⟩
        have := h4 w' k1
        subst this
        rw [h2, Option.some.injEq] at k2
        rw [h3, Option.some.injEq] at k3
        rw [k2, k3]
      · rintro rfl
        exact ⟨w, c, cw, h1, h2, h3, rfl⟩
    have hun : ∀ (k a b c v w : Nat), trefoil.triangles[k]? = some (a, b, c) →
        (∀ w', ((w' = a ∧ v = b) ∨ (w' = b ∧ v = c) ∨ (w' = c ∧ v = a)) → w' = w) →
        ∀ w', TriangleEdge trefoil k w' v → w' = w := by
      rintro k a b c v w hk h w' ⟨a', b', c', hk', h'⟩
      rw [hk, Option.some.injEq, Prod.mk.injEq, Prod.mk.injEq] at hk'
      obtain ⟨rfl, rfl, rfl⟩ := hk'
      exact h w' h'
    have f00 := hcf 0 0 1 (v2 0 0) (v2 4 0) ⟨0, 3, 1, rfl, by decide⟩ rfl rfl (hun 0 0 3 1 0 1 rfl (by omega))
    have f01 := hcf 0 1 2 (v2 0 0) (v2 (-2) 3) ⟨0, 1, 2, rfl, by decide⟩ rfl rfl (hun 1 0 1 2 0 2 rfl (by omega))
    have f02 := hcf 0 2 3 (v2 0 0) (v2 (-2) (-3)) ⟨0, 2, 3, rfl, by decide⟩ rfl rfl (hun 2 0 2 3 0 3 rfl (by omega))
    have f10 := hcf 1 0 3 (v2 4 0) (v2 (-2) (-3)) ⟨0, 3, 1, rfl, by decide⟩ rfl rfl (hun 0 0 3 1 1 3 rfl (by omega))
    have f11 := hcf 1 1 0 (v2 4 0) (v2 0 0) ⟨0, 1, 2, rfl, by decide⟩ rfl rfl (hun 1 0 1 2 1 0 rfl (by omega))
    have hleft : ∀ (v : Nat) (a b : UInt32) (da db : Vec2 Rat), (∀ d, ComesFrom trefoil v a.toNat d ↔ d = da) →
        (∀ d, ComesFrom trefoil v b.toNat d ↔ d = db) →
        (LeftOf trefoil v a b ↔ (Scalar.lit 0 0 <. da.perpDot db) = true) := by
      intro v a b da db ha hb
      constructor
      · rintro ⟨x, y, h1, h2, h3⟩
        rw [ha] at h1
        rw [hb] at h2
        subst h1 h2
        exact h3
      · intro h
        exact ⟨da, db, (ha _).2 rfl, (hb _).2 rfl, h⟩
    refine ⟨m, e, ?_, ?_, ?_⟩
    · refine C50_three_partial trefoil trefoil_valid m e 0 (v2 0 0) rfl 0 1 2
        (hround 0 _ (by decide) (by decide) (by decide)) ?_ ?_ ?_ ?_ ?_ ?_ ?_ ?_ ?_
      · exact ⟨1, ⟨0, 3, 1, rfl, by decide⟩, ⟨0, 1, 2, rfl, by decide⟩⟩
      · exact ⟨2, ⟨0, 1, 2, rfl, by decide⟩, ⟨0, 2, 3, rfl, by decide⟩⟩
      · exact ⟨3, ⟨0, 2, 3, rfl, by decide⟩, ⟨0, 3, 1, rfl, by decide⟩⟩
      · rw [hleft 0 0 1 _ _ f00 f01]; decide +kernel
      · rw [hleft 0 1 2 _ _ f01 f02]; decide +kernel
      · rw [hleft 0 2 0 _ _ f02 f00]; decide +kernel
      · rw [hleft 0 1 0 _ _ f01 f00]; decide +kernel
      · rw [hleft 0 2 1 _ _ f02 f01]; decide +kernel
      · rw [hleft 0 0 2 _ _ f00 f02]; decide +kernel
    · refine C31_no_corner_missed trefoil trefoil_valid _ rustInsertion_permutes m e 1 (v2 4 0) rfl 0
        ⟨0, 3, 1, rfl, by decide⟩ (.inl ?_)
      rintro k' ⟨w, h1, a, b, c, h2, h3⟩
      have hw := hun 0 0 3 1 1 3 rfl (by omega) w h1
      subst hw
      have hlt : k' < 3 := lt_of_getElem? h2
      have : k' = 0 ∨ k' = 1 ∨ k' = 2 := by omega
      rcases this with rfl | rfl | rfl <;> cases h2 <;> omega
    · refine C31_counterclockwise trefoil trefoil_valid _ rustInsertion_permutes rustInsertion_sorts m e 1 (v2 4 0) rfl [0, 1]
        (hround 1 _ (by decide) (by decide) (by decide)) ?_
      have g01 := hleft 1 0 1 _ _ f10 f11
      have g10 := hleft 1 1 0 _ _ f11 f10
      have g00 := hleft 1 0 0 _ _ f10 f10
      have g11 := hleft 1 1 1 _ _ f11 f11
      have b01 : (Scalar.lit 0 0 <. Vec2.perpDot (v2 (-2) (-3) - v2 4 0) (v2 0 0 - v2 4 0)) = false := by decide +kernel
      have b10 : (Scalar.lit 0 0 <. Vec2.perpDot (v2 0 0 - v2 4 0) (v2 (-2) (-3) - v2 4 0)) = true := by decide +kernel
      have b00 : (Scalar.lit 0 0 <. Vec2.perpDot (v2 (-2) (-3) - v2 4 0) (v2 (-2) (-3) - v2 4 0)) = false := by decide +kernel
      have b11 : (Scalar.lit 0 0 <. Vec2.perpDot (v2 0 0 - v2 4 0) (v2 0 0 - v2 4 0)) = false := by decide +kernel
      rw [b01] at g01; rw [b10] at g10; rw [b00] at g00; rw [b11] at g11
      simp only [Bool.false_eq_true, iff_false, iff_true] at g01 g10 g00 g11
      refine ⟨?_, ?_, ?_⟩
      · intro a ha b hb
        simp only [List.mem_cons, List.not_mem_nil, or_false] at ha hb
        rcases ha with rfl | rfl <;> rcases hb with rfl | rfl <;> simp [*]
      · intro a ha b hb
        simp only [List.mem_cons, List.not_mem_nil, or_false] at ha hb
        rcases ha with rfl | rfl <;> rcases hb with rfl | rfl <;> simp [*]
      · intro a ha b hb c hc
        simp only [List.mem_cons, List.not_mem_nil, or_false] at ha hb hc
        rcases ha with rfl | rfl <;> rcases hb with rfl | rfl <;> rcases hc with rfl | rfl <;> simp [*]

end Polyanya
