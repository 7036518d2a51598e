import Verif.Spec.Trimesh
import Verif.Props.Islands
import Mathlib.Data.List.Rotate
/-
C31: conversion of triangle meshes.
-/

namespace Polyanya

variable {K : Type} [Scalar K]

/-! ### Triangles -/

theorem toNat_ofNat_lt {n : Nat} (h : n < 2 ^ 32) : (UInt32.ofNat n).toNat = n := by
  rw [UInt32.toNat_ofNat']
  exact Nat.mod_eq_of_lt h

/-- The corners before and after a corner. -/
theorem tri_neighbors {a b c v : Nat} (ha : a < 2 ^ 32) (hb : b < 2 ^ 32) (hc : c < 2 ^ 32) (hab : a ≠ b) (hbc : b ≠ c)
    (hca : c ≠ a) (hv : v = a ∨ v = b ∨ v = c) :
    ∃ p n, ccwNeighbor ((triList (a, b, c)).map UInt32.ofNat) v = .ok p ∧
      cwNeighbor ((triList (a, b, c)).map UInt32.ofNat) v = .ok n ∧
      ((v = a ∧ p = c ∧ n = b) ∨ (v = b ∧ p = a ∧ n = c) ∨ (v = c ∧ p = b ∧ n = a)) := by
  have e1 := toNat_ofNat_lt ha
  have e2 := toNat_ofNat_lt hb
  have e3 := toNat_ofNat_lt hc
  unfold ccwNeighbor cwNeighbor triPosition triList
  rcases hv with rfl | rfl | rfl
  · refine ⟨c, b, ?_, ?_, .inl ⟨rfl, rfl, rfl⟩⟩ <;>
      simp [List.findIdx?_cons, e1, e2, e3, idx, res_bind_ok]
  · refine ⟨a, c, ?_, ?_, .inr (.inl ⟨rfl, rfl, rfl⟩)⟩ <;>
      simp [List.findIdx?_cons, e1, e2, e3, idx, res_bind_ok, hab]
  · refine ⟨b, a, ?_, ?_, .inr (.inr ⟨rfl, rfl, rfl⟩)⟩ <;>
      simp [List.findIdx?_cons, e1, e2, e3, idx, res_bind_ok, hbc, hca.symm]

theorem toPolygons_get {t : Trimesh K} {k : Nat} {tri : Nat × Nat × Nat} (h : t.triangles[k]? = some tri) :
    (toPolygons t.triangles)[k]? = some (Polygon.new ((triList tri).map UInt32.ofNat) (t.triangles.length == 1)) := by
  unfold toPolygons
  rw [List.getElem?_map, h]; rfl

/-- Around a corner of a triangle. -/
theorem neighbors_of {t : Trimesh K} (ht : t.Valid) {v : Nat} {id : UInt32} (h : InTriangle t v id.toNat) :
    ∃ pl p n, (toPolygons t.triangles)[id.toNat]? = some pl ∧ ccwNeighbor pl.vertices v = .ok p ∧
      cwNeighbor pl.vertices v = .ok n ∧ TriangleEdge t id.toNat p v ∧ TriangleEdge t id.toNat v n ∧
      p < t.vertices.length ∧ (∀ w, TriangleEdge t id.toNat w v → w = p) ∧ (∀ w, TriangleEdge t id.toNat v w → w = n) := by
  obtain ⟨a, b, c, hk, hv⟩ := h
  have hm := List.mem_of_getElem? hk
  obtain ⟨ha, hb, hc⟩ := ht.inRange a b c hm
  obtain ⟨hab, hbc, hca⟩ := ht.distinct a b c hm
  have := ht.vertices
  obtain ⟨p, n, h1, h2, h3⟩ := tri_neighbors (a := a) (b := b) (c := c) (by omega) (by omega) (by omega) hab hbc hca hv
  refine ⟨_, p, n, toPolygons_get hk, h1, h2, ⟨a, b, c, hk, ?_⟩, ⟨a, b, c, hk, ?_⟩, ?_, ?_, ?_⟩
  · omega
  · omega
  · omega
  · rintro w ⟨a', b', c', hk', h⟩
    rw [hk, Option.some.injEq, Prod.mk.injEq, Prod.mk.injEq] at hk'
    omega
  · rintro w ⟨a', b', c', hk', h⟩
    rw [hk, Option.some.injEq, Prod.mk.injEq, Prod.mk.injEq] at hk'
    omega

theorem inTriangle_lt {t : Trimesh K} {v k : Nat} (h : InTriangle t v k) : k < t.triangles.length := by
  obtain ⟨a, b, c, hk, -⟩ := h
  exact lt_of_getElem? hk

/-! ### The neighbours before sorting -/

/-- The triangles that contain vertex `v`. -/
def trianglesOf (t : Trimesh K) (v : Nat) : List UInt32 :=
  (t.triangles.zipIdx.filter (fun tj => (triList tj.1).contains v)).map (fun tj => UInt32.ofNat tj.2)

theorem mem_trianglesOf {t : Trimesh K} (ht : t.Valid) {v : Nat} {id : UInt32} :
    id ∈ trianglesOf t v ↔ id ≠ u32Max ∧ InTriangle t v id.toNat := by
  unfold trianglesOf
  rw [List.mem_map]
  have hmem : ∀ tri : Nat × Nat × Nat, (triList tri).contains v = true ↔ (v = tri.1 ∨ v = tri.2.1 ∨ v = tri.2.2) := by
    intro tri; simp [triList]
  constructor
  · rintro ⟨⟨tri, k⟩, hk, rfl⟩
    rw [List.mem_filter, List.mem_zipIdx_iff_getElem?] at hk
    have hlt := lt_of_getElem? hk.1
    have := ht.triangles
    have e := toNat_ofNat_lt (n := k) (by simp only at hlt; omega)
    refine ⟨?_, tri.1, tri.2.1, tri.2.2, by simp only; rw [e]; exact hk.1, (hmem tri).1 hk.2⟩
    intro hmax
    have hmax' := congrArg UInt32.toNat hmax
    simp only at hmax'
    rw [e] at hmax'
    have : u32Max.toNat = 2 ^ 32 - 1 := rfl
    simp only at hlt
    omega
  · rintro ⟨-, a, b, c, hk, hv⟩
    refine ⟨((a, b, c), id.toNat), ?_, by simp⟩
    rw [List.mem_filter, List.mem_zipIdx_iff_getElem?]
    exact ⟨hk, (hmem _).2 hv⟩

theorem trianglesOf_nodup {t : Trimesh K} (ht : t.Valid) (v : Nat) : (trianglesOf t v).Nodup := by
  unfold trianglesOf
  have hn : (t.triangles.zipIdx.filter (fun tj => (triList tj.1).contains v)).Pairwise (fun a b => a.2 ≠ b.2) := by
    apply List.Pairwise.filter
    have : (t.triangles.zipIdx.map (·.2)).Nodup := by
      rw [List.zipIdx_map_snd]
      exact List.nodup_range'
    rw [List.Nodup, List.pairwise_map] at this
    exact this
  rw [List.Nodup, List.pairwise_map]
  refine List.Pairwise.imp_of_mem ?_ hn
  intro a b ha hb hne h
  have h1 : ∀ x ∈ t.triangles.zipIdx.filter (fun tj => (triList tj.1).contains v), x.2 < t.triangles.length := by
    intro x hx
    rw [List.mem_filter, List.mem_zipIdx_iff_getElem?] at hx
    exact lt_of_getElem? hx.1
  have := h1 a ha
  have := h1 b hb
  have := ht.triangles
  have h := congrArg UInt32.toNat h
  rw [toNat_ofNat_lt (by omega), toNat_ofNat_lt (by omega)] at h
  exact hne h

theorem toVertices_get {t : Trimesh K} {v : Nat} : t.toVertices[v]? =
    (t.vertices[v]?).map (fun c => Vertex.new c (trianglesOf t v)) := by
  unfold Trimesh.toVertices trianglesOf
  rw [List.getElem?_map, List.getElem?_zipIdx, Option.map_map]
  simp only [Nat.zero_add]
  rfl

/-! ### Sorting -/

theorem sortCcw_spec {t : Trimesh K} (ht : t.Valid) {sorter : TriSorter} (hs : sorter.Permutes) {v : Nat} {c : Vec2 K}
    : (sortCcw sorter (toPolygons t.triangles) t.toVertices v (Vertex.new c (trianglesOf t v)) = .error .panic ∧
        ∃ less l, sorter less l = none) ∨
      ∃ ps, sortCcw sorter (toPolygons t.triangles) t.toVertices v (Vertex.new c (trianglesOf t v)) = .ok ps ∧
        ps.Perm (trianglesOf t v) := by
  unfold sortCcw
  split
  · exact .inr ⟨_, rfl, .refl _⟩
  · have hsafe : Safe ((Vertex.new c (trianglesOf t v)).polygons.mapM
        (ccwEdge (toPolygons t.triangles) t.toVertices v (Vertex.new c (trianglesOf t v)).coords)) := by
      apply safe_mapM
      intro id hid
      obtain ⟨-, hin⟩ := (mem_trianglesOf ht).1 hid
      obtain ⟨pl, p, n, h1, h2, h3, h4, h5, h6, -⟩ := neighbors_of ht hin
      unfold ccwEdge
      rw [idx_eq_ok.2 h1, res_bind_ok, h2, res_bind_ok]
      have : ∃ nb, t.toVertices[p]? = some nb := by
        rw [toVertices_get, List.getElem?_eq_getElem h6]
        exact ⟨_, rfl⟩
      obtain ⟨nb, hnb⟩ := this
      rw [idx_eq_ok.2 hnb, res_bind_ok]
      exact safe_ok _
    obtain ⟨z, hz⟩ := hsafe.ex
    rw [hz, res_bind_ok]
    split
    · rename_i l hl
      exact .inr ⟨l, rfl, hs _ _ _ hl⟩
    · rename_i hl
      exact .inl ⟨rfl, _, _, hl⟩

/-! ### Gaps -/

open Classical in
/-- Is there a gap between two following triangles? -/
noncomputable def gapBetween (t : Trimesh K) (v : Nat) (e : UInt32 × UInt32) : Bool := decide (¬ NextTo t v e.1.toNat e.2.toNat)

theorem gapStep_spec {t : Trimesh K} (ht : t.Valid) {v : Nat} {a q : UInt32} {acc : List UInt32}
    (hacc : acc.getLast? = some a) (hne : a ≠ u32Max) (ha : InTriangle t v a.toNat) (hq : InTriangle t v q.toNat) :
    gapStep (toPolygons t.triangles) v acc q =
      .ok (acc ++ if gapBetween t v (a, q) then [u32Max, q] else [q]) := by
  obtain ⟨pl, p, n, h1, h2, -, h4, -, -, h7, -⟩ := neighbors_of ht ha
  obtain ⟨pl', p', n', h1', -, h3', -, h5', -, -, h8'⟩ := neighbors_of ht hq
  have key : gapBetween t v (a, q) = true ↔ p ≠ n' := by
    unfold gapBetween NextTo
    simp only [decide_eq_true_eq]
    constructor
    · rintro h rfl
      exact h ⟨p, h4, h5'⟩
    · rintro h ⟨w, hw, hw'⟩
      exact h ((h7 w hw).symm.trans (h8' w hw'))
  unfold gapStep
  rw [hacc]
  simp only [hne, if_false]
  rw [idx_eq_ok.2 h1, res_bind_ok, h2, res_bind_ok, idx_eq_ok.2 h1', res_bind_ok, h3', res_bind_ok]
  by_cases h : p = n'
  · have : gapBetween t v (a, q) = false := by
      rw [Bool.eq_false_iff]
      intro hg
      exact key.1 hg h
    rw [if_neg (not_not.2 h), this]
    rfl
  · rw [if_pos h, key.2 h]
    simp

theorem gapLoop_spec {t : Trimesh K} (ht : t.Valid) {v : Nat} : ∀ (l : List UInt32) (a : UInt32) (acc : List UInt32),
    acc.getLast? = some a → a ≠ u32Max → InTriangle t v a.toNat →
    (∀ q ∈ l, q ≠ u32Max ∧ InTriangle t v q.toNat) →
    l.foldlM (gapStep (toPolygons t.triangles) v) acc = .ok (acc ++
      ((a :: l).zip l).flatMap (fun e => if gapBetween t v e then [u32Max, e.2] else [e.2]))
  | [], a, acc, _, _, _, _ => by
    simp only [List.foldlM_nil, List.zip_nil_right, List.flatMap_nil, List.append_nil]
    rfl
  | q :: l, a, acc, hacc, hne, ha, hl => by
    have hq := hl q (by simp)
    rw [List.foldlM_cons, gapStep_spec ht hacc hne ha hq.2, res_bind_ok,
      gapLoop_spec ht l q _ ?_ hq.1 hq.2 (fun r hr => hl r (List.mem_cons_of_mem _ hr))]
    · simp [List.zip_cons_cons, List.flatMap_cons]
    · split <;> simp

theorem addGaps_spec {t : Trimesh K} (ht : t.Valid) {v : Nat} {first : UInt32} {rest : List UInt32}
    (h : ∀ q ∈ first :: rest, q ≠ u32Max ∧ InTriangle t v q.toNat) :
    addGaps (toPolygons t.triangles) v first rest = .ok
      (((first :: rest).zip ((first :: rest).rotate 1)).flatMap
        (fun e => if gapBetween t v e then [u32Max, e.2] else [e.2])) := by
  unfold addGaps
  have h0 := h first (by simp)
  rw [gapLoop_spec ht (rest ++ [first]) first [first] rfl h0.1 h0.2, res_bind_ok]
  · simp only [List.singleton_append, List.drop_succ_cons, List.drop_zero, List.rotate_cons_succ, List.rotate_zero]
    congr 2
    rw [← List.cons_append]
    have : ((first :: rest) ++ [first]).zip (rest ++ [first]) = ((first :: rest) ++ [first]).zip ((rest ++ [first]) ++ []) := by
      simp
    rw [this, List.zip_append (by simp)]
    simp
  · intro q hq
    apply h
    rcases List.mem_append.1 hq with hq | hq
    · exact List.mem_cons_of_mem _ hq
    · rw [List.mem_singleton] at hq
      subst hq; simp

/-! ### All vertices -/

theorem around_of {t : Trimesh K} (ht : t.Valid) {v : Nat} {ring : List UInt32} (h : ring.Perm (trianglesOf t v)) :
    Around t v ((ring.zip (ring.rotate 1)).flatMap (fun e => if gapBetween t v e then [u32Max, e.2] else [e.2])) := by
  refine ⟨ring, gapBetween t v, h.nodup_iff.2 (trianglesOf_nodup ht v), ?_, rfl, ?_⟩
  · intro id
    rw [h.mem_iff, mem_trianglesOf ht]
  · intro e _
    simp [gapBetween]

/-- Some vertex of the list is in no triangle. -/
def UnusedIn (t : Trimesh K) (l : List (Vec2 K × Nat)) : Prop := ∃ ci ∈ l, ∀ k, ¬ InTriangle t ci.2 k

theorem orderAll_spec {t : Trimesh K} (ht : t.Valid) {sorter : TriSorter} (hs : sorter.Permutes) :
    ∀ l : List (Vec2 K × Nat),
      (orderAll sorter (toPolygons t.triangles) t.toVertices
          (l.map (fun ci => (Vertex.new ci.1 (trianglesOf t ci.2), ci.2))) = .error .panic ∧
        ∃ less l, sorter less l = none) ∨
      (UnusedIn t l ∧ orderAll sorter (toPolygons t.triangles) t.toVertices
          (l.map (fun ci => (Vertex.new ci.1 (trianglesOf t ci.2), ci.2))) = .ok (.error .invalidMesh)) ∨
      (¬ UnusedIn t l ∧ ∃ vs, orderAll sorter (toPolygons t.triangles) t.toVertices
          (l.map (fun ci => (Vertex.new ci.1 (trianglesOf t ci.2), ci.2))) = .ok (.ok vs) ∧
        List.Forall₂ (fun (ci : Vec2 K × Nat) vx => ∃ ps, vx = Vertex.new ci.1 ps ∧ Around t ci.2 ps) l vs)
  | [] => .inr (.inr ⟨by rintro ⟨_, h, -⟩; simp at h, [], rfl, .nil⟩)
  | (c, v) :: l => by
    rw [List.map_cons]
    unfold orderAll
    rcases sortCcw_spec ht hs (v := v) (c := c) with ⟨h1, h2⟩ | ⟨ps, h1, h2⟩
    · refine .inl ⟨?_, h2⟩
      simp only [h1]
      rfl
    · simp only [h1, res_bind_ok]
      cases ps with
      | nil =>
        refine .inr (.inl ⟨⟨(c, v), by simp, ?_⟩, rfl⟩)
        intro k hk
        have hlt := inTriangle_lt hk
        have := ht.triangles
        have e := toNat_ofNat_lt (n := k) (by omega)
        have : UInt32.ofNat k ∈ ([] : List UInt32) := by
          rw [h2.mem_iff, mem_trianglesOf ht, e]
          refine ⟨?_, hk⟩
          intro hmax
          have hmax := congrArg UInt32.toNat hmax
          rw [e] at hmax
          have : u32Max.toNat = 2 ^ 32 - 1 := rfl
          omega
        simp at this
      | cons first rest =>
        have hin : ∀ q ∈ first :: rest, q ≠ u32Max ∧ InTriangle t v q.toNat := by
          intro q hq
          rw [h2.mem_iff, mem_trianglesOf ht] at hq
          exact hq
        simp only [addGaps_spec ht hin, res_bind_ok]
        rcases orderAll_spec ht hs l with ⟨h3, h4⟩ | ⟨h3, h4⟩ | ⟨h3, vs, h4, h5⟩
        · refine .inl ⟨?_, h4⟩
          rw [h3]; rfl
        · refine .inr (.inl ⟨?_, ?_⟩)
          · obtain ⟨ci, hci, h⟩ := h3
            exact ⟨ci, List.mem_cons_of_mem _ hci, h⟩
          · rw [h4, res_bind_ok]
        · refine .inr (.inr ⟨?_, _, by rw [h4, res_bind_ok]; rfl, .cons ⟨_, rfl, around_of ht h2⟩ h5⟩)
          rintro ⟨ci, hci, h⟩
          rcases List.mem_cons.1 hci with rfl | hci
          · exact h _ (hin first (by simp)).2
          · exact h3 ⟨ci, hci, h⟩

theorem toVertices_zipIdx (t : Trimesh K) : t.toVertices.zipIdx =
    t.vertices.zipIdx.map (fun ci => (Vertex.new ci.1 (trianglesOf t ci.2), ci.2)) := by
  apply List.ext_getElem?
  intro i
  rw [List.getElem?_zipIdx, toVertices_get, List.getElem?_map, List.getElem?_zipIdx]
  cases t.vertices[i]? <;> simp

theorem mem_around {t : Trimesh K} {v : Nat} {ps : List UInt32} (h : Around t v ps) {id : UInt32} (hid : id ≠ u32Max) :
    id ∈ ps ↔ InTriangle t v id.toNat := by
  obtain ⟨ring, gap, -, hring, rfl, -⟩ := h
  rw [List.mem_flatMap]
  constructor
  · rintro ⟨e, he, hm⟩
    have : id = e.2 := by
      split at hm
      · simp only [List.mem_cons, List.not_mem_nil, or_false] at hm
        exact hm.resolve_left hid
      · simpa using hm
    subst this
    have := (List.of_mem_zip he).2
    rw [List.mem_rotate] at this
    exact ((hring _).1 this).2
  · intro h
    have h1 : id ∈ ring.rotate 1 := List.mem_rotate.2 ((hring id).2 ⟨hid, h⟩)
    obtain ⟨i, hi, rfl⟩ := List.getElem_of_mem h1
    have hlen : (ring.rotate 1).length = ring.length := List.length_rotate ..
    refine ⟨(ring[i]'(by omega), (ring.rotate 1)[i]), ?_, ?_⟩
    · rw [List.mem_iff_getElem]
      exact ⟨i, by rw [List.length_zip]; omega, by simp⟩
    · split <;> simp

/-- **C31**: the conversion of a valid triangle mesh panics only if the sort does. Else it fails with `EmptyMesh` iff there
is no vertex, with `InvalidMesh` iff some vertex is in no triangle, with `TooManyPolygons` iff neither holds and there are
more triangles than can be numbered, and gives otherwise the mesh made of the triangles (`FromTriangles`), which is
consistent. -/
theorem C31_trimesh (t : Trimesh K) (ht : t.Valid) (sorter : TriSorter) (hs : sorter.Permutes) :
    (t.toMesh sorter = .error .panic ∧ ∃ less l, sorter less l = none) ∨
    ∃ r, t.toMesh sorter = .ok r ∧
      (r = .error .emptyMesh ↔ t.vertices = []) ∧
      (r = .error .invalidMesh ↔ ∃ v, v < t.vertices.length ∧ ∀ k, ¬ InTriangle t v k) ∧
      (r = .error .tooManyPolygons ↔ (∀ v, v < t.vertices.length → ∃ k, InTriangle t v k) ∧ 2 ^ 24 - 1 < t.triangles.length) ∧
      (∀ m, r = .ok m → FromTriangles t m) := by
  have hunused : UnusedIn t t.vertices.zipIdx ↔ ∃ v, v < t.vertices.length ∧ ∀ k, ¬ InTriangle t v k := by
    constructor
    · rintro ⟨⟨c, v⟩, h, hk⟩
      rw [List.mem_zipIdx_iff_getElem?] at h
      exact ⟨v, lt_of_getElem? h, hk⟩
    · rintro ⟨v, hv, hk⟩
      exact ⟨(t.vertices[v], v), by rw [List.mem_zipIdx_iff_getElem?]; simp, hk⟩
  unfold Trimesh.toMesh
  simp only []
  rw [toVertices_zipIdx]
  rcases orderAll_spec ht hs t.vertices.zipIdx with ⟨h1, h2⟩ | ⟨h1, h2⟩ | ⟨h1, vs, h2, h3⟩
  · refine .inl ⟨?_, h2⟩
    rw [h1]; rfl
  · rw [h2, res_bind_ok]
    refine .inr ⟨_, rfl, ?_, ?_, ?_, ?_⟩
    · simp only [reduceCtorEq, false_iff, Except.error.injEq]
      rintro h
      rw [h] at h1
      obtain ⟨_, h, -⟩ := h1
      simp at h
    · simp only [true_iff]
      exact hunused.1 h1
    · simp only [reduceCtorEq, false_iff, Except.error.injEq]
      rintro ⟨h, -⟩
      obtain ⟨v, hv, hk⟩ := hunused.1 h1
      obtain ⟨k, hk'⟩ := h v hv
      exact hk k hk'
    · rintro m ⟨⟩
  · rw [h2, res_bind_ok]
    rw [hunused] at h1
    have hlen : t.vertices.length = vs.length := by simpa using h3.length_eq
    have hempty : vs = [] ↔ t.vertices = [] := by
      rw [← List.length_eq_zero_iff, ← hlen, List.length_eq_zero_iff]
    have htri : t.triangles = [] → t.vertices = [] := by
      intro h
      by_contra hne
      apply h1
      refine ⟨0, List.length_pos_iff.2 hne, ?_⟩
      intro k hk
      have := inTriangle_lt hk
      rw [h] at this
      simp at this
    have hused : ∀ v, v < t.vertices.length → ∃ k, InTriangle t v k := by
      intro v hv
      by_contra h
      exact h1 ⟨v, hv, fun k hk => h ⟨k, hk⟩⟩
    have hvx : ∀ (v : Nat) (c : Vec2 K), t.vertices[v]? = some c → ∃ ps, vs[v]? = some (Vertex.new c ps) ∧ Around t v ps := by
      intro v c hc
      have hlt := lt_of_getElem? hc
      have := h3.get (i := v) (by simpa using hlt) (by omega)
      obtain ⟨ps, e, ha⟩ := this
      rw [List.getElem?_eq_getElem hlt, Option.some.injEq] at hc
      subst hc
      refine ⟨ps, ?_, by simpa using ha⟩
      rw [List.getElem?_eq_getElem (by omega)]
      simpa using e
    simp only
    unfold Mesh.new Layer.new
    by_cases hv0 : t.vertices = []
    · have : vs = [] := hempty.2 hv0
      subst this
      have ht0 : t.triangles = [] := by
        by_contra hne
        obtain ⟨⟨a, b, c⟩, l, e⟩ := List.exists_cons_of_ne_nil hne
        have := (ht.inRange a b c (by rw [e]; simp)).1
        rw [hv0] at this
        simp at this
      refine .inr ⟨.error .emptyMesh, rfl, ?_, ?_, ?_, ?_⟩
      · simp [hv0]
      · simp [hv0]
      · simp only [reduceCtorEq, false_iff, Except.error.injEq, ht0]
        rintro ⟨-, h⟩
        simp at h
      · rintro m ⟨⟩
    · have hp0 : toPolygons t.triangles ≠ [] := by
        intro h
        exact hv0 (htri (by simpa [toPolygons] using h))
      have hvs0 : vs ≠ [] := fun h => hv0 (hempty.1 h)
      have hplen : (toPolygons t.triangles).length = t.triangles.length := by simp [toPolygons]
      rw [if_neg (by simp [hp0, hvs0]), hplen]
      by_cases hbig : t.triangles.length > 2 ^ 24 - 1
      · rw [if_pos hbig, res_bind_ok]
        refine .inr ⟨.error .tooManyPolygons, rfl, ?_, ?_, ?_, ?_⟩
        · simp [hv0]
        · simp only [reduceCtorEq, false_iff, Except.error.injEq]
          exact h1
        · simp only [true_iff]
          exact ⟨hused, hbig⟩
        · rintro m ⟨⟩
      · rw [if_neg hbig]
        have hpoly : ∀ (k : Nat) p, (toPolygons t.triangles)[k]? = some p → ∃ tri, t.triangles[k]? = some tri ∧
            p = Polygon.new ((triList tri).map UInt32.ofNat) (t.triangles.length == 1) := by
          intro k p hp
          unfold toPolygons at hp
          rw [List.getElem?_map, Option.map_eq_some_iff] at hp
          obtain ⟨tri, h1, h2⟩ := hp
          exact ⟨tri, h1, h2.symm⟩
        have hcons : (Layer.mk' vs (toPolygons t.triangles)).bakePolygonFinder.Consistent := by
          refine ⟨?_, ?_, ?_⟩
          · show (toPolygons t.triangles).length ≤ _
            omega
          · intro k p hp v hvp
            obtain ⟨⟨a, b, c⟩, hk, rfl⟩ := hpoly k p hp
            have hm := List.mem_of_getElem? hk
            have hr := ht.inRange a b c hm
            have := ht.vertices
            have hlt := lt_of_getElem? hk
            have e : ∃ x, (x = a ∨ x = b ∨ x = c) ∧ v = UInt32.ofNat x := by
              simp only [Polygon.new, triList, List.map_cons, List.map_nil, List.mem_cons, List.not_mem_nil, or_false] at hvp
              rcases hvp with h | h | h
              · exact ⟨a, .inl rfl, h⟩
              · exact ⟨b, .inr (.inl rfl), h⟩
              · exact ⟨c, .inr (.inr rfl), h⟩
            obtain ⟨x, hx, rfl⟩ := e
            have hxlt : x < t.vertices.length := by omega
            obtain ⟨ps, hvs, ha⟩ := hvx x t.vertices[x] (List.getElem?_eq_getElem hxlt)
            refine ⟨_, by rw [toNat_ofNat_lt (by omega)]; exact hvs, ?_⟩
            show UInt32.ofNat k ∈ ps
            have ek := toNat_ofNat_lt (n := k) (by have := ht.triangles; omega)
            rw [mem_around ha, ek]
            · exact ⟨a, b, c, hk, hx⟩
            · intro hmax
              have := congrArg UInt32.toNat hmax
              rw [ek] at this
              have hm : u32Max.toNat = 2 ^ 32 - 1 := rfl
              omega
          · intro v vx hv id hid hne
            have hv' : vs[v.toNat]? = some vx := hv
            have hlt := lt_of_getElem? hv'
            have hlt' : v.toNat < t.vertices.length := by omega
            obtain ⟨ps, hvs, ha⟩ := hvx v.toNat t.vertices[v.toNat] (List.getElem?_eq_getElem hlt')
            rw [hv', Option.some.injEq] at hvs
            subst hvs
            obtain ⟨a, b, c, hk, hin⟩ := (mem_around ha hne).1 hid
            refine ⟨_, toPolygons_get hk, ?_⟩
            simp only [Polygon.new, triList, List.map_cons, List.map_nil, List.mem_cons, List.not_mem_nil, or_false]
            rcases hin with h | h | h <;> simp [← h]
        obtain ⟨isl, hbake, -⟩ := C13_islands_are_components _ hcons
        have hb : (Layer.mk' vs (toPolygons t.triangles)).bake = .ok
            { (Layer.mk' vs (toPolygons t.triangles)).bakePolygonFinder with islands := some isl } := hbake
        rw [hb, res_bind_ok, res_bind_ok]
        refine .inr ⟨_, rfl, ?_, ?_, ?_, ?_⟩
        · simp [hv0]
        · simp only [reduceCtorEq, false_iff]
          exact h1
        · simp only [reduceCtorEq, false_iff]
          exact fun h => hbig h.2
        · rintro m ⟨⟩
          refine ⟨_, rfl, rfl, ⟨hcons.sized, hcons.polygonVertex, hcons.vertexPolygon⟩, ?_, hlen.symm, ?_⟩
          · show toPolygons t.triangles = _
            rfl
          · intro v c hc
            obtain ⟨ps, hps, ha⟩ := hvx v c hc
            exact ⟨_, hps, rfl, by simp [Vertex.new], ha⟩

end Polyanya
