import Verif.Proofs.MergeFuel
import Verif.Proofs.MergeInv
import Verif.Proofs.MergeArea
import Verif.Proofs.MergeSafe
import Mathlib.Tactic.Ring
import Mathlib.Tactic.Linarith
import Verif.Props.Islands
/-
Properties C24 (progress of `merge_polygons`), C25 (references after merging) and C26 (area).
-/

namespace Polyanya

variable {K : Type} [Scalar K]

/-! ### C24 -/

/-- The number of polygons of a mesh. -/
def Mesh.polygonCount (m : Mesh K) : Nat := (m.layers.map (fun l => l.polygons.length)).sum

/-- C24, one layer: `merge_polygons` terminates, whatever the layer and the convexity test; when it does not
panic, the number of polygons has not increased, it returns `true` exactly when the number decreased, and
a layer with polygons keeps at least one. -/
theorem C24_layer_progress (geo : Geo K) (l : Layer K) :
    l.mergePolygons geo ≠ .error .fuel ∧
    ∀ l' b, l.mergePolygons geo = .ok (l', b) →
      l'.polygons.length ≤ l.polygons.length ∧ (b = true ↔ l'.polygons.length < l.polygons.length) ∧
      (0 < l.polygons.length → 0 < l'.polygons.length) :=
  ⟨(noFuel_mergePolygons geo l).ne, fun _ _ h => mergePolygons_count h⟩

theorem mergeLayers_count {geo : Geo K} : ∀ {ls ls' : List (Layer K)} {b : Bool},
    mergeLayers geo ls = .ok (ls', b) →
      (ls'.map (fun l => l.polygons.length)).sum ≤ (ls.map (fun l => l.polygons.length)).sum ∧
      (b = true ↔ (ls'.map (fun l => l.polygons.length)).sum < (ls.map (fun l => l.polygons.length)).sum) ∧
      (0 < (ls.map (fun l => l.polygons.length)).sum → 0 < (ls'.map (fun l => l.polygons.length)).sum)
  | [], ls', b, h => by
    simp only [mergeLayers, Except.ok.injEq, Prod.mk.injEq] at h
    obtain ⟨rfl, rfl⟩ := h
    simp
  | l :: ls, ls', b, h => by
    unfold mergeLayers at h
    rw [bind_eq_ok] at h
    obtain ⟨⟨l1, b1⟩, h1, h⟩ := h
    obtain ⟨c1, c2, c3⟩ := mergePolygons_count h1
    simp only at h
    split at h
    · rename_i hb
      simp only [Except.ok.injEq, Prod.mk.injEq] at h
      obtain ⟨rfl, rfl⟩ := h
      have := c2.1 hb
      simp only [List.map_cons, List.sum_cons, true_iff]
      refine ⟨by omega, by omega, ?_⟩
      intro _
      have := c3 (by omega)
      omega
    · rename_i hb
      rw [bind_eq_ok] at h
      obtain ⟨⟨ls1, b2⟩, h2, h⟩ := h
      simp only [Except.ok.injEq, Prod.mk.injEq] at h
      obtain ⟨rfl, rfl⟩ := h
      obtain ⟨d1, d2, d3⟩ := mergeLayers_count h2
      have hn : ¬ l1.polygons.length < l.polygons.length := fun h => hb (c2.2 h)
      simp only [List.map_cons, List.sum_cons]
      refine ⟨by omega, by rw [d2]; omega, ?_⟩
      intro hpos
      by_cases h0 : 0 < l.polygons.length
      · have := c3 h0; omega
      · have := d3 (by omega); omega

/-- C24, mesh: the same for the total number of polygons. -/
theorem C24_mesh_progress (geo : Geo K) (m : Mesh K) :
    m.mergePolygons geo ≠ .error .fuel ∧
    ∀ m' b, m.mergePolygons geo = .ok (m', b) →
      m'.polygonCount ≤ m.polygonCount ∧ (b = true ↔ m'.polygonCount < m.polygonCount) ∧
      (0 < m.polygonCount → 0 < m'.polygonCount) := by
  constructor
  · exact (noFuel_bind (noFuel_mergeLayers geo m.layers) (fun _ _ => noFuel_ok _)).ne
  · intro m' b h
    unfold Mesh.mergePolygons at h
    rw [bind_eq_ok] at h
    obtain ⟨⟨ls, b'⟩, h1, h⟩ := h
    simp only [Except.ok.injEq, Prod.mk.injEq] at h
    obtain ⟨rfl, rfl⟩ := h
    exact mergeLayers_count h1

/-- `k` consecutive calls of `mesh.merge_polygons()` that all returned `true` lead from `m` to `m'`: `k` rounds
of `while mesh.merge_polygons() {}`. -/
inductive MergeRounds (geo : Geo K) : Mesh K → Nat → Mesh K → Prop
  | zero {m : Mesh K} : MergeRounds geo m 0 m
  | succ {m m' m'' : Mesh K} {k : Nat} : MergeRounds geo m k m' →
      m'.mergePolygons geo = .ok (m'', true) → MergeRounds geo m (k + 1) m''

/-- C24, loop: `while mesh.merge_polygons() {}` ends after at most as many calls as there are polygons (one call
for an empty mesh): after `k` calls that returned `true` there are at least `k` polygons less, so `k` is less
than the number of polygons and the call with number `k + 1` is among the first `max 1 (number of polygons)`. -/
theorem C24_loop_ends (geo : Geo K) (m m' : Mesh K) (k : Nat) (h : MergeRounds geo m k m') :
    m'.polygonCount + k ≤ m.polygonCount ∧ k + 1 ≤ max 1 m.polygonCount := by
  have key : m'.polygonCount + k ≤ m.polygonCount ∧ (0 < m.polygonCount → 0 < m'.polygonCount) := by
    induction h with
    | zero => exact ⟨le_refl _, id⟩
    | succ _ h2 ih =>
      obtain ⟨c1, c2, c3⟩ := (C24_mesh_progress geo _).2 _ _ h2
      have := c2.1 rfl
      exact ⟨by omega, fun hp => c3 (ih.2 hp)⟩
  refine ⟨key.1, ?_⟩
  by_cases h0 : 0 < m.polygonCount
  · have := key.2 h0
    have := key.1
    omega
  · have := key.1
    omega

/-! ### C25 -/

theorem mem_dedupList {α : Type} [DecidableEq α] {a : α} : ∀ {l : List α}, a ∈ dedupList l ↔ a ∈ l
  | [] => Iff.rfl
  | [b] => Iff.rfl
  | b :: c :: l => by
    unfold dedupList
    split
    · rename_i h
      subst h
      rw [mem_dedupList]
      simp
    · rw [List.mem_cons, mem_dedupList, List.mem_cons (l := c :: l)]

theorem dedupList_head {α : Type} [DecidableEq α] : ∀ {l : List α}, (dedupList l).head? = l.head?
  | [] => rfl
  | [b] => rfl
  | b :: c :: l => by
    unfold dedupList
    split
    · rename_i h
      subst h
      rw [dedupList_head]
      rfl
    · rfl

/-- No two consecutive elements are equal. -/
theorem dedupList_chain {α : Type} [DecidableEq α] : ∀ {l : List α}, (dedupList l).IsChain (· ≠ ·)
  | [] => by simp [dedupList]
  | [b] => by simp [dedupList]
  | b :: c :: l => by
    unfold dedupList
    split
    · exact dedupList_chain
    · rename_i h
      have h1 := dedupList_head (l := c :: l)
      have h2 := dedupList_chain (l := c :: l)
      cases hd : dedupList (c :: l) with
      | nil => simp [hd] at h1
      | cons y t =>
        rw [hd] at h1 h2
        simp only [List.head?_cons, Option.some.injEq] at h1
        subst h1
        exact List.isChain_cons_cons.2 ⟨h, h2⟩

/-- Reference `id'` replaces `id` when polygon `p` has become polygon `f p`. -/
def Redirect (f : Nat → Nat) (id : UInt32) : UInt32 :=
  if id = u32Max then u32Max else UInt32.ofNat (f id.toNat)

/-- The polygon numbers after merging. -/
def newIndex (new : List (Option Nat)) (p : Nat) : Nat := ((new[p]?).bind id).getD 0

theorem mergeVertex_ok {new : List (Option Nat)} (hd : ∀ x, x < new.length → ∃ j, new[x]? = some (some j))
    {v v' : Vertex K} (h : mergeVertex new v = .ok v') :
    v' = { v with polygons := dedupList (v.polygons.map (Redirect (newIndex new))) } ∧
      ∀ id ∈ v.polygons, id ≠ u32Max → id.toNat < new.length := by
  unfold mergeVertex at h
  rw [bind_eq_ok] at h
  obtain ⟨ps, hps, h⟩ := h
  simp only [Except.ok.injEq] at h
  subst h
  rw [mapM_ok_iff] at hps
  have : ps = v.polygons.map (Redirect (newIndex new)) ∧
      ∀ id ∈ v.polygons, id ≠ u32Max → id.toNat < new.length := by
    generalize v.polygons = l at hps
    induction hps with
    | nil => simp
    | @cons a b l ps h1 _ ih =>
      rw [List.map_cons, ← ih.1]
      unfold renumber at h1
      unfold Redirect
      split at h1
      · rename_i hm
        simp only [Except.ok.injEq] at h1
        subst h1 hm
        refine ⟨by simp, ?_⟩
        intro id hid hne
        rcases List.mem_cons.1 hid with rfl | hid
        · exact absurd rfl hne
        · exact ih.2 id hid hne
      · rename_i hm
        rw [bind_eq_ok] at h1
        obtain ⟨o, ho, h1⟩ := h1
        simp only [Except.ok.injEq] at h1
        rw [idx_eq_ok] at ho
        have hlt := (List.getElem?_eq_some_iff.1 ho).1
        obtain ⟨j, hj⟩ := hd a.toNat hlt
        rw [ho] at hj
        cases hj
        simp only [Option.map_some, Option.getD_some] at h1
        refine ⟨?_, ?_⟩
        · rw [if_neg hm, ← h1]
          simp [newIndex, ho]
        · intro id hid hne
          rcases List.mem_cons.1 hid with rfl | hid
          · exact hlt
          · exact ih.2 id hid hne
  exact ⟨by rw [this.1], this.2⟩

theorem newIndex_eq {new : List (Option Nat)} {x j : Nat} (h : new[x]? = some (some j)) :
    newIndex new x = j := by simp [newIndex, h]

/-- C25, references, for every layer and every convexity test: if `merge_polygons` does not panic, there is a map
`f` from the old polygon indices onto the new ones such that each vertex keeps its index, coordinates and
corner flag and lists exactly the polygons that its polygons have become (`u32::MAX` stays), without equal
consecutive entries; all references point to existing polygons; the layer is not baked, and its offset and
scale are unchanged. -/
theorem C25_references (geo : Geo K) (l l' : Layer K) (b : Bool) (hsz : l.polygons.length ≤ 2 ^ 24 - 1)
    (h : l.mergePolygons geo = .ok (l', b)) :
    ∃ f : Nat → Nat, (∀ p, p < l.polygons.length → f p < l'.polygons.length) ∧
      (∀ j, j < l'.polygons.length → ∃ p, p < l.polygons.length ∧ f p = j) ∧
      l'.vertices.length = l.vertices.length ∧
      (∀ (i : Nat) (v v' : Vertex K), l.vertices[i]? = some v → l'.vertices[i]? = some v' →
        v'.coords = v.coords ∧ v'.isCorner = v.isCorner ∧
        (∀ id', id' ∈ v'.polygons ↔ ∃ id ∈ v.polygons, id' = Redirect f id) ∧
        v'.polygons.IsChain (· ≠ ·) ∧
        (∀ id ∈ v'.polygons, id ≠ u32Max → id.toNat < l'.polygons.length)) ∧
      l'.offset = l.offset ∧ l'.scale = l.scale ∧ l'.baked = none ∧ l'.islands = none := by
  obtain ⟨order, st, cst, vs, _, _, hb, hinv, hvs, rfl, rfl⟩ := mergePolygons_ok h
  have hk := hinv.keptLe
  have hlen : (cst.polygons.take cst.kept).length = cst.kept := by
    rw [List.length_take, hinv.polyLen, hb.polyLen]; omega
  have hnl : cst.new.length = l.polygons.length := by rw [hinv.newLen, hb.polyLen]
  have hd : ∀ x, x < cst.new.length → ∃ j, cst.new[x]? = some (some j) := by
    intro x hx; rw [hnl] at hx; exact hinv.done x hx
  rw [mapM_ok_iff] at hvs
  refine ⟨newIndex cst.new, ?_, ?_, ?_, ?_, rfl, rfl, rfl, rfl⟩
  · intro p hp
    obtain ⟨j, hj⟩ := hinv.done p hp
    rw [newIndex_eq hj]
    simp only [hlen]
    exact (hinv.slot p j hj).1
  · intro j hj
    simp only [hlen] at hj
    obtain ⟨r, hr, hrj⟩ := hinv.surj j hj
    exact ⟨r, by rw [← hb.parLen]; exact hr.lt, newIndex_eq hrj⟩
  · exact hvs.length_eq.symm
  · intro i v v' hv hv'
    have hv'' : vs[i]? = some v' := hv'
    have hi : i < l.vertices.length := (List.getElem?_eq_some_iff.1 hv).1
    have hi' : i < vs.length := (List.getElem?_eq_some_iff.1 hv'').1
    have hmv := (List.forall₂_iff_get.1 hvs).2 i hi hi'
    simp only [List.get_eq_getElem] at hmv
    rw [(List.getElem?_eq_some_iff.1 hv).2, (List.getElem?_eq_some_iff.1 hv'').2] at hmv
    obtain ⟨rfl, hrange⟩ := mergeVertex_ok hd hmv
    have hmem : ∀ id', id' ∈ dedupList (v.polygons.map (Redirect (newIndex cst.new))) ↔
        ∃ id ∈ v.polygons, id' = Redirect (newIndex cst.new) id := by
      intro id'
      rw [mem_dedupList, List.mem_map]
      simp only [eq_comm]
    refine ⟨rfl, rfl, hmem, dedupList_chain, ?_⟩
    intro id hid hne
    obtain ⟨old, hold, rfl⟩ := (hmem id).1 hid
    unfold Redirect at hne ⊢
    split at hne
    · exact absurd rfl hne
    · rename_i ho
      rw [if_neg ho]
      obtain ⟨j, hj⟩ := hd old.toNat (hrange old hold ho)
      have hj' := (hinv.slot _ j hj).1
      rw [newIndex_eq hj]
      simp only [hlen]
      rw [UInt32.toNat_ofNat_of_lt' (by simp [UInt32.size]; omega)]
      exact hj'

/-- C25 and the boundary part of C26, on consistent conforming layers, for convexity tests that reject rings
visiting a point twice: the result is consistent again, its polygons again have at least three different
vertices, and each is the union of the polygons that were redirected to it (exactly their vertices; exactly
their edges without those that occur in both directions); a polygon that absorbed no other one is unchanged. -/
theorem C25_consistent (geo : Geo K) (hg : geo.RejectsRepeats) (l l' : Layer K) (b : Bool)
    (hcon : l.Consistent) (hc : l.Conforming) (h : l.mergePolygons geo = .ok (l', b)) :
    l'.Consistent ∧ (∀ p ∈ l'.polygons, p.vertices.Nodup ∧ 3 ≤ p.vertices.length) ∧
    ∃ f : Nat → Nat,
      (∀ (i : Nat) (v v' : Vertex K), l.vertices[i]? = some v → l'.vertices[i]? = some v' →
        ∀ id', id' ∈ v'.polygons ↔ ∃ id ∈ v.polygons, id' = Redirect f id) ∧
      (∀ p, p < l.polygons.length → f p < l'.polygons.length) ∧
      (∀ (j : Nat) p', l'.polygons[j]? = some p' →
        IsUnion p' (fun q => ∃ m, f m = j ∧ l.polygons[m]? = some q)) ∧
      (∀ (j k : Nat) p', l'.polygons[j]? = some p' → f k = j → k < l.polygons.length →
        (∀ m, m < l.polygons.length → f m = j → m = k) → l.polygons[k]? = some p') := by
  have hsz := hcon.sized
  obtain ⟨order, st, cst, vs, ho, hst, hb, hinv, hvs, hl', rfl⟩ := mergePolygons_ok h
  have hk := hinv.keptLe
  have hlen : (cst.polygons.take cst.kept).length = cst.kept := by
    rw [List.length_take, hinv.polyLen, hb.polyLen]; omega
  have hnl : cst.new.length = l.polygons.length := by rw [hinv.newLen, hb.polyLen]
  have hd : ∀ x, x < cst.new.length → ∃ j, cst.new[x]? = some (some j) := by
    intro x hx; rw [hnl] at hx; exact hinv.done x hx
  have hcon' : l.unbake.Consistent := ⟨hcon.sized, hcon.polygonVertex, hcon.vertexPolygon⟩
  have hc' : l.unbake.Conforming := ⟨hc.nodup, hc.three, hc.opposite⟩
  have hm : MInv l.unbake [] st := mergeLoop_inv hg hcon' hc' ho hst
  -- the root of a new polygon
  have hroot : ∀ (j : Nat) p', l'.polygons[j]? = some p' → ∃ r, Root st.parent r r ∧
      cst.new[r]? = some (some j) ∧ st.polygons[r]? = some p' := by
    intro j p' hp
    rw [hl'] at hp
    have hp2 : (cst.polygons.take cst.kept)[j]? = some p' := hp
    have hj : j < cst.kept := by
      rw [← hlen]; exact (List.getElem?_eq_some_iff.1 hp2).1
    rw [List.getElem?_take_of_lt hj] at hp2
    obtain ⟨r, hr, hrj⟩ := hinv.surj j hj
    refine ⟨r, hr, hrj, ?_⟩
    rw [← hp2]
    exact (hinv.moved r j (by rw [← hb.parLen]; exact hr.lt) hr hrj).symm
  -- polygons with the same new index have the same root
  have hcls : ∀ r j, Root st.parent r r → cst.new[r]? = some (some j) → ∀ m, m < l.polygons.length →
      (newIndex cst.new m = j ↔ Root st.parent m r) := by
    intro r j hr hrj m hmlt
    obtain ⟨j', hj'⟩ := hinv.done m hmlt
    rw [newIndex_eq hj']
    obtain ⟨_, s, hs, hsj⟩ := hinv.slot m j' hj'
    constructor
    · rintro rfl
      rw [hinv.inj r s j' hr hs.rootSelf hrj hsj]; exact hs
    · intro hmr
      have := hmr.unique hs
      subst this
      rw [hrj] at hsj
      simpa using hsj.symm
  have hunion : ∀ (j : Nat) p', l'.polygons[j]? = some p' →
      p'.vertices.Nodup ∧ 3 ≤ p'.vertices.length ∧
      IsUnion p' (fun q => ∃ m, newIndex cst.new m = j ∧ l.polygons[m]? = some q) := by
    intro j p' hp
    obtain ⟨r, hr, hrj, hrp⟩ := hroot j p' hp
    have := hm.poly r p' hr hrp
    refine ⟨this.nodup, this.three, ?_⟩
    have heq : (fun q => ∃ m, newIndex cst.new m = j ∧ l.polygons[m]? = some q) =
        InClass l.unbake st.parent r := by
      funext q
      unfold InClass
      apply propext
      constructor
      · rintro ⟨m, h1, h2⟩
        exact ⟨m, (hcls r j hr hrj m (List.getElem?_eq_some_iff.1 h2).1).1 h1, h2⟩
      · rintro ⟨m, h1, h2⟩
        exact ⟨m, (hcls r j hr hrj m (List.getElem?_eq_some_iff.1 h2).1).2 h1, h2⟩
    rw [heq]; exact this.union
  -- vertices
  rw [mapM_ok_iff] at hvs
  have hvert : ∀ (i : Nat) (v v' : Vertex K), l.vertices[i]? = some v → l'.vertices[i]? = some v' →
      (∀ id', id' ∈ v'.polygons ↔ ∃ id ∈ v.polygons, id' = Redirect (newIndex cst.new) id) ∧
      ∀ id ∈ v.polygons, id ≠ u32Max → id.toNat < l.polygons.length := by
    intro i v v' hv hv'
    rw [hl'] at hv'
    have hv'' : vs[i]? = some v' := hv'
    have hi : i < l.vertices.length := (List.getElem?_eq_some_iff.1 hv).1
    have hi' : i < vs.length := (List.getElem?_eq_some_iff.1 hv'').1
    have hmv := (List.forall₂_iff_get.1 hvs).2 i hi hi'
    simp only [List.get_eq_getElem] at hmv
    rw [(List.getElem?_eq_some_iff.1 hv).2, (List.getElem?_eq_some_iff.1 hv'').2] at hmv
    obtain ⟨rfl, hrange⟩ := mergeVertex_ok hd hmv
    refine ⟨?_, by rw [← hnl]; exact hrange⟩
    intro id'
    rw [mem_dedupList, List.mem_map]
    simp only [eq_comm]
  have hvlen : l'.vertices.length = l.vertices.length := by
    rw [hl']; exact hvs.length_eq.symm
  have hplen : l'.polygons.length = cst.kept := by rw [hl']; exact hlen
  have hidx : ∀ m, m < l.polygons.length → newIndex cst.new m < cst.kept := by
    intro m hmlt
    obtain ⟨j, hj⟩ := hinv.done m hmlt
    rw [newIndex_eq hj]
    exact (hinv.slot m j hj).1
  have hpack : ∀ m, m < l.polygons.length → (UInt32.ofNat (newIndex cst.new m)).toNat = newIndex cst.new m := by
    intro m hmlt
    have := hidx m hmlt
    exact UInt32.toNat_ofNat_of_lt' (by simp [UInt32.size]; omega)
  refine ⟨⟨by rw [hplen]; omega, ?_, ?_⟩, ?_, newIndex cst.new, fun i v v' h1 h2 => (hvert i v v' h1 h2).1,
    ?_, fun j p' hp => (hunion j p' hp).2.2, ?_⟩
  · intro k p' hp v hv
    obtain ⟨q, ⟨m, hmk, hmq⟩, hvq⟩ := ((hunion k p' hp).2.2.vertices v).1 hv
    obtain ⟨vx, hvx, hmem⟩ := hcon.polygonVertex m q hmq v hvq
    have hlt : v.toNat < l'.vertices.length := by
      rw [hvlen]; exact (List.getElem?_eq_some_iff.1 hvx).1
    refine ⟨_, List.getElem?_eq_getElem hlt, ?_⟩
    rw [(hvert _ _ _ hvx (List.getElem?_eq_getElem hlt)).1]
    refine ⟨_, hmem, ?_⟩
    have hmlt := (List.getElem?_eq_some_iff.1 hmq).1
    have hmn : (UInt32.ofNat m).toNat = m := UInt32.toNat_ofNat_of_lt' (by simp [UInt32.size]; omega)
    have hne : UInt32.ofNat m ≠ u32Max := by
      intro he
      have := congrArg UInt32.toNat he
      rw [hmn] at this
      simp [u32Max] at this
      omega
    unfold Redirect
    rw [if_neg hne, hmn, hmk]
  · intro v vx' hvx' id hid hne
    have hlt : v.toNat < l.vertices.length := by
      rw [← hvlen]; exact (List.getElem?_eq_some_iff.1 hvx').1
    have hvx := List.getElem?_eq_getElem hlt
    obtain ⟨h1, h2⟩ := hvert _ _ _ hvx hvx'
    obtain ⟨old, hold, rfl⟩ := (h1 id).1 hid
    unfold Redirect at hne ⊢
    split at hne
    · exact absurd rfl hne
    · rename_i hom
      rw [if_neg hom]
      have holt := h2 old hold hom
      rw [hpack _ holt]
      obtain ⟨q, hq, hvq⟩ := hcon.vertexPolygon v _ hvx old hold hom
      have hjlt : newIndex cst.new old.toNat < l'.polygons.length := by
        rw [hplen]; exact hidx _ holt
      refine ⟨_, List.getElem?_eq_getElem hjlt, ?_⟩
      rw [(hunion _ _ (List.getElem?_eq_getElem hjlt)).2.2.vertices]
      exact ⟨q, ⟨old.toNat, rfl, hq⟩, hvq⟩
  · intro p' hp
    obtain ⟨j, hj⟩ := List.mem_iff_getElem?.1 hp
    exact ⟨(hunion j p' hj).1, (hunion j p' hj).2.1⟩
  · intro p hp
    rw [hplen]; exact hidx p hp
  · intro j k p' hp hkj hklt hone
    obtain ⟨r, hr, hrj, hrp⟩ := hroot j p' hp
    have hrlt : r < l.polygons.length := by rw [← hb.parLen]; exact hr.lt
    have hrk : r = k := hone r hrlt (newIndex_eq hrj)
    subst hrk
    have := hm.single r hr (by
      intro m hmr
      have hmlt : m < l.polygons.length := by rw [← hb.parLen]; exact hmr.lt
      exact hone m hmlt ((hcls r j hr hrj m hmlt).2 hmr))
    rw [hrp] at this
    exact this.symm

/-- C24 and C25, no panic: on a consistent layer whose polygons have at least three different vertices and whose
areas are numbers, `merge_polygons` returns, for every convexity test. -/
theorem C25_no_panic (geo : Geo K) (l : Layer K) (hcon : l.Consistent) (hv : l.vertices.length ≤ 2 ^ 32)
    (hn : ∀ p ∈ l.polygons, p.vertices.Nodup ∧ 3 ≤ p.vertices.length)
    (hnan : ∀ p ∈ l.polygons, ∀ cs, l.coordsOf p.vertices = .ok cs → Scalar.isNan (geo.area cs) = false) :
    ∃ l' b, l.mergePolygons geo = .ok (l', b) :=
  mergePolygons_total hcon (fun p hp => (hn p hp).1) (fun p hp => (hn p hp).2) hv hnan

/-! ### C26 -/

theorem cycEdges_eq_rotate {α : Type} (vs : List α) : cycEdges vs = vs.zip (vs.rotate 1) := by
  cases vs with
  | nil => rfl
  | cons v vs =>
    show (v :: vs ++ [v]).zip (v :: vs ++ [v]).tail = _
    have e : (v :: vs ++ [v]).tail = (vs ++ [v]) ++ [] := by simp
    rw [e, List.zip_append (by simp)]
    simp

theorem sum_map_half {α : Type} (f : α → ℝ) : ∀ l : List α, (l.map (fun e => f e / 2)).sum = (l.map f).sum / 2
  | [] => by simp
  | a :: l => by simp only [List.map_cons, List.sum_cons, sum_map_half f l]; ring

/-- C26: on a consistent conforming layer, with a convexity test that rejects rings visiting a point twice, the sum
of the (exact) signed areas of all polygons is the same before and after `merge_polygons`, whatever numbers the
coordinates stand for. -/
theorem C26_total_area (geo : Geo K) (hg : geo.RejectsRepeats) (l l' : Layer K) (b : Bool)
    (hcon : l.Consistent) (hc : l.Conforming) (h : l.mergePolygons geo = .ok (l', b)) (val : K → ℝ) :
    (l'.polygons.map (l'.signedArea val)).sum = (l.polygons.map (l.signedArea val)).sum := by
  obtain ⟨f, -, -, hlen, hv, -⟩ := C25_references geo l l' b hcon.sized h
  have hpos : l'.position val = l.position val := by
    funext v
    unfold Layer.position
    by_cases hlt : v.toNat < l.vertices.length
    · have h1 := List.getElem?_eq_getElem hlt
      have h2 := List.getElem?_eq_getElem (l := l'.vertices) (i := v.toNat) (by rw [hlen]; exact hlt)
      obtain ⟨hc, -⟩ := hv _ _ _ h1 h2
      rw [h1, h2]
      simp only [hc]
    · rw [List.getElem?_eq_none (by omega), List.getElem?_eq_none (by omega)]
  have hsa : l'.signedArea val = l.signedArea val := by
    funext p
    unfold Layer.signedArea
    rw [hpos]
  rw [hsa]
  have hw : l.signedArea val = fun p => polyW (fun e : UInt32 × UInt32 =>
      ((l.position val e.1).1 * (l.position val e.2).2 - (l.position val e.1).2 * (l.position val e.2).1) / 2) p := by
    funext p
    unfold Layer.signedArea polyW
    rw [cycEdges_eq_rotate, sum_map_half]
  rw [hw]
  exact mergePolygons_sum hg hcon hc h _ (by intro a b; ring)

end Polyanya
