import Verif.Proofs.MergeInv
import Mathlib.Algebra.BigOperators.Group.Finset.Basic
import Mathlib.Algebra.BigOperators.Fin
import Mathlib.Algebra.BigOperators.Intervals
/-
Sums over the edges of all polygons that merging keeps (C26).
-/

namespace Polyanya

variable {K : Type} [Scalar K] {A : Type} [AddCommGroup A]

/-- The sum of a weight over the edges of a polygon. -/
def polyW (w : UInt32 × UInt32 → A) (p : Polygon) : A := ((cycEdges p.vertices).map w).sum

open Classical in
/-- The sum over the polygons of the roots. -/
noncomputable def rootSum (w : UInt32 × UInt32 → A) (n : Nat) (st : MergeState) : A :=
  ∑ r ∈ Finset.range n, if Root st.parent r r then (st.polygons[r]?).elim 0 (polyW w) else 0

/-- What is known when two polygons are merged. -/
theorem merge_facts {l : Layer K} (hcon : l.Consistent) (hc : l.Conforming) {i : Nat} {todo : List Nat}
    {st : MergeState} (h : MInv l (i :: todo) st) {a b : UInt32} {Y X : Polygon} {o : UInt32}
    {start stop : Vertex K} (hi : Root st.parent i i) (hp : st.polygons[i]? = some Y)
    (hYe : IsEdge Y.vertices a b) (hstart : l.vertices[a.toNat]? = some start)
    (hstop : l.vertices[b.toNat]? = some stop) (ho1 : o ∈ start.polygons) (ho2 : o ∈ stop.polygons)
    (hoM : o ≠ u32Max) (hoi : o ≠ UInt32.ofNat i) (ho : Root st.parent o.toNat o.toNat)
    (hX : st.polygons[o.toNat]? = some X) :
    o.toNat ≠ i ∧ a ≠ b ∧ Y.vertices.Nodup ∧ X.vertices.Nodup ∧ IsEdge X.vertices b a := by
  have hYo : l.polygons[i]? = some Y := by rw [← h.todo i (by simp)]; exact hp
  have hoi' : o.toNat ≠ i := by
    intro he
    apply hoi
    rw [← he]
    exact UInt32.ofNat_toNat.symm
  obtain ⟨Q, hQ, haQ⟩ := hcon.vertexPolygon a start hstart o ho1 hoM
  obtain ⟨Q', hQ', hbQ⟩ := hcon.vertexPolygon b stop hstop o ho2 hoM
  obtain rfl : Q = Q' := by rw [hQ] at hQ'; exact Option.some.inj hQ'
  have hQe : IsEdge Q.vertices b a := hc.opposite i o.toNat Y Q a b hYo hQ (Ne.symm hoi') hYe haQ hbQ
  have mY := h.poly i Y hi hp
  have mX := h.poly o.toNat X ho hX
  refine ⟨hoi', isEdge_ne mY.nodup mY.three hYe, mY.nodup, mX.nodup, ?_⟩
  rw [mX.union.edges]
  refine ⟨⟨Q, ⟨o.toNat, ho, hQ⟩, hQe⟩, ?_⟩
  rintro ⟨R, ⟨m, hm, hR⟩, hRe⟩
  have hRmem := List.mem_of_getElem? hR
  have hmi : i ≠ m := by
    rintro rfl
    exact hoi' (hm.unique hi)
  have := hc.opposite i m Y R a b hYo hR hmi hYe (by
    obtain ⟨k, _, h1, _⟩ := hRe; exact List.mem_of_getElem? h1) (by
    obtain ⟨k, _, _, h1⟩ := hRe; exact List.mem_of_getElem? h1)
  exact isEdge_asymm (hc.nodup R hRmem) (hc.three R hRmem) hRe this

theorem MStep.rootSum {geo : Geo K} {l : Layer K} (hcon : l.Consistent) (hc : l.Conforming) {i : Nat}
    {todo : List Nat} {st st' : MergeState} (hs : MStep geo l i st st') (h : MInv l (i :: todo) st)
    (w : UInt32 × UInt32 → A) (hw : ∀ a b, w (a, b) + w (b, a) = 0) :
    rootSum w l.polygons.length st' = rootSum w l.polygons.length st := by
  classical
  cases hs with
  | skip => rfl
  | @merge a b Y X o start stop cs par' hi hp hYe hstart hstop ho1 ho2 hoM hoi ho hX hcs hconv hl hr =>
    obtain ⟨hoi', hab, hYn, hXn, hXe⟩ := merge_facts hcon hc h hi hp hYe hstart hstop ho1 ho2 hoM hoi ho hX
    obtain ⟨je, -, -⟩ := join_spec hYn hXn hab hYe hXe
    have hroots := join_roots h.base.ok hl hr
    have hin : i < st.polygons.length := (List.getElem?_eq_some_iff.1 hp).1
    have hil : i < l.polygons.length := by rw [← h.base.polyLen]; exact hin
    have hol : o.toNat < l.polygons.length := by
      rw [← h.base.polyLen]; exact (List.getElem?_eq_some_iff.1 hX).1
    have hwJ : polyW w { vertices := joinVertices Y.vertices X.vertices (a, b), isOneWay := false } =
        polyW w Y + polyW w X := by
      have := (je.map w).sum_eq
      simp only [List.map_append, List.sum_append, List.map_cons, List.map_nil, List.sum_cons,
        List.sum_nil, add_zero, hw] at this
      exact this
    have hnot : ¬ Root par' o.toNat o.toNat := by
      intro h1
      have := h1.unique ((hroots _ _).2 ⟨_, ho, rfl⟩)
      simp at this
      exact hoi' this
    have hiroot : Root par' i i := (hroots _ _).2 ⟨i, hi, by simp [Ne.symm hoi']⟩
    have hother : ∀ r, r ≠ i → r ≠ o.toNat → (Root par' r r ↔ Root st.parent r r) := by
      intro r hri hro
      rw [hroots]
      constructor
      · rintro ⟨s, hs, hse⟩
        split at hse
        · exact absurd hse hri
        · subst hse; exact hs
      · intro h1
        exact ⟨r, h1, by simp [hro]⟩
    unfold Polyanya.rootSum
    simp only
    have hi1 : i ∈ Finset.range l.polygons.length := Finset.mem_range.2 hil
    have ho1 : o.toNat ∈ (Finset.range l.polygons.length).erase i :=
      Finset.mem_erase.2 ⟨hoi', Finset.mem_range.2 hol⟩
    rw [← Finset.add_sum_erase _ _ hi1, ← Finset.add_sum_erase _ _ ho1,
      ← Finset.add_sum_erase (Finset.range l.polygons.length) _ hi1,
      ← Finset.add_sum_erase ((Finset.range l.polygons.length).erase i) _ ho1]
    rw [if_pos hiroot, if_neg hnot, if_pos hi, if_pos ho, hp, hX, set_get? hin, if_pos rfl]
    simp only [Option.elim_some, hwJ, zero_add]
    rw [add_assoc]
    congr 2
    apply Finset.sum_congr rfl
    intro r hr
    simp only [Finset.mem_erase] at hr
    rw [set_get? hin, if_neg hr.2.1]
    simp only [hother r hr.2.1 hr.1]

theorem sum_eq_range (g : Polygon → A) : ∀ P : List Polygon,
    (P.map g).sum = ∑ r ∈ Finset.range P.length, (P[r]?).elim 0 g
  | [] => by simp
  | p :: P => by
    rw [List.length_cons, Finset.sum_range_succ', List.map_cons, List.sum_cons, sum_eq_range g P]
    simp [add_comm]

theorem mergeLoop_rootSum {geo : Geo K} {l : Layer K} (hg : geo.RejectsRepeats) (hcon : l.Consistent)
    (hc : l.Conforming) {order : List Nat} {st : MergeState} (ho : l.mergeOrder geo = .ok order)
    (h : order.foldlM (l.mergeOne geo) { polygons := l.polygons, parent := ufNew l.polygons.length } =
      .ok st) (w : UInt32 × UInt32 → A) (hw : ∀ a b, w (a, b) + w (b, a) = 0) :
    rootSum w l.polygons.length st = (l.polygons.map (polyW w)).sum := by
  classical
  have h0 : rootSum w l.polygons.length
      { polygons := l.polygons, parent := ufNew l.polygons.length } = (l.polygons.map (polyW w)).sum := by
    unfold rootSum
    rw [sum_eq_range]
    apply Finset.sum_congr rfl
    intro r hr
    rw [if_pos (ufNew_root (Finset.mem_range.1 hr))]
  rw [← h0]
  exact (foldlM_todo (fun todo s => MInv l todo s ∧ rootSum w l.polygons.length s = rootSum w _ _)
    ((mergeOrder_perm ho).nodup_iff.2 List.nodup_range) ⟨MInv.init hc _, rfl⟩
    (fun s a t s' hnot hinv hs => ⟨(mergeOne_step hs).inv hg hcon hc hnot hinv.1,
      ((mergeOne_step hs).rootSum hcon hc hinv.1 w hw).trans hinv.2⟩) h).2

/-- The renumbering keeps the sum. -/
theorem compact_sum {st : MergeState} {n : Nat} (hb : MBase n st) {cst : CompactState}
    (hinv : CInv st.parent st.polygons n cst) (w : UInt32 × UInt32 → A) :
    ((cst.polygons.take cst.kept).map (polyW w)).sum = rootSum w n st := by
  classical
  have hk := hinv.keptLe
  have hlen : (cst.polygons.take cst.kept).length = cst.kept := by
    rw [List.length_take, hinv.polyLen, hb.polyLen]; omega
  rw [sum_eq_range, hlen]
  unfold rootSum
  rw [← Finset.sum_filter]
  symm
  have hslot : ∀ r, r < n → ∃ j, cst.new[r]? = some (some j) := hinv.done
  refine Finset.sum_bij' (fun r _ => ((cst.new[r]?).bind id).getD 0)
    (fun j _ => if h : ∃ r, Root st.parent r r ∧ cst.new[r]? = some (some j) then h.choose else 0)
    ?_ ?_ ?_ ?_ ?_
  · intro r hr
    simp only [Finset.mem_filter, Finset.mem_range] at hr ⊢
    obtain ⟨j, hj⟩ := hslot r hr.1
    simp only [hj, Option.bind_some, id, Option.getD_some]
    exact (hinv.slot r j hj).1
  · intro j hj
    have hex := hinv.surj j (Finset.mem_range.1 hj)
    simp only [Finset.mem_filter, Finset.mem_range, dif_pos hex]
    exact ⟨by rw [← hb.parLen]; exact hex.choose_spec.1.lt, hex.choose_spec.1⟩
  · intro r hr
    simp only [Finset.mem_filter, Finset.mem_range] at hr
    obtain ⟨j, hj⟩ := hslot r hr.1
    simp only [hj, Option.bind_some, id, Option.getD_some]
    have hex : ∃ r, Root st.parent r r ∧ cst.new[r]? = some (some j) := ⟨r, hr.2, hj⟩
    rw [dif_pos hex]
    exact hinv.inj _ _ j hex.choose_spec.1 hr.2 hex.choose_spec.2 hj
  · intro j hj
    have hex := hinv.surj j (Finset.mem_range.1 hj)
    simp only [dif_pos hex, hex.choose_spec.2, Option.bind_some, id, Option.getD_some]
  · intro r hr
    simp only [Finset.mem_filter, Finset.mem_range] at hr
    obtain ⟨j, hj⟩ := hslot r hr.1
    simp only [hj, Option.bind_some, id, Option.getD_some]
    rw [List.getElem?_take_of_lt (hinv.slot r j hj).1, hinv.moved r j hr.1 hr.2 hj]

/-- Any antisymmetric weight of directed edges has the same sum over all polygons before and after merging. -/
theorem mergePolygons_sum {geo : Geo K} {l l' : Layer K} {b : Bool} (hg : geo.RejectsRepeats)
    (hcon : l.Consistent) (hc : l.Conforming) (h : l.mergePolygons geo = .ok (l', b))
    (w : UInt32 × UInt32 → A) (hw : ∀ a b, w (a, b) + w (b, a) = 0) :
    (l'.polygons.map (polyW w)).sum = (l.polygons.map (polyW w)).sum := by
  obtain ⟨order, st, cst, vs, ho, hst, hb, hinv, -, rfl, -⟩ := mergePolygons_ok h
  have hcon' : l.unbake.Consistent := ⟨hcon.sized, hcon.polygonVertex, hcon.vertexPolygon⟩
  have hc' : l.unbake.Conforming := ⟨hc.nodup, hc.three, hc.opposite⟩
  exact (compact_sum hb hinv w).trans (mergeLoop_rootSum hg hcon' hc' ho hst w hw)

end Polyanya
