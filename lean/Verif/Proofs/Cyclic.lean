import Verif.Model.Merger
import Verif.Proofs.Corridor
import Mathlib.Data.List.Perm.Basic
import Mathlib.Data.List.Nodup
import Mathlib.Data.Multiset.AddSub
import Mathlib.Algebra.Order.Group.Multiset
import Mathlib.Tactic.Abel
/-
Polygons as cyclic lists: their edges, cutting them at an edge, joining two of them.
-/

namespace Polyanya

variable {α : Type}

/-- The cyclically consecutive pairs. -/
def cycEdges : List α → List (α × α)
  | [] => []
  | v :: vs => windows2 (v :: vs ++ [v])

theorem windows2_nil : windows2 ([] : List α) = [] := rfl
theorem windows2_single (a : α) : windows2 [a] = [] := rfl
theorem windows2_cons (a b : α) (l : List α) : windows2 (a :: b :: l) = (a, b) :: windows2 (b :: l) := rfl

theorem windows2_append (l : List α) (c : α) (r : List α) :
    windows2 (l ++ c :: r) = windows2 (l ++ [c]) ++ windows2 (c :: r) := by
  induction l with
  | nil => simp [windows2_single]
  | cons a l ih =>
    cases l with
    | nil => simp [windows2_cons, windows2_single]
    | cons b l =>
      simp only [List.cons_append, windows2_cons] at ih ⊢
      rw [ih]

theorem cycEdges_rotate (s t : List α) : (cycEdges (s ++ t)).Perm (cycEdges (t ++ s)) := by
  cases s with
  | nil => simp
  | cons x s =>
    cases t with
    | nil => simp
    | cons y t =>
      have h1 : cycEdges (x :: s ++ y :: t) = windows2 (x :: s ++ [y]) ++ windows2 (y :: t ++ [x]) := by
        have := windows2_append (x :: s) y (t ++ [x])
        simpa [cycEdges] using this
      have h2 : cycEdges (y :: t ++ x :: s) = windows2 (y :: t ++ [x]) ++ windows2 (x :: s ++ [y]) := by
        have := windows2_append (y :: t) x (s ++ [y])
        simpa [cycEdges] using this
      rw [h1, h2]
      exact List.perm_append_comm

theorem mem_cycEdges {vs : List UInt32} {a b : UInt32} : (a, b) ∈ cycEdges vs ↔ IsEdge vs a b := by
  cases vs with
  | nil => simp [cycEdges, IsEdge]
  | cons v vs =>
    have hes : ({ vertices := v :: vs, isOneWay := false } : Polygon).edgesIndex =
      .ok (windows2 (v :: vs) ++ [((v :: vs).getLast (by simp), v)]) := rfl
    rw [← mem_edgesIndex hes]
    have : windows2 (v :: vs ++ [v]) = windows2 (v :: vs) ++ [((v :: vs).getLast (by simp), v)] := by
      have hl := (v :: vs).dropLast_append_getLast (by simp)
      generalize hg : (v :: vs).getLast (by simp) = g at hl ⊢
      generalize hd : (v :: vs).dropLast = d at hl
      rw [← hl]
      have := windows2_append d g [v]
      simpa [windows2_cons, windows2_single] using this
    simp only [cycEdges, this]

theorem isEdge_rotate {s t : List UInt32} {a b : UInt32} : IsEdge (s ++ t) a b ↔ IsEdge (t ++ s) a b := by
  rw [← mem_cycEdges, ← mem_cycEdges]
  exact (cycEdges_rotate s t).mem_iff

theorem fst_mem_of_windows2 {l : List α} {a b : α} (h : (a, b) ∈ windows2 l) : a ∈ l ∧ b ∈ l.tail :=
  ⟨(List.of_mem_zip h).1, (List.of_mem_zip h).2⟩

/-- If `b` occurs only at the front, an edge into `b` comes from the last element. -/
theorem edge_into_head {b : UInt32} {u : List UInt32} {a : UInt32} (hb : b ∉ u) (hab : a ≠ b)
    (h : IsEdge (b :: u) a b) : ∃ w, u = w ++ [a] := by
  rw [← mem_cycEdges] at h
  rcases List.eq_nil_or_concat u with rfl | ⟨w, c, rfl⟩
  · simp only [cycEdges, List.cons_append, List.nil_append, windows2_cons, windows2_single,
      List.mem_singleton, Prod.mk.injEq] at h
    exact absurd h.1 hab
  · have : cycEdges (b :: (w ++ [c])) = windows2 (b :: w ++ [c]) ++ [(c, b)] := by
      have := windows2_append (b :: w) c [b]
      simpa [cycEdges, windows2_cons, windows2_single] using this
    rw [List.concat_eq_append, this, List.mem_append, List.mem_singleton, Prod.mk.injEq] at h
    rcases h with h | ⟨rfl, -⟩
    · exact absurd (fst_mem_of_windows2 h).2 (by simpa using hb)
    · exact ⟨w, by simp⟩

theorem takeWhile_append_stop {p : α → Bool} {l r : List α} {c : α} (hl : ∀ x ∈ l, p x = true)
    (hc : p c = false) : (l ++ c :: r).takeWhile p = l := by
  induction l with
  | nil => simp [hc]
  | cons a l ih =>
    rw [List.cons_append, List.takeWhile_cons, if_pos (hl a (List.mem_cons_self ..)),
      ih (fun x hx => hl x (List.mem_cons_of_mem _ hx))]

theorem dropWhile_append_stop {p : α → Bool} {l r : List α} {c : α} (hl : ∀ x ∈ l, p x = true)
    (hc : p c = false) : (l ++ c :: r).dropWhile p = c :: r := by
  induction l with
  | nil => simp [hc]
  | cons a l ih =>
    rw [List.cons_append, List.dropWhile_cons, if_pos (hl a (List.mem_cons_self ..)),
      ih (fun x hx => hl x (List.mem_cons_of_mem _ hx))]

/-- Cutting a polygon open at its edge `(a, b)`. -/
theorem cut_at {vs : List UInt32} {a b : UInt32} (hn : vs.Nodup) (hab : a ≠ b) (h : IsEdge vs a b) :
    ∃ w s t, ((vs ++ vs).dropWhile (· != b)).takeWhile (· != a) = b :: w ∧
      vs = s ++ t ∧ t ++ s = b :: w ++ [a] := by
  have hbm : b ∈ vs := by
    obtain ⟨i, _, _, h2⟩ := h
    exact List.mem_of_getElem? h2
  obtain ⟨s, t, rfl⟩ := List.append_of_mem hbm
  have hn' : (b :: t ++ s).Nodup := (List.perm_append_comm.nodup_iff).1 hn
  have hedge : IsEdge (b :: (t ++ s)) a b := by
    have := (isEdge_rotate (s := s) (t := b :: t)).1 h
    simpa using this
  have hbu : b ∉ t ++ s := by
    have := List.nodup_cons.1 (by simpa using hn' : (b :: (t ++ s)).Nodup)
    exact this.1
  obtain ⟨w, hw⟩ := edge_into_head hbu hab hedge
  refine ⟨w, s, b :: t, ?_, rfl, by simp [hw]⟩
  have hbs : ∀ x ∈ s, (x != b) = true := by
    intro x hx
    rw [bne_iff_ne]
    rintro rfl
    exact hbu (by simp [hx])
  have e1 : (s ++ b :: t ++ (s ++ b :: t)) = s ++ b :: (t ++ s ++ b :: t) := by simp
  rw [e1, dropWhile_append_stop hbs (by simp), hw]
  have e2 : b :: (w ++ [a] ++ b :: t) = (b :: w) ++ a :: (b :: t) := by simp
  rw [e2]
  apply takeWhile_append_stop _ (by simp)
  have hn2 : (w ++ [a]).Nodup := by
    rw [← hw]
    exact (List.nodup_cons.1 (by simpa using hn' : (b :: (t ++ s)).Nodup)).2
  intro x hx
  rw [bne_iff_ne]
  rintro rfl
  rcases List.mem_cons.1 hx with rfl | hx
  · exact hab rfl
  · exact (List.nodup_append.1 hn2).2.2 x hx x (by simp) rfl

/-- Joining two polygons along the edge `(a, b)` of the first, which is the edge `(b, a)` of the second. -/
theorem join_spec {Y X : List UInt32} {a b : UInt32} (hY : Y.Nodup) (hX : X.Nodup) (hab : a ≠ b)
    (hYe : IsEdge Y a b) (hXe : IsEdge X b a) :
    (cycEdges (joinVertices Y X (a, b)) ++ [(a, b), (b, a)]).Perm (cycEdges Y ++ cycEdges X) ∧
    (joinVertices Y X (a, b) ++ [a, b]).Perm (Y ++ X) ∧
    ∃ w w', joinVertices Y X (a, b) = b :: w ++ a :: w' ∧ Y.length = w.length + 2 ∧
      X.length = w'.length + 2 := by
  obtain ⟨w, s, t, e1, rfl, r1⟩ := cut_at hY hab hYe
  obtain ⟨w', s', t', e2, rfl, r2⟩ := cut_at hX (Ne.symm hab) hXe
  have hJ : joinVertices (s ++ t) (s' ++ t') (a, b) = b :: w ++ a :: w' := by
    unfold joinVertices
    simp only
    rw [e1, e2]
  have c1 : (cycEdges (s ++ t)).Perm (windows2 (b :: w ++ [a]) ++ [(a, b)]) := by
    refine (cycEdges_rotate s t).trans ?_
    rw [r1]
    have := windows2_append (b :: w) a [b]
    simp only [windows2_cons, windows2_single] at this
    refine List.Perm.of_eq ?_
    simpa [cycEdges] using this
  have c2 : (cycEdges (s' ++ t')).Perm (windows2 (a :: w' ++ [b]) ++ [(b, a)]) := by
    refine (cycEdges_rotate s' t').trans ?_
    rw [r2]
    have := windows2_append (a :: w') b [a]
    simp only [windows2_cons, windows2_single] at this
    refine List.Perm.of_eq ?_
    simpa [cycEdges] using this
  have cJ : cycEdges (b :: w ++ a :: w') = windows2 (b :: w ++ [a]) ++ windows2 (a :: w' ++ [b]) := by
    have := windows2_append (b :: w) a (w' ++ [b])
    simpa [cycEdges] using this
  rw [hJ]
  refine ⟨?_, ?_, w, w', rfl, ?_, ?_⟩
  · rw [cJ]
    refine List.Perm.trans ?_ (c1.append c2).symm
    generalize windows2 (b :: w ++ [a]) = p
    generalize windows2 (a :: w' ++ [b]) = q
    have : ([(a, b), (b, a)] : List (UInt32 × UInt32)) = [(a, b)] ++ [(b, a)] := rfl
    rw [this, ← Multiset.coe_eq_coe]
    simp only [← Multiset.coe_add]
    abel
  · have p1 : (s ++ t).Perm (b :: w ++ [a]) := by rw [← r1]; exact List.perm_append_comm
    have p2 : (s' ++ t').Perm (a :: w' ++ [b]) := by rw [← r2]; exact List.perm_append_comm
    refine List.Perm.trans ?_ (p1.append p2).symm
    have : ((b :: w ++ a :: w' ++ [a, b]) : List UInt32) = (b :: w) ++ ((a :: w') ++ ([a] ++ [b])) := by simp
    rw [this, ← Multiset.coe_eq_coe]
    simp only [← Multiset.coe_add]
    abel
  · have := congrArg List.length r1
    simp at this ⊢
    omega
  · have := congrArg List.length r2
    simp at this ⊢
    omega

end Polyanya
