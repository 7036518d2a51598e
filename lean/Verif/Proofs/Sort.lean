import Verif.Spec.Laws
import Verif.Proofs.Res
/-
Sorting by a floating-point key.
-/

namespace Polyanya

variable {K : Type} [Scalar K] {α : Type}

/-- The comparison by key, completed to a total one: NaN first. -/
def leNan (key : α → K) (a b : α) : Bool :=
  Scalar.isNan (key a) || (!Scalar.isNan (key b) && (key a <=. key b))

theorem mergeSort_congr {r s : α → α → Bool} {l : List α} (h : ∀ a ∈ l, ∀ b ∈ l, r a b = s a b) :
    l.mergeSort r = l.mergeSort s := by
  have := List.map_mergeSort (r := r) (s := s) (f := id) (l := l) h
  simpa using this

/-- `sort_by(partial_cmp)` sorts, as long as there is no NaN among the keys. -/
theorem sorted_of_noNan [LeLaws K] {key : α → K} {l : List α} (h : ∀ a ∈ l, Scalar.isNan (key a) = false) :
    (l.mergeSort (fun a b => key a <=. key b)).Pairwise (fun a b => (key a <=. key b) = true) := by
  have hc : l.mergeSort (fun a b => key a <=. key b) = l.mergeSort (leNan key) :=
    mergeSort_congr (fun a ha b hb => by simp [leNan, h a ha, h b hb])
  have hs := List.pairwise_mergeSort (le := leNan key) (l := l)
    (fun a b c hab hbc => by
      simp only [leNan, Bool.or_eq_true, Bool.and_eq_true, Bool.not_eq_true'] at hab hbc ⊢
      rcases hab with hab | ⟨hb, hab⟩
      · exact .inl hab
      · rcases hbc with hbc | ⟨hc, hbc⟩
        · rw [hbc] at hb; simp at hb
        · exact .inr ⟨hc, LeLaws.le_trans _ _ _ hab hbc⟩)
    (fun a b => by
      simp only [leNan, Bool.or_eq_true, Bool.and_eq_true, Bool.not_eq_true']
      cases ha : Scalar.isNan (key a) <;> cases hb : Scalar.isNan (key b) <;> simp
      exact LeLaws.le_total _ _ ha hb)
  rw [hc]
  refine List.Pairwise.imp_of_mem ?_ hs
  intro a b ha hb hab
  rw [List.mem_mergeSort] at ha hb
  simpa [leNan, h a ha, h b hb] using hab

end Polyanya
