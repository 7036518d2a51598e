import Verif.Model.Async
import Mathlib.Data.List.Forall2
/-
Reasoning about `Res` computations.
-/

namespace Polyanya

variable {α β σ : Type}

@[simp] theorem res_bind_ok (a : α) (f : α → Res β) : (Except.ok a >>= f : Res β) = f a := rfl

@[simp] theorem res_bind_error (e : Fault) (f : α → Res β) :
    ((Except.error e : Res α) >>= f) = .error e := rfl

@[simp] theorem res_pure (a : α) : (pure a : Res α) = .ok a := rfl

theorem bind_eq_ok {x : Res α} {f : α → Res β} {b : β} :
    (x >>= f) = .ok b ↔ ∃ a, x = .ok a ∧ f a = .ok b := by
  cases x with
  | error e => simp
  | ok a => simp

theorem idx_eq_ok {l : List α} {i : Nat} {a : α} : idx l i = .ok a ↔ l[i]? = some a := by
  unfold idx; split <;> simp_all

theorem idxUnchecked_eq_ok {l : List α} {i : Nat} {a : α} :
    idxUnchecked l i = .ok a ↔ l[i]? = some a := by
  unfold idxUnchecked; split <;> simp_all

/-- Loop rule for `foldlM` in `Res`. -/
theorem foldlM_inv {f : σ → α → Res σ} (P : σ → Prop) {l : List α} {s s' : σ}
    (h0 : P s) (hstep : ∀ s a s', a ∈ l → P s → f s a = .ok s' → P s')
    (h : l.foldlM f s = .ok s') : P s' := by
  induction l generalizing s with
  | nil =>
    simp only [List.foldlM_nil, res_pure, Except.ok.injEq] at h
    exact h ▸ h0
  | cons a l ih =>
    rw [List.foldlM_cons, bind_eq_ok] at h
    obtain ⟨s1, h1, h2⟩ := h
    exact ih (hstep s a s1 (List.mem_cons_self ..) h0 h1)
      (fun s a s' ha => hstep s a s' (List.mem_cons_of_mem _ ha)) h2

/-- Total-correctness rule for `foldlM` in `Res`. -/
theorem foldlM_ok {f : σ → α → Res σ} (P : σ → Prop) {l : List α} {s : σ}
    (h0 : P s) (hstep : ∀ s a, a ∈ l → P s → ∃ s', f s a = .ok s' ∧ P s') :
    ∃ s', l.foldlM f s = .ok s' ∧ P s' := by
  induction l generalizing s with
  | nil => exact ⟨s, rfl, h0⟩
  | cons a l ih =>
    obtain ⟨s1, h1, hp⟩ := hstep s a (List.mem_cons_self ..) h0
    obtain ⟨s', h2, hp'⟩ := ih hp (fun s a ha => hstep s a (List.mem_cons_of_mem _ ha))
    exact ⟨s', by rw [List.foldlM_cons, h1]; exact h2, hp'⟩

theorem findFirst_some {f : α → Res (Option β)} {l : List α} {b : β}
    (h : findFirst f l = .ok (some b)) :
    ∃ l1 a l2, l = l1 ++ a :: l2 ∧ f a = .ok (some b) ∧ ∀ x ∈ l1, f x = .ok none := by
  induction l with
  | nil => simp [findFirst] at h
  | cons a l ih =>
    simp only [findFirst, bind_eq_ok] at h
    obtain ⟨r, hr, h⟩ := h
    cases r with
    | some c =>
      simp only [Except.ok.injEq, Option.some.injEq] at h
      exact ⟨[], a, l, rfl, h ▸ hr, by simp⟩
    | none =>
      obtain ⟨l1, x, l2, rfl, hx, hl⟩ := ih h
      refine ⟨a :: l1, x, l2, rfl, hx, ?_⟩
      intro y hy
      rcases List.mem_cons.1 hy with rfl | hy
      · exact hr
      · exact hl y hy

theorem findFirst_none {f : α → Res (Option β)} {l : List α} :
    findFirst f l = .ok none ↔ ∀ x ∈ l, f x = .ok none := by
  induction l with
  | nil => simp [findFirst]
  | cons a l ih =>
    simp only [findFirst, bind_eq_ok, List.mem_cons, forall_eq_or_imp]
    constructor
    · rintro ⟨r, hr, h⟩
      cases r with
      | some c => simp at h
      | none => exact ⟨hr, ih.1 h⟩
    · rintro ⟨h1, h2⟩
      exact ⟨none, h1, ih.2 h2⟩

theorem findFirst_append_some {f : α → Res (Option β)} {l1 : List α} {a : α} {l2 : List α} {b : β}
    (ha : f a = .ok (some b)) (hl : ∀ x ∈ l1, f x = .ok none) :
    findFirst f (l1 ++ a :: l2) = .ok (some b) := by
  induction l1 with
  | nil => simp [findFirst, ha]
  | cons x l1 ih =>
    have := hl x (List.mem_cons_self ..)
    simp only [List.cons_append, findFirst, this, res_bind_ok]
    exact ih (fun y hy => hl y (List.mem_cons_of_mem _ hy))

theorem findFirst_ok {f : α → Res (Option β)} {l : List α} (P : β → Prop)
    (h : ∀ x ∈ l, ∃ r, f x = .ok r ∧ ∀ b, r = some b → P b) :
    ∃ r, findFirst f l = .ok r ∧ ∀ b, r = some b → P b := by
  induction l with
  | nil => exact ⟨none, rfl, by simp⟩
  | cons a l ih =>
    obtain ⟨r, hr, hp⟩ := h a (List.mem_cons_self ..)
    cases r with
    | some c => exact ⟨some c, by simp [findFirst, hr], hp⟩
    | none =>
      obtain ⟨r, h1, h2⟩ := ih (fun x hx => h x (List.mem_cons_of_mem _ hx))
      exact ⟨r, by simpa [findFirst, hr] using h1, h2⟩

theorem mapM_ok_iff {f : α → Res β} {l : List α} {r : List β} :
    l.mapM f = .ok r ↔ List.Forall₂ (fun a b => f a = .ok b) l r := by
  induction l generalizing r with
  | nil => simp [eq_comm]
  | cons a l ih =>
    rw [List.mapM_cons]
    simp only [bind_eq_ok, res_pure, Except.ok.injEq]
    constructor
    · rintro ⟨b, hb, bs, hbs, rfl⟩
      exact .cons hb (ih.1 hbs)
    · intro h
      cases h with
      | cons h1 h2 => exact ⟨_, h1, _, ih.2 h2, rfl⟩

end Polyanya
