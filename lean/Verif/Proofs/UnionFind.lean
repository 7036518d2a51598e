import Verif.Model.Merger
import Verif.Proofs.Res
import Mathlib.Logic.Relation
import Mathlib.Data.List.Nodup
import Mathlib.Data.List.NodupEquivFin
import Mathlib.Data.Fintype.Card
/-
The union-find structure of `merger.rs:138-183`.
-/

namespace Polyanya

/-- Following the parents from `x` ends at `r`, which is its own parent. -/
inductive Root (par : List Nat) : Nat → Nat → Prop
  | self {x} : par[x]? = some x → Root par x x
  | step {x y r} : par[x]? = some y → y ≠ x → Root par y r → Root par x r

/-- Every element has a root. -/
def UfOk (par : List Nat) : Prop := ∀ x, x < par.length → ∃ r, Root par x r

theorem Root.root {par : List Nat} {x r : Nat} (h : Root par x r) : par[r]? = some r := by
  induction h with
  | self h => exact h
  | step _ _ _ ih => exact ih

theorem Root.rootSelf {par : List Nat} {x r : Nat} (h : Root par x r) : Root par r r := .self h.root

theorem Root.lt {par : List Nat} {x r : Nat} (h : Root par x r) : x < par.length := by
  cases h with
  | self h => exact (List.getElem?_eq_some_iff.1 h).1
  | step h => exact (List.getElem?_eq_some_iff.1 h).1

theorem Root.root_lt {par : List Nat} {x r : Nat} (h : Root par x r) : r < par.length :=
  (List.getElem?_eq_some_iff.1 h.root).1

theorem Root.unique {par : List Nat} {x r s : Nat} (h : Root par x r) (h' : Root par x s) : r = s := by
  induction h with
  | self h =>
    cases h' with
    | self => rfl
    | step h1 h2 _ => simp_all
  | step h1 h2 _ ih =>
    cases h' with
    | self h => simp_all
    | step h3 h4 h5 =>
      rw [h1] at h3
      cases h3
      exact ih h5

theorem ufNew_root {n x : Nat} (h : x < n) : Root (ufNew n) x x :=
  .self (by simp [ufNew, h])

theorem ufOk_new (n : Nat) : UfOk (ufNew n) := by
  intro x hx
  exact ⟨x, ufNew_root (by simpa [ufNew] using hx)⟩

/-- The number of steps to the root. -/
inductive Depth (par : List Nat) : Nat → Nat → Nat → Prop
  | self {x} : par[x]? = some x → Depth par x x 0
  | step {x y r d} : par[x]? = some y → y ≠ x → Depth par y r d → Depth par x r (d + 1)

theorem Root.depth {par : List Nat} {x r : Nat} (h : Root par x r) : ∃ d, Depth par x r d := by
  induction h with
  | self h => exact ⟨0, .self h⟩
  | step h1 h2 _ ih =>
    obtain ⟨d, hd⟩ := ih
    exact ⟨d + 1, .step h1 h2 hd⟩

theorem Depth.root {par : List Nat} {x r d : Nat} (h : Depth par x r d) : Root par x r := by
  induction h with
  | self h => exact .self h
  | step h1 h2 _ ih => exact .step h1 h2 ih

theorem Depth.unique {par : List Nat} {x r d s e : Nat} (h : Depth par x r d)
    (h' : Depth par x s e) : d = e := by
  induction h generalizing e with
  | self h =>
    cases h' with
    | self => rfl
    | step h1 h2 _ => simp_all
  | step h1 h2 _ ih =>
    cases h' with
    | self h => simp_all
    | step h3 h4 h5 =>
      rw [h1] at h3
      cases h3
      rw [ih h5]

/-- The elements on the way to the root are different, so there are at most as many as elements. -/
theorem Depth.chain {par : List Nat} {x r d : Nat} (h : Depth par x r d) :
    ∃ l : List Nat, l.length = d + 1 ∧ l.Nodup ∧ ∀ y ∈ l, y < par.length ∧ ∃ e ≤ d, Depth par y r e := by
  induction h with
  | @self x h =>
    exact ⟨[x], rfl, by simp, by
      intro y hy
      obtain rfl : y = x := by simpa using hy
      exact ⟨(List.getElem?_eq_some_iff.1 h).1, 0, le_refl _, .self h⟩⟩
  | @step x y r d h1 h2 h3 ih =>
    obtain ⟨l, hl, hn, hm⟩ := ih
    have hx : Depth par x r (d + 1) := .step h1 h2 h3
    refine ⟨x :: l, by simp [hl], List.nodup_cons.2 ⟨?_, hn⟩, ?_⟩
    · intro hxl
      obtain ⟨_, e, he, hd⟩ := hm x hxl
      have := hd.unique hx
      omega
    · intro z hz
      rcases List.mem_cons.1 hz with rfl | hz
      · exact ⟨(List.getElem?_eq_some_iff.1 h1).1, d + 1, le_refl _, hx⟩
      · obtain ⟨h, e, he, hd⟩ := hm z hz
        exact ⟨h, e, by omega, hd⟩

theorem nodup_length_le {l : List Nat} {n : Nat} (hn : l.Nodup) (h : ∀ x ∈ l, x < n) :
    l.length ≤ n := by
  have : l.toFinset ⊆ Finset.range n := by
    intro x hx
    simpa using h x (by simpa using hx)
  have hc := Finset.card_le_card this
  rw [List.toFinset_card_of_nodup hn] at hc
  simpa using hc

theorem Depth.lt {par : List Nat} {x r d : Nat} (h : Depth par x r d) : d < par.length := by
  obtain ⟨l, hl, hn, hm⟩ := h.chain
  have := nodup_length_le hn (fun y hy => (hm y hy).1)
  omega

theorem ufFind_depth {par : List Nat} {x r d fuel : Nat} (h : Depth par x r d) (hf : d < fuel) :
    ufFind par fuel x = .ok r := by
  induction h generalizing fuel with
  | self h =>
    obtain ⟨f, rfl⟩ : ∃ f, fuel = f + 1 := ⟨fuel - 1, by omega⟩
    simp [ufFind, idx_eq_ok.2 h]
  | step h1 h2 _ ih =>
    obtain ⟨f, rfl⟩ : ∃ f, fuel = f + 1 := ⟨fuel - 1, by omega⟩
    simp only [ufFind, idx_eq_ok.2 h1, res_bind_ok, ne_eq, h2, not_false_eq_true, if_true]
    exact ih (by omega)

/-- `find` returns the root. -/
theorem ufFind_root {par : List Nat} {x r : Nat} (h : Root par x r) :
    ufFind par (ufFuel par) x = .ok r := by
  obtain ⟨d, hd⟩ := h.depth
  exact ufFind_depth hd (by have := hd.lt; unfold ufFuel; omega)

theorem ufFind_ok {par : List Nat} {x r fuel : Nat} (h : ufFind par fuel x = .ok r) : Root par x r := by
  induction fuel generalizing x with
  | zero => simp [ufFind] at h
  | succ f ih =>
    simp only [ufFind, bind_eq_ok, idx_eq_ok] at h
    obtain ⟨p, hp, h⟩ := h
    split at h
    · exact .step hp ‹_› (ih h)
    · obtain rfl : p = r := by simpa using h
      obtain rfl : p = x := by simpa using ‹¬p ≠ x›
      exact .self hp

/-- Pointing an element at its root keeps all roots. -/
theorem Root.set {par : List Nat} {x r : Nat} (hx : Root par x r) {y s : Nat} :
    Root (par.set x r) y s ↔ Root par y s := by
  have hlt := hx.lt
  have fwd : ∀ {y s}, Root par y s → Root (par.set x r) y s := by
    intro y s h
    induction h with
    | @self y h =>
      apply Root.self
      by_cases hxy : x = y
      · subst hxy
        have := hx.unique (.self h)
        simp [hlt, this]
      · rw [List.getElem?_set_ne hxy]; exact h
    | @step y z s h1 h2 h3 ih =>
      by_cases hxy : x = y
      · subst hxy
        have hs : r = s := hx.unique (.step h1 h2 h3)
        subst hs
        have hrx : r ≠ x := by
          rintro rfl
          have h5 := hx.root
          simp_all
        have h6 : (par.set x r)[r]? = some r := by
          rw [List.getElem?_set_ne (Ne.symm hrx)]; exact hx.root
        exact .step (by simp [hlt]) hrx (.self h6)
      · exact .step (by rw [List.getElem?_set_ne hxy]; exact h1) h2 ih
  constructor
  · intro h
    have hy : y < par.length := by simpa using h.lt
    -- follow the new chain
    induction h with
    | @self y h =>
      by_cases hxy : x = y
      · subst hxy
        have : r = x := by simpa [hlt] using h
        subst this; exact hx
      · rw [List.getElem?_set_ne hxy] at h; exact .self h
    | @step y z s h1 h2 h3 ih =>
      have hz : z < par.length := by simpa using h3.lt
      by_cases hxy : x = y
      · subst hxy
        obtain rfl : r = z := by simpa [hlt] using h1
        have := (ih hz).unique hx.rootSelf
        subst this; exact hx
      · rw [List.getElem?_set_ne hxy] at h1; exact .step h1 h2 (ih hz)
  · exact fwd

theorem UfOk.set {par : List Nat} {x r : Nat} (h : UfOk par) (hx : Root par x r) :
    UfOk (par.set x r) := by
  intro y hy
  obtain ⟨s, hs⟩ := h y (by simpa using hy)
  exact ⟨s, (hx.set).2 hs⟩

theorem ufFindUpdate_depth {par : List Nat} {x r d fuel : Nat} (h : Depth par x r d) (hf : d < fuel) :
    ∃ par', ufFindUpdate fuel par x = .ok (r, par') ∧ par'.length = par.length ∧
      ∀ y s, Root par' y s ↔ Root par y s := by
  induction h generalizing fuel with
  | self h =>
    obtain ⟨f, rfl⟩ : ∃ f, fuel = f + 1 := ⟨fuel - 1, by omega⟩
    exact ⟨par, by simp [ufFindUpdate, idx_eq_ok.2 h], rfl, fun _ _ => Iff.rfl⟩
  | @step x y r d h1 h2 h3 ih =>
    obtain ⟨f, rfl⟩ : ∃ f, fuel = f + 1 := ⟨fuel - 1, by omega⟩
    obtain ⟨par', he, hl, hr⟩ := ih (fuel := f) (by omega)
    have hx : Root par' x r := (hr x r).2 (.step h1 h2 h3.root)
    refine ⟨par'.set x r, ?_, by simp [hl], fun y s => by rw [hx.set, hr]⟩
    simp only [ufFindUpdate, idx_eq_ok.2 h1, res_bind_ok, ne_eq, h2, not_false_eq_true, if_true, he]

/-- `find_and_update` returns the root and keeps all roots. -/
theorem ufFindUpdate_root {par : List Nat} {x r : Nat} (h : Root par x r) :
    ∃ par', ufFindUpdate (ufFuel par) par x = .ok (r, par') ∧ par'.length = par.length ∧
      ∀ y s, Root par' y s ↔ Root par y s := by
  obtain ⟨d, hd⟩ := h.depth
  exact ufFindUpdate_depth hd (by have := hd.lt; unfold ufFuel; omega)

/-- Hanging root `ry` below root `rx` moves the class of `ry` to `rx`. -/
theorem root_link {par : List Nat} {rx ry : Nat} (hx : Root par rx rx) (hy : Root par ry ry)
    {z s : Nat} (h : Root par z s) : Root (par.set ry rx) z (if s = ry then rx else s) := by
  have hlt := hy.lt
  by_cases hne : rx = ry
  · subst hne
    have : Root (par.set rx rx) z s := (hx.set).2 h
    split
    · subst_vars; exact this
    · exact this
  have hrx : Root (par.set ry rx) rx rx :=
    .self (by rw [List.getElem?_set_ne (Ne.symm hne)]; exact hx.root)
  induction h with
  | @self z h =>
    split
    · subst_vars
      exact .step (by simp [hlt]) hne hrx
    · rename_i hz
      exact .self (by rw [List.getElem?_set_ne (Ne.symm hz)]; exact h)
  | @step z y s h1 h2 h3 ih =>
    have hz : ry ≠ z := by
      rintro rfl
      have := hy.root
      simp_all
    exact .step (by rw [List.getElem?_set_ne hz]; exact h1) h2 ih

/-- `union` moves the class of `y` to the root of `x`. -/
theorem ufUnion_root {par : List Nat} {x y rx ry : Nat} (hx : Root par x rx) (hy : Root par y ry) :
    ∃ par', ufUnion par x y = .ok par' ∧ par'.length = par.length ∧
      ∀ z s, Root par z s → Root par' z (if s = ry then rx else s) := by
  obtain ⟨p1, he1, hl1, hr1⟩ := ufFindUpdate_root hx
  obtain ⟨p2, he2, hl2, hr2⟩ := ufFindUpdate_root ((hr1 _ _).2 hy)
  have hr : ∀ z s, Root p2 z s ↔ Root par z s := fun z s => (hr2 z s).trans (hr1 z s)
  have hlt : ry < p2.length := by rw [hl2, hl1]; exact hy.root_lt
  refine ⟨p2.set ry rx, ?_, by simp [hl1, hl2], ?_⟩
  · simp only [ufUnion, he1, res_bind_ok, he2]
    rw [idx_eq_ok.2 (List.getElem?_eq_getElem hlt)]
    rfl
  · intro z s h
    exact root_link ((hr _ _).2 hx.rootSelf) ((hr _ _).2 hy.rootSelf) ((hr _ _).2 h)

theorem ufOk_union {par par' : List Nat} {x y : Nat} (hok : UfOk par)
    (h : ufUnion par x y = .ok par') (hx : x < par.length) (hy : y < par.length) : UfOk par' := by
  obtain ⟨rx, hrx⟩ := hok x hx
  obtain ⟨ry, hry⟩ := hok y hy
  obtain ⟨p, he, hl, hr⟩ := ufUnion_root hrx hry
  rw [h] at he
  cases he
  intro z hz
  obtain ⟨s, hs⟩ := hok z (by omega)
  exact ⟨_, hr z s hs⟩

end Polyanya
