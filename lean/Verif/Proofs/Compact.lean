import Verif.Proofs.UnionFind
/-
The renumbering loop of `merge_polygons` (`merger.rs:103-120`).
-/

namespace Polyanya

theorem foldlM_range_ok {σ : Type} {f : σ → Nat → Res σ} (P : Nat → σ → Prop) {s : σ} (n : Nat)
    (h0 : P 0 s) (hstep : ∀ k s, k < n → P k s → ∃ s', f s k = .ok s' ∧ P (k + 1) s') :
    ∃ s', (List.range n).foldlM f s = .ok s' ∧ P n s' := by
  have : ∀ k, k ≤ n → ∃ s', (List.range k).foldlM f s = .ok s' ∧ P k s' := by
    intro k
    induction k with
    | zero => intro _; exact ⟨s, rfl, h0⟩
    | succ k ih =>
      intro hk
      obtain ⟨s1, h1, hp⟩ := ih (by omega)
      obtain ⟨s2, h2, hp2⟩ := hstep k s1 (by omega) hp
      exact ⟨s2, by rw [List.range_succ, List.foldlM_append, h1, res_bind_ok]; simp [h2], hp2⟩
  exact this n (le_refl _)

/-- The state after `k` iterations of the renumbering loop, started with the polygons `P`. -/
structure CInv (par : List Nat) (P : List Polygon) (k : Nat) (st : CompactState) : Prop where
  newLen : st.new.length = P.length
  polyLen : st.polygons.length = P.length
  keptLe : st.kept ≤ k
  done : ∀ x, x < k → ∃ j, st.new[x]? = some (some j)
  slot : ∀ x j, st.new[x]? = some (some j) → j < st.kept ∧ ∃ r, Root par x r ∧ st.new[r]? = some (some j)
  inj : ∀ r s j, Root par r r → Root par s s → st.new[r]? = some (some j) → st.new[s]? = some (some j) → r = s
  surj : ∀ j, j < st.kept → ∃ r, Root par r r ∧ st.new[r]? = some (some j)
  moved : ∀ r j, r < k → Root par r r → st.new[r]? = some (some j) → st.polygons[j]? = P[r]?
  rest : ∀ j, k ≤ j → st.polygons[j]? = P[j]?

theorem CInv.init (par : List Nat) (P : List Polygon) :
    CInv par P 0 { new := List.replicate P.length none, kept := 0, polygons := P } where
  newLen := by simp
  polyLen := rfl
  keptLe := le_refl _
  done := by simp
  slot := by intro x j h; simp [List.getElem?_replicate] at h
  inj := by intro r s j _ _ h; simp [List.getElem?_replicate] at h
  surj := by simp
  moved := by simp
  rest := by simp

theorem set_get? {α : Type} {l : List α} {i j : Nat} {a : α} (hi : i < l.length) :
    (l.set i a)[j]? = if j = i then some a else l[j]? := by
  rw [List.getElem?_set]
  by_cases h : j = i
  · subst h; simp [hi]
  · simp [h, Ne.symm h]

/-- Numbering a root. -/
theorem number_ok {par : List Nat} {P : List Polygon} {k : Nat} {st : CompactState}
    (hl : par.length = P.length) (h : CInv par P k st) {r : Nat} (hr : Root par r r) :
    ∃ st' j, st.number r = .ok (st', j) ∧ st'.new.length = P.length ∧ st'.polygons = st.polygons ∧
      st'.kept ≤ k + 1 ∧ st.kept ≤ st'.kept ∧ (∀ x, x < k → ∃ j, st'.new[x]? = some (some j)) ∧
      st'.new[r]? = some (some j) ∧
      (∀ x, x ≠ r → st'.new[x]? = st.new[x]?) ∧
      (∀ x j, st'.new[x]? = some (some j) → j < st'.kept ∧ ∃ r, Root par x r ∧ st'.new[r]? = some (some j)) ∧
      (∀ r s j, Root par r r → Root par s s → st'.new[r]? = some (some j) →
        st'.new[s]? = some (some j) → r = s) ∧
      (∀ j, j < st'.kept → ∃ r, Root par r r ∧ st'.new[r]? = some (some j)) ∧
      (∀ r j, r < k → Root par r r → st'.new[r]? = some (some j) → st.polygons[j]? = P[r]?) := by
  have hrn : r < st.new.length := by rw [h.newLen, ← hl]; exact hr.lt
  unfold CompactState.number
  rw [idx_eq_ok.2 (List.getElem?_eq_getElem hrn), res_bind_ok]
  cases ho : st.new[r] with
  | some j =>
    have ho' : st.new[r]? = some (some j) := by rw [List.getElem?_eq_getElem hrn, ho]
    exact ⟨st, j, rfl, h.newLen, rfl, by have := h.keptLe; omega, le_refl _, h.done, ho', by simp,
      h.slot, h.inj, h.surj, h.moved⟩
  | none =>
    have ho' : st.new[r]? = some none := by rw [List.getElem?_eq_getElem hrn, ho]
    refine ⟨_, _, rfl, by simp [h.newLen], rfl, ?_, ?_, ?_, ?_, ?_, ?_, ?_, ?_, ?_⟩
    · have := h.keptLe; simp; omega
    · simp
    · intro x hx
      simp only [set_get? hrn]
      split
      · exact ⟨_, rfl⟩
      · exact h.done x hx
    · simp [set_get? hrn]
    · intro x hx; simp [set_get? hrn, hx]
    · intro x j
      simp only [set_get? hrn]
      split
      · rename_i hx
        intro hj
        simp only [Option.some.injEq] at hj
        subst hj hx
        exact ⟨by omega, _, hr, by simp⟩
      · intro hj
        obtain ⟨h1, s, h2, h3⟩ := h.slot x j hj
        refine ⟨by omega, s, h2, ?_⟩
        split
        · subst_vars; rw [ho'] at h3; simp at h3
        · exact h3
    · intro a b j ha hb
      simp only [set_get? hrn]
      split <;> split
      · intros; subst_vars; rfl
      · intro h1 h2
        simp only [Option.some.injEq] at h1
        have := (h.slot _ _ h2).1
        omega
      · intro h1 h2
        simp only [Option.some.injEq] at h2
        have := (h.slot _ _ h1).1
        omega
      · exact h.inj a b j ha hb
    · intro j hj
      simp only [set_get? hrn]
      by_cases hjk : j = st.kept
      · exact ⟨r, hr, by simp [hjk]⟩
      · obtain ⟨s, h1, h2⟩ := h.surj j (by simp only at hj; omega)
        refine ⟨s, h1, ?_⟩
        split
        · subst_vars; rw [ho'] at h2; simp at h2
        · exact h2
    · intro s j hs hsr
      simp only [set_get? hrn]
      split
      · subst_vars
        obtain ⟨j', hj'⟩ := h.done s hs
        rw [ho'] at hj'; simp at hj'
      · exact h.moved s j hs hsr

theorem compactStep_ok {par : List Nat} {P : List Polygon} {k : Nat} {st : CompactState}
    (hl : par.length = P.length) (hok : UfOk par) (hk : k < P.length) (h : CInv par P k st) :
    ∃ st', compactStep par st k = .ok st' ∧ CInv par P (k + 1) st' := by
  obtain ⟨r, hr⟩ := hok k (by omega)
  have hfind : ∃ p, par[k]? = some p ∧ ufFind par (ufFuel par) p = .ok r := by
    cases hr with
    | self h => exact ⟨k, h, ufFind_root (.self h)⟩
    | step h1 h2 h3 => exact ⟨_, h1, ufFind_root h3⟩
  obtain ⟨p, hp, hfp⟩ := hfind
  obtain ⟨st1, j, he, hnl, hpl, hkl, hkm, hdone, hnr, hne, hslot, hinj, hsurj, hmoved⟩ :=
    number_ok hl h hr.rootSelf
  unfold compactStep
  rw [idx_eq_ok.2 hp, res_bind_ok, hfp, res_bind_ok, he, res_bind_ok]
  have hjk : j < st1.kept := (hslot r j hnr).1
  have hpl' : st1.polygons.length = P.length := by rw [hpl, h.polyLen]
  by_cases hkr : k = r
  · subst hkr
    have hkn : k < st1.new.length := by omega
    by_cases hkj : k = j
    · subst hkj
      refine ⟨st1, by simp, hnl, hpl', hkl, ?_, hslot, hinj, hsurj, ?_, ?_⟩
      · intro x hx
        by_cases hxk : x = k
        · subst hxk; exact ⟨_, hnr⟩
        · exact hdone x (by omega)
      · intro s i hs hsr hi
        by_cases hsk : s = k
        · subst hsk
          rw [hnr] at hi
          obtain rfl : s = i := by simpa using hi
          rw [hpl]; exact h.rest _ (le_refl _)
        · rw [hpl]; exact hmoved s i (by omega) hsr hi
      · intro i hi
        rw [hpl]; exact h.rest i (by omega)
    · have hjk' : j < k := by omega
      have h1 : k < st1.polygons.length := by omega
      have h2 : j < st1.polygons.length := by omega
      simp only [if_true, hkj, ne_eq, not_false_eq_true, swapAt]
      rw [idx_eq_ok.2 (List.getElem?_eq_getElem h1), res_bind_ok,
        idx_eq_ok.2 (List.getElem?_eq_getElem h2), res_bind_ok, res_bind_ok]
      refine ⟨_, rfl, hnl, by simp [hpl'], hkl, ?_, hslot, hinj, hsurj, ?_, ?_⟩
      · intro x hx
        by_cases hxk : x = k
        · subst hxk; exact ⟨_, hnr⟩
        · exact hdone x (by omega)
      · intro s i hs hsr hi
        simp only [set_get? (l := st1.polygons.set k st1.polygons[j]) (by simpa using h2), set_get? h1]
        by_cases hsk : s = k
        · subst hsk
          rw [hnr] at hi
          obtain rfl : j = i := by simpa using hi
          simp only [if_true]
          rw [← List.getElem?_eq_getElem h1, hpl]
          exact h.rest _ (le_refl _)
        · have hij : i ≠ j := by
            rintro rfl
            exact hsk (hinj s k i hsr hr.rootSelf hi hnr)
          have hik : i ≠ k := by
            rw [hne s hsk] at hi
            have := (h.slot s i hi).1
            have := h.keptLe
            omega
          simp only [hij, hik, if_false]
          rw [hpl]
          exact hmoved s i (by omega) hsr hi
      · intro i hi
        have hij : i ≠ j := by omega
        have hik : i ≠ k := by omega
        simp only [set_get? (l := st1.polygons.set k st1.polygons[j]) (by simpa using h2), set_get? h1,
          hij, hik, if_false]
        rw [hpl]; exact h.rest i (by omega)
  · simp only [hkr, if_false]
    have hkn : k < st1.new.length := by omega
    have hnotroot : ∀ s, Root par s s → s ≠ k := by
      rintro s hs rfl
      exact hkr (hs.unique hr)
    refine ⟨_, rfl, by simp [hnl], hpl', hkl, ?_, ?_, ?_, ?_, ?_, ?_⟩
    · intro x hx
      simp only [set_get? hkn]
      split
      · exact ⟨_, rfl⟩
      · exact hdone x (by omega)
    · intro x i
      simp only [set_get? hkn]
      split
      · rename_i hx
        intro hi
        simp only [Option.some.injEq] at hi
        subst hi hx
        exact ⟨hjk, r, hr, by rw [if_neg (Ne.symm hkr)]; exact hnr⟩
      · intro hi
        obtain ⟨h1, s, h2, h3⟩ := hslot x i hi
        exact ⟨h1, s, h2, by rw [if_neg (hnotroot s h2.rootSelf)]; exact h3⟩
    · intro a b i ha hb
      simp only [set_get? hkn, hnotroot a ha, hnotroot b hb, if_false]
      exact hinj a b i ha hb
    · intro i hi
      obtain ⟨s, h1, h2⟩ := hsurj i hi
      exact ⟨s, h1, by simp only [set_get? hkn, hnotroot s h1, if_false]; exact h2⟩
    · intro s i hs hsr
      simp only [set_get? hkn, hnotroot s hsr, if_false]
      rw [hpl]
      exact hmoved s i (by have := hnotroot s hsr; omega) hsr
    · intro i hi
      simp only
      rw [hpl]; exact h.rest i (by omega)

/-- The renumbering loop never faults and compacts the roots. -/
theorem compact_ok {par : List Nat} {P : List Polygon} (hl : par.length = P.length) (hok : UfOk par) :
    ∃ st, (List.range par.length).foldlM (compactStep par)
        { new := List.replicate P.length none, kept := 0, polygons := P } = .ok st ∧
      CInv par P P.length st := by
  rw [hl]
  exact foldlM_range_ok (CInv par P) P.length (CInv.init par P)
    (fun k s hk h => compactStep_ok hl hok hk h)

end Polyanya
