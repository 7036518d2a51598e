import Verif.Spec.Ieee
import Verif.Proofs.Binary32
/-
Rounding in the model is IEEE rounding.
-/

namespace Polyanya
namespace B32

/-- If two numbers are equally near, the difference is one unit in the last place, and an even multiple is taken. -/
theorem roundTo_tie {N D : Nat} (hD : 0 < D) {r : Nat} (hr : Bits24 r) (hne : r ≠ roundTo (ulpExp (N / D)) N D)
    (heq : |(r : ℚ) - N / D| = |((roundTo (ulpExp (N / D)) N D : Nat) : ℚ) - N / D|) :
    ∃ k P : Nat, roundTo (ulpExp (N / D)) N D = 2 * k * P ∧
      (r = 2 * k * P + P ∨ r + P = 2 * k * P) := by
  have hc := bits_cases (N := N) (D := D) hr
  have hR := roundTo_cases (ulpExp (N / D)) N D
  revert hc hR hne heq
  generalize roundTo (ulpExp (N / D)) N D = R
  have hP : 0 < 2 ^ ulpExp (N / D) := by positivity
  revert hP
  generalize 2 ^ ulpExp (N / D) = P
  intro hP
  have hdm := Nat.div_add_mod N (D * P)
  have hml := Nat.mod_lt N (show D * P > 0 by positivity)
  revert hdm hml
  generalize N / (D * P) = q
  generalize N % (D * P) = t
  intro hdm hml hne heq hc hR
  have hDq : (0 : ℚ) < D := by exact_mod_cast hD
  have hx : (N : ℚ) / D = q * P + t / D := by
    rw [← hdm]; push_cast; field_simp
  rw [hx] at heq
  have ht0 : (0 : ℚ) ≤ t / D := by positivity
  have ht1 : (t : ℚ) / D < P := by
    rw [div_lt_iff₀ hDq]; calc (t : ℚ) < ((D * P : Nat) : ℚ) := by exact_mod_cast hml
      _ = P * D := by push_cast; ring
  have hr' : (r : ℚ) ≤ q * P ∨ ((q : ℚ) + 1) * P ≤ r := by
    rcases hc with ⟨j, rfl⟩ | h
    · rcases Nat.lt_or_ge j (q + 1) with h | h
      · left
        have : j * P ≤ q * P := Nat.mul_le_mul_right _ (by omega)
        exact_mod_cast this
      · right
        have : (q + 1) * P ≤ j * P := Nat.mul_le_mul_right _ h
        exact_mod_cast this
    · left; exact_mod_cast h
  have hback : ∀ {w : ℚ}, (t : ℚ) / D = w → (t : ℚ) = w * D := fun h => by rw [← h]; field_simp
  rcases hR with ⟨rfl, h2, h2e⟩ | ⟨rfl, h2, h2e⟩
  · have h3 : (t : ℚ) / D ≤ P - t / D := by
      have : (2 * t : ℚ) ≤ D * P := by exact_mod_cast h2
      rw [le_sub_iff_add_le, ← add_div, div_le_iff₀ hDq]; linarith
    push_cast at heq
    rw [show (q : ℚ) * P - (q * P + t / D) = -(t / D) from by ring, abs_neg, abs_of_nonneg ht0] at heq
    rcases hr' with h | h
    · rw [abs_of_nonpos (by linarith)] at heq
      exact (hne (by have : (r : ℚ) = ((q * P : Nat) : ℚ) := by push_cast; linarith
                     exact_mod_cast this)).elim
    · rw [abs_of_nonneg (by nlinarith)] at heq
      have h4 : (t : ℚ) / D = P / 2 := by nlinarith
      have h5 : 2 * t = D * P := by
        have := hback h4
        have : (2 * t : ℚ) = D * P := by linarith
        exact_mod_cast this
      have h6 := h2e h5
      refine ⟨q / 2, P, ?_, .inl ?_⟩
      · rw [Nat.mul_div_cancel' (Nat.dvd_of_mod_eq_zero h6)]
      · rw [Nat.mul_div_cancel' (Nat.dvd_of_mod_eq_zero h6)]
        have : (r : ℚ) = ((q * P + P : Nat) : ℚ) := by push_cast; linarith
        exact_mod_cast this
  · have h3 : (P : ℚ) - t / D ≤ t / D := by
      have : (D * P : ℚ) ≤ 2 * t := by exact_mod_cast h2
      rw [sub_le_iff_le_add, ← add_div, le_div_iff₀ hDq]; linarith
    push_cast at heq
    rw [show ((q : ℚ) + 1) * P - (q * P + t / D) = P - t / D from by ring, abs_of_nonneg (show (0 : ℚ) ≤ (P : ℚ) - t / D by linarith)] at heq
    rcases hr' with h | h
    · rw [abs_of_nonpos (by linarith)] at heq
      have h4 : (t : ℚ) / D = P / 2 := by linarith
      have h5 : 2 * t = D * P := by
        have := hback h4
        have : (2 * t : ℚ) = D * P := by linarith
        exact_mod_cast this
      have h6 := h2e h5
      refine ⟨(q + 1) / 2, P, ?_, .inr ?_⟩
      · rw [Nat.mul_div_cancel' (Nat.dvd_of_mod_eq_zero h6)]
      · rw [Nat.mul_div_cancel' (Nat.dvd_of_mod_eq_zero h6)]
        have : ((r + P : Nat) : ℚ) = (((q + 1) * P : Nat) : ℚ) := by push_cast; linarith
        exact_mod_cast this
    · rw [abs_of_nonneg (by linarith)] at heq
      exact (hne (by have : (r : ℚ) = (((q + 1) * P : Nat) : ℚ) := by push_cast; linarith
                     exact_mod_cast this)).elim

theorem pow_277 : (2 : ℚ) ^ 277 = ((2 ^ 24 * 2 ^ 253 : Nat) : ℚ) := by
  rw [show (277 : Nat) = 24 + 253 from rfl, pow_add, Nat.cast_mul, Nat.cast_pow, Nat.cast_pow, Nat.cast_ofNat]

/-- A magnitude of 24 bits below the threshold is at most the greatest finite one. -/
theorem bits_le_max {r : Nat} (hr : Bits24 r) (h : r < overflow) : r ≤ (2 ^ 24 - 1) * 2 ^ 253 := by
  obtain ⟨k, e, hk, rfl⟩ := hr
  unfold overflow at h
  rw [show (277 : Nat) = 24 + 253 from rfl, pow_add] at h
  rcases Nat.lt_or_ge 253 e with he | he
  · obtain ⟨d, rfl⟩ : ∃ d, e = 253 + d + 1 := ⟨e - 254, by omega⟩
    have e1 : k * 2 ^ (253 + d + 1) = (k * 2 ^ (d + 1)) * 2 ^ 253 := by rw [show 253 + d + 1 = (d + 1) + 253 from by omega, pow_add, mul_assoc]
    rw [e1] at h ⊢
    have h1 := Nat.lt_of_mul_lt_mul_right h
    exact Nat.mul_le_mul_right _ (by omega)
  · calc k * 2 ^ e ≤ (2 ^ 24 - 1) * 2 ^ e := Nat.mul_le_mul_right _ (by omega)
      _ ≤ _ := Nat.mul_le_mul_left _ (Nat.pow_le_pow_right (by norm_num) he)

/-- Magnitudes from `2^128 - 2^103` on overflow. -/
theorem round_overflows {N D : Nat} (hD : 0 < D) (h : (2 : ℚ) ^ 277 - 2 ^ 252 ≤ N / D) :
    overflow ≤ roundTo (ulpExp (N / D)) N D := by
  by_contra hlt
  rw [not_le] at hlt
  have hb : Bits24 overflow := ⟨1, 277, by norm_num, by unfold overflow; rw [one_mul]⟩
  have hmax := bits_le_max (roundTo_bits N D) hlt
  have hne : overflow ≠ roundTo (ulpExp (N / D)) N D := by omega
  have key := roundTo_nearest (N := N) hD hb
  have tie := roundTo_tie (N := N) hD hb hne
  obtain ⟨Q, hQ⟩ : ∃ Q : Nat, Q = 2 ^ 252 := ⟨_, rfl⟩
  have hQ0 : 0 < Q := by rw [hQ]; positivity
  have hQ1 : (2 : Nat) ^ 253 = 2 * Q := by rw [hQ]; ring
  have hov : overflow = 2 ^ 24 * (2 * Q) := by unfold overflow; rw [← hQ1, show (277 : Nat) = 24 + 253 from rfl, pow_add]
  have hq277 : (2 : ℚ) ^ 277 = ((2 ^ 24 * (2 * Q) : Nat) : ℚ) := by rw [pow_277, hQ1]
  have hq252 : (2 : ℚ) ^ 252 = (Q : ℚ) := by rw [hQ]; push_cast; rfl
  rw [hq277, hq252] at h
  rw [hQ1] at hmax
  rw [hov] at key tie hne
  revert key tie hne hmax
  generalize roundTo (ulpExp (N / D)) N D = R
  generalize (N : ℚ) / D = x at h
  intro hne tie key hmax
  have hRq : (R : ℚ) ≤ ((2 ^ 24 - 1 : Nat) : ℚ) * (2 * Q) := by exact_mod_cast hmax
  have hQq : (0 : ℚ) < Q := by exact_mod_cast hQ0
  push_cast at h hRq key tie
  norm_num at h hRq key tie
  have e1 : |(R : ℚ) - x| = x - R := by rw [abs_of_nonpos (by linarith)]; ring
  rw [e1] at key tie
  have hxR : x = 33554432 * (Q : ℚ) - Q ∧ (R : ℚ) = 33554430 * Q ∧ |16777216 * (2 * (Q : ℚ)) - x| = x - R := by
    rcases abs_cases (16777216 * (2 * (Q : ℚ)) - x) with ⟨e2, _⟩ | ⟨e2, _⟩ <;> rw [e2] at key ⊢
    · refine ⟨?_, ?_, ?_⟩ <;> linarith
    · exfalso; linarith
  obtain ⟨k, P, hk, hk'⟩ := tie hxR.2.2
  have hR' : R = 33554430 * Q := by exact_mod_cast hxR.2.1
  -- the difference is `2 Q`, and `R` is an odd multiple of it
  have hP : P = 2 * Q := by omega
  subst hP
  have : 33554430 * Q = 2 * k * (2 * Q) := by rw [← hR', hk]
  have h3 : 33554430 * Q = (4 * k) * Q := by rw [this]; ring
  have h4 := Nat.eq_of_mul_eq_mul_right hQ0 h3
  omega

/-- Rounding as IEEE 754 demands. -/
theorem round_ieee (neg : Bool) {N D : Nat} (hD : 0 < D) {v : ℚ}
    (hv : v = (if neg then -1 else 1) * (N / D) / 2 ^ 149) : Ieee v (round neg N D) := by
  have hpos : (0 : ℚ) < 2 ^ 149 := by positivity
  have hx0 : (0 : ℚ) ≤ N / D := by positivity
  have habs : |v| = N / D / 2 ^ 149 := by
    rw [hv, abs_div, abs_mul, abs_of_pos hpos, abs_of_nonneg hx0]
    cases neg <;> simp
  have hthr : (2 : ℚ) ^ 128 - 2 ^ 103 ≤ |v| ↔ (2 : ℚ) ^ 277 - 2 ^ 252 ≤ N / D := by
    rw [habs, le_div_iff₀ hpos, sub_mul, ← pow_add, ← pow_add]
  have hsgn : v ≠ 0 → decide (v < 0) = neg := by
    intro h0
    have hx : (0 : ℚ) < N / D / 2 ^ 149 := by rw [← habs]; exact abs_pos.2 h0
    have h3 : v = (if neg = true then -1 else 1) * ((N / D) / 2 ^ 149) := by rw [hv]; ring
    rw [h3]
    cases neg
    · simp only [Bool.false_eq_true, if_false, one_mul]; exact decide_eq_false (by linarith)
    · simp only [if_true, neg_mul, one_mul]; exact decide_eq_true (by linarith)
  have hsign : (round neg N D).signNeg = neg := by
    unfold round; simp only; split <;> rfl
  refine ⟨?_, ?_, ?_, fun h0 => by rw [hsign, hsgn h0]⟩
  · intro h
    have h1 := round_overflows hD (hthr.1 h)
    have h0 : v ≠ 0 := by
      rintro h0; rw [h0, abs_zero] at h; norm_num at h
    unfold round; simp only; rw [if_neg (not_lt.2 h1), hsgn h0]
  · intro h
    rcases round_spec neg (N := N) hD with ⟨r, -, h'⟩ | ⟨-, h1⟩
    · rw [hv]; exact h'
    · exact (not_le.2 h (hthr.2 h1)).elim
  · intro h z hz hne heq
    rcases round_spec neg (N := N) hD with ⟨r, hr, hn⟩ | ⟨-, h1⟩
    · have hR : r = roundTo (ulpExp (N / D)) N D := by
        unfold round at hr; simp only at hr
        split at hr
        · injection hr with _ h2; exact h2.symm
        · cases hr
      rw [← hv] at hn
      rw [hr] at hne heq hn ⊢
      cases z with
      | nan => exact hz.elim
      | inf b => exact hz.elim
      | fin b m =>
        obtain ⟨hb, -⟩ := hz
        have key := roundTo_nearest (N := N) hD (r := 0) ⟨0, 0, by norm_num, by norm_num⟩
        have tie := fun (m' : Nat) (hb' : Bits24 m') => roundTo_tie (N := N) hD hb'
        rw [← hR] at key tie
        rw [Nat.cast_zero, zero_sub, abs_neg, abs_of_nonneg hx0] at key
        have e1 : ∀ (s x y : ℚ), s * x / 2 ^ 149 - s * y / 2 ^ 149 = s * (x - y) / 2 ^ 149 := by intros; ring
        have e2 : ∀ c : Bool, |(if c = true then (-1 : ℚ) else 1)| = 1 := by intro c; cases c <;> simp
        have es : ∀ c : Bool, ∀ x : ℚ, |(if c = true then (-1 : ℚ) else 1) * x / 2 ^ 149| = |x| / 2 ^ 149 := by
          intro c x; rw [abs_div, abs_mul, e2, one_mul, abs_of_pos hpos]
        have hvr : val (fin neg r) = (if neg = true then (-1 : ℚ) else 1) * r / 2 ^ 149 := rfl
        -- the other number is not on the other side of zero
        obtain ⟨m', hb', hm'⟩ : ∃ m' : Nat, Bits24 m' ∧ val (fin b m) = (if neg = true then (-1 : ℚ) else 1) * m' / 2 ^ 149 := by
          by_cases hs : b = neg
          · subst hs; exact ⟨m, hb, rfl⟩
          · have hx : val (fin b m) - v = (if b = true then (-1 : ℚ) else 1) * (m + N / D) / 2 ^ 149 := by
              rw [hv]; simp only [val]
              cases b <;> cases neg <;> simp_all <;> ring
            rw [hx, hvr, hv, e1, es, es, div_left_inj' hpos.ne', abs_of_nonneg (by positivity)] at heq
            have hm0 : (m : ℚ) = 0 := le_antisymm (by linarith) (by positivity)
            refine ⟨0, ⟨0, 0, by norm_num, by norm_num⟩, ?_⟩
            simp only [val]; rw [hm0]; simp
        rw [hm', hvr, hv, e1, e1, es, es, div_left_inj' hpos.ne'] at heq
        have hmr : m' ≠ r := by rintro rfl; exact hne (by rw [hm', hvr])
        obtain ⟨k, P, h1, h2⟩ := tie m' hb' hmr heq
        rw [hm', hvr]
        have h1q : (r : ℚ) = 2 * k * P := by exact_mod_cast h1
        rcases h2 with h2 | h2
        · refine ⟨k, ?_⟩
          have : (m' : ℚ) = 2 * k * P + P := by exact_mod_cast h2
          rw [this, h1q]; push_cast; ring
        · refine ⟨-k, ?_⟩
          have : (m' : ℚ) + P = 2 * k * P := by exact_mod_cast h2
          have : (m' : ℚ) = 2 * k * P - P := by linarith
          rw [this, h1q]; push_cast; ring
    · exact (not_le.2 h (hthr.2 h1)).elim

end B32
end Polyanya
