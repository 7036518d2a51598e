import Verif.Spec.Binary32
import Mathlib.Data.Real.Sqrt
import Mathlib.Tactic.Positivity
import Mathlib.Tactic.FieldSimp
/-
The operations of `B32` are the IEEE operations: the result is the binary32 number nearest to the exact result.
-/

namespace Polyanya
namespace B32

/-- The integer part of the number, in units in the last place, has 24 bits. -/
theorem quot_lt (N D : Nat) : N / (D * 2 ^ ulpExp (N / D)) < 2 ^ 24 := by
  rw [← Nat.div_div_eq_div_mul, Nat.div_lt_iff_lt_mul (by positivity), ← pow_add]
  rcases Nat.eq_zero_or_pos (N / D) with h | h
  · rw [h]; positivity
  · refine lt_of_lt_of_le (Nat.lt_log2_self) (Nat.pow_le_pow_right (by norm_num) ?_)
    unfold ulpExp
    omega

/-- If the last place counts more than one unit, the number has 24 bits in front of it. -/
theorem le_quot {N D : Nat} (he : 0 < ulpExp (N / D)) : 2 ^ 23 ≤ N / (D * 2 ^ ulpExp (N / D)) := by
  rw [← Nat.div_div_eq_div_mul, Nat.le_div_iff_mul_le (by positivity), ← pow_add]
  have h0 : N / D ≠ 0 := by
    intro h
    rw [h] at he
    simp [ulpExp] at he
  have : 23 + ulpExp (N / D) = Nat.log2 (N / D) := by
    unfold ulpExp at he ⊢
    omega
  rw [this]
  exact Nat.log2_self_le h0

theorem roundTo_cases (e N D : Nat) :
    (roundTo e N D = N / (D * 2 ^ e) * 2 ^ e ∧ 2 * (N % (D * 2 ^ e)) ≤ D * 2 ^ e ∧
      (2 * (N % (D * 2 ^ e)) = D * 2 ^ e → N / (D * 2 ^ e) % 2 = 0)) ∨
    (roundTo e N D = (N / (D * 2 ^ e) + 1) * 2 ^ e ∧ D * 2 ^ e ≤ 2 * (N % (D * 2 ^ e)) ∧
      (2 * (N % (D * 2 ^ e)) = D * 2 ^ e → (N / (D * 2 ^ e) + 1) % 2 = 0)) := by
  unfold roundTo
  simp only
  split
  · rename_i h; exact .inl ⟨rfl, h.le, fun h' => by omega⟩
  · split
    · rename_i h; exact .inr ⟨rfl, h.le, fun h' => by omega⟩
    · rename_i h1 h2
      split
      · rename_i h; exact .inl ⟨rfl, by omega, fun _ => h⟩
      · rename_i h; exact .inr ⟨rfl, by omega, fun _ => by omega⟩

theorem roundTo_bits (N D : Nat) : Bits24 (roundTo (ulpExp (N / D)) N D) := by
  have h := quot_lt N D
  rcases roundTo_cases (ulpExp (N / D)) N D with ⟨h1, -⟩ | ⟨h1, -⟩
  · exact ⟨_, _, h, h1⟩
  · rcases Nat.lt_or_ge (N / (D * 2 ^ ulpExp (N / D)) + 1) (2 ^ 24) with h2 | h2
    · exact ⟨_, _, h2, h1⟩
    · refine ⟨2 ^ 23, ulpExp (N / D) + 1, by norm_num, ?_⟩
      rw [h1, show N / (D * 2 ^ ulpExp (N / D)) + 1 = 2 ^ 24 from by omega, pow_succ 2 (ulpExp (N / D))]
      ring

/-- A number with 24 bits is a multiple of the last place of `N / D`, or is below its integer part. -/
theorem bits_cases {N D r : Nat} (hr : Bits24 r) :
    (∃ j, r = j * 2 ^ ulpExp (N / D)) ∨ r ≤ N / (D * 2 ^ ulpExp (N / D)) * 2 ^ ulpExp (N / D) := by
  obtain ⟨k, f, hk, rfl⟩ := hr
  rcases Nat.lt_or_ge f (ulpExp (N / D)) with h | h
  · right
    have h1 := le_quot (N := N) (D := D) (by omega)
    calc k * 2 ^ f ≤ 2 ^ 24 * 2 ^ f := Nat.mul_le_mul_right _ hk.le
      _ = 2 ^ 23 * 2 ^ (f + 1) := by rw [pow_succ 2 f]; ring
      _ ≤ 2 ^ 23 * 2 ^ ulpExp (N / D) := Nat.mul_le_mul_left _ (Nat.pow_le_pow_right (by norm_num) h)
      _ ≤ _ := Nat.mul_le_mul_right _ h1
  · left
    refine ⟨k * 2 ^ (f - ulpExp (N / D)), ?_⟩
    rw [mul_assoc, ← pow_add, Nat.sub_add_cancel h]

/-- The rounded magnitude is nearest to the exact one among all with 24 bits. -/
theorem roundTo_nearest {N D : Nat} (hD : 0 < D) {r : Nat} (hr : Bits24 r) :
    |((roundTo (ulpExp (N / D)) N D : Nat) : ℚ) - N / D| ≤ |(r : ℚ) - N / D| := by
  have hc := bits_cases (N := N) (D := D) hr
  have hR := roundTo_cases (ulpExp (N / D)) N D
  revert hc hR
  generalize roundTo (ulpExp (N / D)) N D = R
  have hP : 0 < 2 ^ ulpExp (N / D) := by positivity
  revert hP
  generalize 2 ^ ulpExp (N / D) = P
  intro hP
  have hdm := Nat.div_add_mod N (D * P)
  have hml := Nat.mod_lt N (show D * P > 0 by positivity)
  revert hdm hml
  generalize N / (D * P) = q
  generalize N % (D * P) = t
  intro hdm hml hc hR
  have hDq : (0 : ℚ) < D := by exact_mod_cast hD
  have hx : (N : ℚ) / D = q * P + t / D := by
    rw [← hdm]; push_cast; field_simp
  rw [hx]
  have ht0 : (0 : ℚ) ≤ t / D := by positivity
  have ht1 : (t : ℚ) / D < P := by
    rw [div_lt_iff₀ hDq]; calc (t : ℚ) < ((D * P : Nat) : ℚ) := by exact_mod_cast hml
      _ = P * D := by push_cast; ring
  -- the distance of `r` from the exact value is at least that of one of the two neighbours
  have hr' : (r : ℚ) ≤ q * P ∨ ((q : ℚ) + 1) * P ≤ r := by
    rcases hc with ⟨j, rfl⟩ | h
    · rcases Nat.lt_or_ge j (q + 1) with h | h
      · left
        have : j * P ≤ q * P := Nat.mul_le_mul_right _ (by omega)
        exact_mod_cast this
      · right
        have : (q + 1) * P ≤ j * P := Nat.mul_le_mul_right _ h
        exact_mod_cast this
    · left; exact_mod_cast h
  rcases hR with ⟨rfl, h2, -⟩ | ⟨rfl, h2, -⟩
  · have h3 : (t : ℚ) / D ≤ P - t / D := by
      have : (2 * t : ℚ) ≤ D * P := by exact_mod_cast h2
      rw [le_sub_iff_add_le, ← add_div, div_le_iff₀ hDq]; linarith
    push_cast
    rw [show (q : ℚ) * P - (q * P + t / D) = -(t / D) from by ring, abs_neg, abs_of_nonneg ht0]
    rcases hr' with h | h
    · rw [abs_of_nonpos (by linarith)]; linarith
    · rw [abs_of_nonneg (by nlinarith)]; nlinarith
  · have h3 : (P : ℚ) - t / D ≤ t / D := by
      have : (D * P : ℚ) ≤ 2 * t := by exact_mod_cast h2
      rw [sub_le_iff_le_add, ← add_div, le_div_iff₀ hDq]; linarith
    push_cast
    rw [show ((q : ℚ) + 1) * P - (q * P + t / D) = P - t / D from by ring, abs_of_nonneg (by linarith)]
    rcases hr' with h | h
    · rw [abs_of_nonpos (by linarith)]; linarith
    · rw [abs_of_nonneg (by nlinarith)]; nlinarith

/-- Between two numbers that are equally near, the one with an even last bit is taken. -/
theorem roundTo_even {N D : Nat} (h : 2 * (N % (D * 2 ^ ulpExp (N / D))) = D * 2 ^ ulpExp (N / D)) :
    ∃ k, k % 2 = 0 ∧ roundTo (ulpExp (N / D)) N D = k * 2 ^ ulpExp (N / D) := by
  rcases roundTo_cases (ulpExp (N / D)) N D with ⟨h1, -, h2⟩ | ⟨h1, -, h2⟩
  · exact ⟨_, h2 h, h1⟩
  · exact ⟨_, h2 h, h1⟩

/-- Infinity is the result only if the exact value is so large that it rounds to `2^128` or more. -/
theorem round_spec (neg : Bool) {N D : Nat} (hD : 0 < D) :
    (∃ r, round neg N D = fin neg r ∧ Nearest ((if neg then -1 else 1) * (N / D) / 2 ^ 149) (round neg N D)) ∨
    (round neg N D = inf neg ∧ ((2 : ℚ) ^ 277 - 2 ^ 252) ≤ N / D) := by
  have hpos : (0 : ℚ) < 2 ^ 149 := by positivity
  by_cases hlt : roundTo (ulpExp (N / D)) N D < overflow
  · left
    have hr : round neg N D = fin neg (roundTo (ulpExp (N / D)) N D) := by
      unfold round; simp only; rw [if_pos hlt]
    refine ⟨_, hr, ?_⟩
    rw [hr]
    refine ⟨⟨roundTo_bits N D, hlt⟩, ?_⟩
    intro z hz
    cases z with
    | nan => exact hz.elim
    | inf b => exact hz.elim
    | fin b m =>
      obtain ⟨hb, -⟩ := hz
      have key := roundTo_nearest (N := N) hD hb
      have e1 : ∀ (s x y : ℚ), s * x / 2 ^ 149 - s * y / 2 ^ 149 = s * (x - y) / 2 ^ 149 := by intros; ring
      simp only [val]
      have hxnn : (0 : ℚ) ≤ N / D := by positivity
      have e2 : |(if neg = true then (-1 : ℚ) else 1)| = 1 := by cases neg <;> simp
      rw [e1, abs_div, abs_mul, e2, one_mul, abs_of_pos hpos]
      -- the other number may have another sign
      by_cases hs : b = neg
      · subst hs
        rw [e1, abs_div, abs_mul, e2, one_mul, abs_of_pos hpos]
        exact div_le_div_of_nonneg_right key hpos.le
      · have h0 := roundTo_nearest (N := N) hD (r := 0) ⟨0, 0, by norm_num, by norm_num⟩
        rw [Nat.cast_zero, zero_sub, abs_neg, abs_of_nonneg hxnn] at h0
        refine le_trans (div_le_div_of_nonneg_right h0 hpos.le) ?_
        have : (if b = true then (-1 : ℚ) else 1) * m / 2 ^ 149 - (if neg = true then -1 else 1) * (N / D) / 2 ^ 149 =
            (if b = true then -1 else 1) * (m + N / D) / 2 ^ 149 := by
          cases b <;> cases neg <;> simp_all <;> ring
        rw [this, abs_div, abs_mul, abs_of_pos hpos]
        have e3 : |(if b = true then (-1 : ℚ) else 1)| = 1 := by cases b <;> simp
        rw [e3, one_mul]
        refine div_le_div_of_nonneg_right ?_ hpos.le
        rw [abs_of_nonneg (by positivity)]
        have : (0 : ℚ) ≤ m := by positivity
        linarith
  · right
    have hr : round neg N D = inf neg := by
      unfold round; simp only; rw [if_neg hlt]
    refine ⟨hr, ?_⟩
    -- compare with the greatest finite number
    have hb : Bits24 ((2 ^ 24 - 1) * 2 ^ 253) := ⟨_, _, by norm_num, rfl⟩
    have key := roundTo_nearest (N := N) hD hb
    have hge : (2 : ℚ) ^ 277 ≤ (roundTo (ulpExp (N / D)) N D : Nat) := by
      have : 2 ^ 277 ≤ roundTo (ulpExp (N / D)) N D := not_lt.1 hlt
      exact_mod_cast this
    by_contra hlt'
    rw [not_le] at hlt'
    have hm : (((2 ^ 24 - 1) * 2 ^ 253 : Nat) : ℚ) = 2 ^ 277 - 2 ^ 253 := by
      rw [show (277 : Nat) = 24 + 253 from rfl, pow_add]
      generalize hP : (2 : Nat) ^ 253 = P
      have hP' : (2 : ℚ) ^ 253 = P := by rw [← hP]; push_cast; rfl
      rw [hP']
      push_cast
      norm_num
      ring
    rw [hm] at key
    have h1 : (2 : ℚ) ^ 253 = 2 * 2 ^ 252 := by norm_num
    rw [abs_of_nonneg (by linarith [show (0:ℚ) < 2 ^ 252 by positivity])] at key
    rcases abs_cases ((2 : ℚ) ^ 277 - 2 ^ 253 - N / D) with ⟨h2, -⟩ | ⟨h2, -⟩ <;> rw [h2] at key <;>
      nlinarith [show (0:ℚ) < 2 ^ 252 by positivity]

theorem round_rounded (neg : Bool) {N D : Nat} (hD : 0 < D) {v : ℚ}
    (hv : v = (if neg then -1 else 1) * (N / D) / 2 ^ 149) : Rounded v (round neg N D) := by
  rcases round_spec neg (N := N) hD with ⟨r, -, h⟩ | ⟨h, h1⟩
  · left; rw [hv]; exact h
  · right
    have hpos : (0 : ℚ) < 2 ^ 149 := by positivity
    have hc : (0 : ℚ) < 2 ^ 128 - 2 ^ 103 := by norm_num
    have h2 : (2 : ℚ) ^ 128 - 2 ^ 103 ≤ (N / D) / 2 ^ 149 := by
      rw [le_div_iff₀ hpos]
      refine le_trans (le_of_eq ?_) h1
      rw [sub_mul, ← pow_add, ← pow_add]
    have h3 : (if neg = true then (-1 : ℚ) else 1) * (N / D) / 2 ^ 149 =
        (if neg = true then -1 else 1) * ((N / D) / 2 ^ 149) := by ring
    rw [hv, h3, h]
    generalize (N : ℚ) / D / 2 ^ 149 = w at h2
    cases neg
    · simp only [Bool.false_eq_true, if_false, one_mul]
      refine ⟨h2.trans (le_abs_self _), ?_⟩
      rw [decide_eq_false (by linarith)]
    · simp only [if_true, neg_mul, one_mul, abs_neg]
      refine ⟨h2.trans (le_abs_self _), ?_⟩
      rw [decide_eq_true (by linarith)]

theorem signed_cast (a : Bool) (m : Nat) : ((signed a m : Int) : ℚ) = (if a then -1 else 1) * m := by
  cases a <;> simp [signed]

theorem val_fin (a : Bool) (m : Nat) : val (fin a m) = (signed a m : Int) / 2 ^ 149 := by
  rw [signed_cast]; rfl

theorem nearest_zero (a : Bool) : Nearest 0 (fin a 0) := by
  refine ⟨⟨⟨0, 0, by norm_num, by norm_num⟩, by unfold overflow; positivity⟩, ?_⟩
  intro z _
  simp [val]

theorem ofInt_rounded (neg0 : Bool) (s : Int) : Rounded ((s : ℚ) / 2 ^ 149) (ofInt neg0 s) := by
  unfold ofInt
  by_cases h : s = 0
  · rw [if_pos h, h]
    left
    rw [Int.cast_zero, zero_div]
    exact nearest_zero _
  · rw [if_neg h]
    refine round_rounded _ one_pos ?_
    congr 1
    rw [Nat.cast_one, div_one]
    have habs : ((s.natAbs : Nat) : ℚ) = |(s : ℚ)| := by
      rw [← Int.cast_natCast, Int.natCast_natAbs, Int.cast_abs]
    rw [habs]
    rcases lt_or_ge s 0 with h | h
    · rw [if_pos (by simpa using h), abs_of_neg (by exact_mod_cast h)]; ring
    · rw [if_neg (by simpa using h), abs_of_nonneg (by exact_mod_cast h)]; ring

/-- Addition is correctly rounded. -/
theorem add_rounded {x y : B32} (hx : Finite x) (hy : Finite y) : Rounded (val x + val y) (add x y) := by
  cases x <;> cases y <;> first | exact hx.elim | exact hy.elim | skip
  rename_i a m b n
  have : val (fin a m) + val (fin b n) = ((signed a m + signed b n : Int) : ℚ) / 2 ^ 149 := by
    rw [val_fin, val_fin, Int.cast_add, add_div]
  rw [this]
  exact ofInt_rounded _ _

theorem val_neg (x : B32) : val (neg x) = - val x := by
  cases x with
  | nan => simp [val, neg]
  | inf a => simp [val, neg]
  | fin a m => cases a <;> simp [val, neg, neg_div]

theorem finite_neg {x : B32} (h : Finite x) : Finite (neg x) := by
  cases x <;> first | exact h.elim | exact h

/-- Subtraction is correctly rounded. -/
theorem sub_rounded {x y : B32} (hx : Finite x) (hy : Finite y) : Rounded (val x - val y) (sub x y) := by
  have := add_rounded hx (finite_neg hy)
  rwa [val_neg, ← sub_eq_add_neg] at this

theorem sign_xor (a b : Bool) :
    (if (a ^^ b) = true then (-1 : ℚ) else 1) = (if a then -1 else 1) * (if b then -1 else 1) := by
  cases a <;> cases b <;> simp

/-- Multiplication is correctly rounded. -/
theorem mul_rounded {x y : B32} (hx : Finite x) (hy : Finite y) : Rounded (val x * val y) (mul x y) := by
  cases x <;> cases y <;> first | exact hx.elim | exact hy.elim | skip
  rename_i a m b n
  refine round_rounded _ (by positivity) ?_
  rw [sign_xor]
  simp only [val]
  push_cast
  ring

/-- Division by a number other than zero is correctly rounded. -/
theorem div_rounded {x y : B32} (hx : Finite x) (hy : Finite y) (h0 : val y ≠ 0) :
    Rounded (val x / val y) (div x y) := by
  cases x <;> cases y <;> first | exact hx.elim | exact hy.elim | skip
  rename_i a m b n
  have hn : n ≠ 0 := by rintro rfl; simp [val] at h0
  have : div (fin a m) (fin b n) = round (a ^^ b) (m * 2 ^ 149) n := by simp [div, hn]
  rw [this]
  refine round_rounded _ (Nat.pos_of_ne_zero hn) ?_
  rw [sign_xor]
  simp only [val]
  have hn' : (n : ℚ) ≠ 0 := by exact_mod_cast hn
  push_cast
  cases a <;> cases b <;> simp <;> field_simp <;> norm_num

/-- Decimal literals are correctly rounded. -/
theorem lit_rounded (m : Int) (e : Nat) : Rounded ((m : ℚ) / 10 ^ e) (lit m e) := by
  unfold lit
  by_cases h : m = 0
  · rw [if_pos h, h, Int.cast_zero, zero_div]
    exact .inl (nearest_zero _)
  · rw [if_neg h]
    refine round_rounded _ (by positivity) ?_
    have habs : ((m.natAbs : Nat) : ℚ) = |(m : ℚ)| := by
      rw [← Int.cast_natCast, Int.natCast_natAbs, Int.cast_abs]
    push_cast
    rw [habs]
    rcases lt_or_ge m 0 with h | h
    · rw [if_pos (by simpa using h), abs_of_neg (by exact_mod_cast h)]; field_simp; norm_num
    · rw [if_neg (by simpa using h), abs_of_nonneg (by exact_mod_cast h)]; field_simp; norm_num

/-- Conversion from an unsigned integer is correctly rounded. -/
theorem ofNat_rounded (n : Nat) : Rounded (n : ℚ) (ofNat n) := by
  refine round_rounded _ one_pos ?_
  push_cast
  norm_num

/-! Square root -/

theorem isqrtAux_spec (n : Nat) : ∀ (b r : Nat), r * r ≤ n → n < (r + 2 ^ b) * (r + 2 ^ b) →
    isqrtAux n b r * isqrtAux n b r ≤ n ∧ n < (isqrtAux n b r + 1) * (isqrtAux n b r + 1)
  | 0, r, h1, h2 => ⟨h1, by simpa [isqrtAux] using h2⟩
  | b + 1, r, h1, h2 => by
    unfold isqrtAux
    split
    · rename_i h
      refine isqrtAux_spec n b _ h ?_
      rwa [show r + 2 ^ b + 2 ^ b = r + 2 ^ (b + 1) from by rw [pow_succ]; ring]
    · rename_i h
      exact isqrtAux_spec n b _ h1 (not_le.1 h)

theorem natSqrt_spec {n : Nat} (h : n < 2 ^ 428) :
    natSqrt n * natSqrt n ≤ n ∧ n < (natSqrt n + 1) * (natSqrt n + 1) := by
  refine isqrtAux_spec n 214 0 (by simp) ?_
  rw [zero_add, ← pow_add]
  exact h

/-- The nearer of two neighbours is nearest among all that are not between them. -/
theorem cell_nearest {t lo hi R r : ℝ} (h1 : lo ≤ t) (h2 : t ≤ hi)
    (hR : R = lo ∧ t - lo ≤ hi - t ∨ R = hi ∧ hi - t ≤ t - lo) (hr : r ≤ lo ∨ hi ≤ r) :
    |R - t| ≤ |r - t| := by
  have hr' : t - lo ≤ |r - t| ∨ hi - t ≤ |r - t| := by
    rcases hr with h | h
    · left; rw [abs_of_nonpos (by linarith)]; linarith
    · right; rw [abs_of_nonneg (by linarith)]; linarith
  rcases hR with ⟨rfl, h⟩ | ⟨rfl, h⟩
  · rw [abs_of_nonpos (by linarith)]
    rcases hr' with h' | h' <;> linarith
  · rw [abs_of_nonneg (by linarith)]
    rcases hr' with h' | h' <;> linarith

/-- The middle between two large neighbouring integers rounds like everything in between. -/
theorem roundTo_between {s : Nat} (hs : 2 ^ 24 ≤ s) {t : ℝ} (h1 : (s : ℝ) ≤ t) (h2 : t ≤ s + 1) {r : Nat}
    (hr : Bits24 r) : |((roundTo (ulpExp ((2 * s + 1) / 2)) (2 * s + 1) 2 : Nat) : ℝ) - t| ≤ |(r : ℝ) - t| := by
  have hc := bits_cases (N := 2 * s + 1) (D := 2) hr
  have hR := roundTo_cases (ulpExp ((2 * s + 1) / 2)) (2 * s + 1) 2
  have hs2 : (2 * s + 1) / 2 = s := by omega
  rw [hs2] at hc hR ⊢
  have hlog : 24 ≤ Nat.log2 s := by
    rw [Nat.le_log2 (by omega)]; exact hs
  obtain ⟨f, hf⟩ : ∃ f, ulpExp s = f + 1 := ⟨ulpExp s - 1, by unfold ulpExp; omega⟩
  rw [hf] at hc hR ⊢
  revert hc hR
  generalize roundTo (f + 1) (2 * s + 1) 2 = R
  rw [pow_succ 2 f]
  have hQ : 0 < 2 ^ f := by positivity
  generalize 2 ^ f = Q at *
  have hdm := Nat.div_add_mod (2 * s + 1) (2 * (Q * 2))
  have hml := Nat.mod_lt (2 * s + 1) (show 2 * (Q * 2) > 0 by omega)
  revert hdm hml
  generalize (2 * s + 1) / (2 * (Q * 2)) = q
  generalize (2 * s + 1) % (2 * (Q * 2)) = w
  intro hdm hml hR hc
  obtain ⟨Z, hZ⟩ : ∃ Z, Z = Q * q := ⟨_, rfl⟩
  have hdm' : 4 * Z + w = 2 * s + 1 := by rw [← hdm, hZ]; ring
  have e1 : q * (Q * 2) = 2 * Z := by rw [hZ]; ring
  have e2 : (q + 1) * (Q * 2) = 2 * Z + 2 * Q := by rw [hZ]; ring
  rw [e1] at hc
  rw [e1, e2] at hR
  refine cell_nearest (lo := ((2 * Z : Nat) : ℝ)) (hi := ((2 * Z + 2 * Q : Nat) : ℝ)) ?_ ?_ ?_ ?_
  · refine le_trans ?_ h1
    have : 2 * Z ≤ s := by omega
    exact_mod_cast this
  · refine le_trans h2 ?_
    have : s + 1 ≤ 2 * Z + 2 * Q := by omega
    exact_mod_cast this
  · rcases hR with ⟨rfl, h, -⟩ | ⟨rfl, h, -⟩
    · left
      refine ⟨rfl, ?_⟩
      have : s + 1 ≤ 2 * Z + Q := by omega
      have : (s : ℝ) + 1 ≤ 2 * Z + Q := by exact_mod_cast this
      push_cast; linarith
    · right
      refine ⟨rfl, ?_⟩
      have : 2 * Z + Q ≤ s := by omega
      have : 2 * (Z : ℝ) + Q ≤ s := by exact_mod_cast this
      push_cast; linarith
  · rcases hc with ⟨j, rfl⟩ | h
    · rcases Nat.lt_or_ge j (q + 1) with h | h
      · left
        have : j * (Q * 2) ≤ q * (Q * 2) := Nat.mul_le_mul_right _ (by omega)
        rw [e1] at this
        exact_mod_cast this
      · right
        have : (q + 1) * (Q * 2) ≤ j * (Q * 2) := Nat.mul_le_mul_right _ h
        rw [e2] at this
        exact_mod_cast this
    · left; exact_mod_cast h

/-- The square root of a positive number is the finite number nearest to the exact root. -/
theorem sqrt_nearest {m : Nat} (hm : Finite (fin false m)) (h0 : m ≠ 0) :
    Finite (sqrt (fin false m)) ∧ ∀ z, Finite z →
      |(val (sqrt (fin false m)) : ℝ) - Real.sqrt (val (fin false m))| ≤
        |(val z : ℝ) - Real.sqrt (val (fin false m))| := by
  obtain ⟨-, hlt⟩ := hm
  obtain ⟨n, hn⟩ : ∃ n, n = m * 2 ^ 149 := ⟨_, rfl⟩
  have hn428 : n < 2 ^ 426 := by
    rw [hn, show 426 = 277 + 149 from rfl, pow_add]
    exact Nat.mul_lt_mul_of_pos_right hlt (by positivity)
  have hspec := natSqrt_spec (n := n) (hn428.trans (Nat.pow_lt_pow_right (by norm_num) (by norm_num)))
  obtain ⟨s, hs⟩ : ∃ s, s = natSqrt n := ⟨_, rfl⟩
  rw [← hs] at hspec
  have hsq : sqrt (fin false m) = if s * s = n then round false s 1 else round false (2 * s + 1) 2 := by
    simp only [sqrt, if_neg h0, Bool.false_eq_true, if_false]
    rw [← hn, ← hs]
  have hs74 : 2 ^ 74 ≤ s := by
    by_contra hc
    have h1 : s + 1 ≤ 2 ^ 74 := by omega
    have h2 : (s + 1) * (s + 1) ≤ 2 ^ 74 * 2 ^ 74 := Nat.mul_le_mul h1 h1
    have h3 : 2 ^ 149 ≤ n := by rw [hn]; exact Nat.le_mul_of_pos_left _ (Nat.pos_of_ne_zero h0)
    rw [← pow_add] at h2
    have h4 : (2:Nat) ^ (74 + 74) < 2 ^ 149 := Nat.pow_lt_pow_right (by norm_num) (by norm_num)
    omega
  have hs213 : s < 2 ^ 213 := by
    by_contra hc
    have h2 : 2 ^ 213 * 2 ^ 213 ≤ s * s := Nat.mul_le_mul (not_lt.1 hc) (not_lt.1 hc)
    rw [← pow_add] at h2
    omega
  -- the exact root, in units of `2^(-149)`
  obtain ⟨t, ht⟩ : ∃ t : ℝ, t = Real.sqrt n := ⟨_, rfl⟩
  have ht1 : (s : ℝ) ≤ t := by
    rw [ht]; apply Real.le_sqrt_of_sq_le
    rw [sq]; exact_mod_cast hspec.1
  have ht2 : t ≤ s + 1 := by
    rw [ht]; apply Real.sqrt_le_iff.2
    refine ⟨by positivity, ?_⟩
    rw [sq]; exact_mod_cast hspec.2.le
  have hpos : (0 : ℝ) < 2 ^ 149 := by positivity
  have hroot : Real.sqrt (val (fin false m) : ℚ) = t / 2 ^ 149 := by
    have : ((val (fin false m) : ℚ) : ℝ) = n / (2 ^ 149) ^ 2 := by
      simp only [val, Bool.false_eq_true, if_false, one_mul]
      rw [hn]; push_cast; field_simp; norm_num
    rw [this, Real.sqrt_div (by positivity), Real.sqrt_sq hpos.le, ht]
  -- the rounded root is nearest to the exact root among magnitudes with 24 bits
  obtain ⟨R, hsR, hb, hRlt, hnear⟩ : ∃ R, sqrt (fin false m) = fin false R ∧ Bits24 R ∧ R < overflow ∧
      ∀ r, Bits24 r → |(R : ℝ) - t| ≤ |(r : ℝ) - t| := by
    -- the result is not large
    have hlim : ∀ R : Nat, (∀ r, Bits24 r → |(R : ℝ) - t| ≤ |(r : ℝ) - t|) → R < overflow := by
      intro R h
      have h0 := h 0 ⟨0, 0, by norm_num, by norm_num⟩
      have ht0 : 0 ≤ t := le_trans (by positivity) ht1
      rw [Nat.cast_zero, zero_sub, abs_neg, abs_of_nonneg ht0] at h0
      have h3 : (R : ℝ) ≤ 2 * t := by linarith [le_abs_self ((R : ℝ) - t)]
      have h4 : (R : ℝ) ≤ ((2 * (s + 1) : Nat) : ℝ) := by push_cast; linarith
      have h5 : R ≤ 2 * (s + 1) := by exact_mod_cast h4
      have h6 : (2 : Nat) ^ 215 ≤ overflow := Nat.pow_le_pow_right (by norm_num) (by norm_num)
      have h7 : (2 : Nat) ^ 215 = 4 * 2 ^ 213 := by rw [show 215 = 2 + 213 from rfl, pow_add]; norm_num
      omega
    rw [hsq]
    split
    · rename_i heq
      have hts : t = s := by
        rw [ht, ← heq]; push_cast; rw [Real.sqrt_mul_self (by positivity)]
      have hn' : ∀ r, Bits24 r → |((roundTo (ulpExp (s / 1)) s 1 : Nat) : ℝ) - t| ≤ |(r : ℝ) - t| := by
        intro r hr
        have := roundTo_nearest (N := s) (D := 1) one_pos hr
        rw [Nat.cast_one, div_one] at this
        rw [hts]
        exact_mod_cast this
      refine ⟨_, ?_, roundTo_bits s 1, hlim _ hn', hn'⟩
      unfold round; simp only; rw [if_pos (hlim _ hn')]
    · have hn' := fun r hr => roundTo_between (s := s) (t := t) (r := r)
        (le_trans (Nat.pow_le_pow_right (by norm_num) (by norm_num)) hs74) ht1 ht2 hr
      refine ⟨_, ?_, roundTo_bits (2 * s + 1) 2, hlim _ hn', hn'⟩
      unfold round; simp only; rw [if_pos (hlim _ hn')]
  rw [hsR, hroot]
  refine ⟨⟨hb, hRlt⟩, ?_⟩
  intro z hz
  have ht0 : 0 ≤ t := le_trans (by positivity) ht1
  have e : ∀ x : ℝ, x / 2 ^ 149 - t / 2 ^ 149 = (x - t) / 2 ^ 149 := by intros; ring
  cases z with
  | nan => exact hz.elim
  | inf b => exact hz.elim
  | fin b k =>
    have h1 : ((val (fin false R) : ℚ) : ℝ) = R / 2 ^ 149 := by simp [val]
    rw [h1, e, abs_div, abs_of_pos hpos]
    cases b with
    | false =>
      have h2 : ((val (fin false k) : ℚ) : ℝ) = k / 2 ^ 149 := by simp [val]
      rw [h2, e, abs_div, abs_of_pos hpos]
      exact div_le_div_of_nonneg_right (hnear k hz.1) hpos.le
    | true =>
      have h2 : ((val (fin true k) : ℚ) : ℝ) = (-k) / 2 ^ 149 := by simp [val]
      rw [h2, e, abs_div, abs_of_pos hpos]
      refine div_le_div_of_nonneg_right ?_ hpos.le
      have h0 := hnear 0 ⟨0, 0, by norm_num, by norm_num⟩
      rw [Nat.cast_zero, zero_sub, abs_neg, abs_of_nonneg ht0] at h0
      refine h0.trans ?_
      rw [abs_of_nonpos (by have : (0:ℝ) ≤ k := by positivity
                            linarith)]
      have : (0:ℝ) ≤ k := by positivity
      linarith

end B32
end Polyanya
