import Verif.Spec.Accuracy32
import Verif.Proofs.Exact32
import Verif.Proofs.Estimate
import Verif.Props.Binary32
/-
Rounding errors of the binary32 operations, of a distance and of a sum of distances.
-/

namespace Polyanya
namespace B32

/-! ### One operation -/

/-- Rounding has a relative error of at most `2^(-24)`, or the last place is the unit and the error is at most half. -/
theorem roundTo_error {N D : Nat} (hD : 0 < D) :
    |((roundTo (ulpExp (N / D)) N D : Nat) : ℚ) - N / D| ≤ 2⁻¹ ^ 24 * (N / D) ∨
    (|((roundTo (ulpExp (N / D)) N D : Nat) : ℚ) - N / D| ≤ 1 / 2 ∧ (D = 1 → roundTo (ulpExp (N / D)) N D = N)) := by
  have hR := roundTo_cases (ulpExp (N / D)) N D
  have hq : 0 < ulpExp (N / D) → 2 ^ 23 ≤ N / (D * 2 ^ ulpExp (N / D)) := le_quot
  revert hR hq
  generalize ulpExp (N / D) = e
  generalize roundTo e N D = R
  intro hR hq
  have hDq : (0 : ℚ) < D := by exact_mod_cast hD
  rcases Nat.eq_zero_or_pos e with he | he
  · right
    subst he
    simp only [pow_zero, mul_one] at hR
    have hdm := Nat.div_add_mod N D
    have hml := Nat.mod_lt N hD
    have hx : (N : ℚ) / D = (N / D : Nat) + (N % D : Nat) / D := by
      nth_rw 1 [← hdm]; push_cast; field_simp
    constructor
    · rw [hx]
      have h0 : (0 : ℚ) ≤ (N % D : Nat) / D := by positivity
      rcases hR with ⟨rfl, h2, -⟩ | ⟨rfl, h2, -⟩
      · have h3 : ((N % D : Nat) : ℚ) / D ≤ 1 / 2 := by
          rw [div_le_div_iff₀ hDq (by norm_num)]
          have : ((2 * (N % D) : Nat) : ℚ) ≤ D := by exact_mod_cast h2
          push_cast at this; linarith
        rw [abs_le]; constructor <;> linarith
      · have h3 : 1 / 2 ≤ ((N % D : Nat) : ℚ) / D := by
          rw [div_le_div_iff₀ (by norm_num) hDq]
          have : (D : ℚ) ≤ ((2 * (N % D) : Nat) : ℚ) := by exact_mod_cast h2
          push_cast at this; linarith
        have h4 : ((N % D : Nat) : ℚ) / D ≤ 1 := by
          rw [div_le_one hDq]; exact_mod_cast hml.le
        push_cast
        rw [abs_le]; constructor <;> linarith
    · rintro rfl
      simp only [Nat.div_one, Nat.mod_one] at hR
      omega
  · left
    have hq := hq he
    have hP : 0 < 2 ^ e := by positivity
    revert hR hq hP
    generalize 2 ^ e = P
    intro hR hq hP
    have hdm := Nat.div_add_mod N (D * P)
    have hml := Nat.mod_lt N (show D * P > 0 by positivity)
    revert hdm hml hR hq
    generalize N / (D * P) = q
    generalize N % (D * P) = t
    intro hR hq hdm hml
    have hx : (N : ℚ) / D = q * P + t / D := by
      rw [← hdm]; push_cast; field_simp
    have hPq : (0 : ℚ) < P := by exact_mod_cast hP
    have hqq : (2 : ℚ) ^ 23 ≤ q := by exact_mod_cast hq
    have ht0 : (0 : ℚ) ≤ t / D := by positivity
    have ht1 : (t : ℚ) / D < P := by
      rw [div_lt_iff₀ hDq]; calc (t : ℚ) < ((D * P : Nat) : ℚ) := by exact_mod_cast hml
        _ = P * D := by push_cast; ring
    have hbig : (2 : ℚ) ^ 23 * P ≤ N / D := by rw [hx]; nlinarith
    have hhalf : (P : ℚ) / 2 ≤ 2⁻¹ ^ 24 * (N / D) := by
      have : (P : ℚ) / 2 = 2⁻¹ ^ 24 * (2 ^ 23 * P) := by ring
      rw [this]
      exact mul_le_mul_of_nonneg_left hbig (by positivity)
    refine le_trans ?_ hhalf
    rw [hx]
    rcases hR with ⟨rfl, h2, -⟩ | ⟨rfl, h2, -⟩
    · have h3 : (t : ℚ) / D ≤ P / 2 := by
        have : (2 * t : ℚ) ≤ D * P := by exact_mod_cast h2
        rw [div_le_div_iff₀ hDq (by norm_num)]; linarith
      push_cast
      rw [abs_le]; constructor <;> linarith
    · have h3 : (P : ℚ) / 2 ≤ t / D := by
        have : (D * P : ℚ) ≤ 2 * t := by exact_mod_cast h2
        rw [div_le_div_iff₀ (by norm_num) hDq]; linarith
      push_cast
      rw [abs_le]; constructor <;> linarith

theorem round_error (neg : Bool) {N D : Nat} (hD : 0 < D) (hf : Finite (round neg N D)) :
    |val (round neg N D) - (if neg then -1 else 1) * (N / D) / 2 ^ 149| ≤
      2⁻¹ ^ 24 * |(if neg then -1 else 1) * (N / D : ℚ) / 2 ^ 149| + (if D = 1 then 0 else 2⁻¹ ^ 150) := by
  have hr : round neg N D = fin neg (roundTo (ulpExp (N / D)) N D) := by
    unfold round at hf ⊢
    simp only at hf ⊢
    split
    · rfl
    · rename_i h; rw [if_neg h] at hf; exact hf.elim
  rw [hr]
  simp only [val]
  have hpos : (0 : ℚ) < 2 ^ 149 := by positivity
  have e1 : ∀ (s x y : ℚ), s * x / 2 ^ 149 - s * y / 2 ^ 149 = s * (x - y) / 2 ^ 149 := by intros; ring
  have e2 : |(if neg = true then (-1 : ℚ) else 1)| = 1 := by cases neg <;> simp
  rw [e1, abs_div, abs_mul, e2, one_mul, abs_div, abs_mul, e2, one_mul, abs_of_pos hpos,
    abs_of_nonneg (show (0 : ℚ) ≤ N / D by positivity)]
  rcases roundTo_error (N := N) hD with h | ⟨h, h1⟩
  · have h2 := div_le_div_of_nonneg_right h hpos.le
    have h3 : (0 : ℚ) ≤ (if D = 1 then 0 else 2⁻¹ ^ 150) := by split <;> positivity
    rw [mul_div_assoc] at h2
    linarith
  · by_cases hd : D = 1
    · rw [h1 hd, if_pos hd]
      subst hd
      simp only [Nat.cast_one, div_one, sub_self, abs_zero, zero_div]
      positivity
    · rw [if_neg hd]
      have h2 := div_le_div_of_nonneg_right h hpos.le
      have h3 : (1 / 2 : ℚ) / 2 ^ 149 = 2⁻¹ ^ 150 := by
        rw [inv_pow, show (150 : Nat) = 149 + 1 from rfl, pow_succ]; field_simp
      rw [h3] at h2
      have h4 : (0 : ℚ) ≤ 2⁻¹ ^ 24 * (N / D / 2 ^ 149) := by positivity
      linarith

theorem ofInt_error {neg0 : Bool} {s : Int} (hf : Finite (ofInt neg0 s)) :
    |val (ofInt neg0 s) - (s : ℚ) / 2 ^ 149| ≤ 2⁻¹ ^ 24 * |(s : ℚ) / 2 ^ 149| := by
  unfold ofInt at hf ⊢
  by_cases h : s = 0
  · rw [if_pos h, h]; simp [val]
  · rw [if_neg h] at hf ⊢
    have h1 := round_error _ one_pos hf
    rw [if_pos rfl, add_zero] at h1
    have habs : ((s.natAbs : Nat) : ℚ) = |(s : ℚ)| := by
      rw [← Int.cast_natCast, Int.natCast_natAbs, Int.cast_abs]
    have h2 : (if decide (s < 0) = true then (-1 : ℚ) else 1) * ((s.natAbs : Nat) / (1 : Nat)) / 2 ^ 149 = s / 2 ^ 149 := by
      congr 1
      rw [Nat.cast_one, div_one, habs]
      rcases lt_or_ge s 0 with h | h
      · rw [if_pos (by simpa using h), abs_of_neg (by exact_mod_cast h)]; ring
      · rw [if_neg (by simpa using h), abs_of_nonneg (by exact_mod_cast h)]; ring
    rw [h2] at h1
    exact h1

/-- A finite number or an infinity or NaN: everything but the numbers of the type that have too many bits. -/
def Canon (x : B32) : Prop := ∀ a m, x = fin a m → Finite x

theorem canon_round (neg : Bool) (N D : Nat) : Canon (round neg N D) := by
  intro a m h
  unfold round at h ⊢
  simp only at h ⊢
  split
  · rename_i h1; exact ⟨roundTo_bits N D, h1⟩
  · rename_i h1; rw [if_neg h1] at h; simp at h

theorem canon_ofInt (neg0 : Bool) (s : Int) : Canon (ofInt neg0 s) := by
  unfold ofInt
  split
  · intro a m _; exact (nearest_zero _).1
  · exact canon_round _ _ _

theorem canon_add (x y : B32) : Canon (add x y) := by
  cases x <;> cases y <;> simp only [add]
  case fin.fin => exact canon_ofInt _ _
  case inf.inf => split <;> (intro a m h; simp at h)
  all_goals (intro a m h; simp at h)

theorem canon_sub (x y : B32) : Canon (sub x y) := canon_add _ _

theorem canon_mul (x y : B32) : Canon (mul x y) := by
  cases x <;> cases y <;> simp only [mul]
  case fin.fin => exact canon_round _ _ _
  case inf.fin => split <;> (intro a m h; simp at h)
  case fin.inf => split <;> (intro a m h; simp at h)
  all_goals (intro a m h; simp at h)

theorem Finite.canon {x : B32} (h : Finite x) : Canon x := fun _ _ _ => h

/-- The summands of a finite sum are finite. -/
theorem finite_of_add {x y : B32} (hx : Canon x) (hy : Canon y) (h : Finite (add x y)) : Finite x ∧ Finite y := by
  cases x with
  | nan => exact h.elim
  | inf a =>
    cases y with
    | nan => exact h.elim
    | inf b => simp only [add] at h; split at h <;> exact h.elim
    | fin b n => exact h.elim
  | fin a m =>
    cases y with
    | nan => exact h.elim
    | inf b => exact h.elim
    | fin b n => exact ⟨hx a m rfl, hy b n rfl⟩

theorem canon_of_neg {x : B32} (h : Canon x) : Canon (neg x) := by
  cases x with
  | nan => intro a m h; simp [neg] at h
  | inf a => intro a m h; simp [neg] at h
  | fin a m => intro _ _ _; exact finite_neg (h a m rfl)

theorem finite_of_neg {x : B32} (h : Finite (neg x)) : Finite x := by
  cases x <;> first | exact h.elim | exact h

theorem finite_of_sub {x y : B32} (hx : Canon x) (hy : Canon y) (h : Finite (sub x y)) : Finite x ∧ Finite y := by
  have := finite_of_add hx (canon_of_neg hy) h
  exact ⟨this.1, finite_of_neg this.2⟩

theorem finite_of_sq {x : B32} (hx : Canon x) (h : Finite (mul x x)) : Finite x := by
  cases x with
  | nan => exact h.elim
  | inf a => exact h.elim
  | fin a m => exact hx a m rfl

/-- Error of a sum. -/
theorem add_error {x y : B32} (hx : Canon x) (hy : Canon y) (h : Finite (add x y)) :
    |(val (add x y) : ℝ) - (val x + val y)| ≤ 2⁻¹ ^ 24 * |(val x : ℝ) + val y| := by
  obtain ⟨fx, fy⟩ := finite_of_add hx hy h
  cases x <;> cases y <;> first | exact fx.elim | exact fy.elim | skip
  rename_i a m b n
  have h1 := ofInt_error h
  have : val (fin a m) + val (fin b n) = ((signed a m + signed b n : Int) : ℚ) / 2 ^ 149 := by
    rw [val_fin, val_fin, Int.cast_add, add_div]
  rw [← this] at h1
  have h2 : ((|val (add (fin a m) (fin b n)) - (val (fin a m) + val (fin b n))| : ℚ) : ℝ) ≤
      ((2⁻¹ ^ 24 * |val (fin a m) + val (fin b n)| : ℚ) : ℝ) := by exact_mod_cast h1
  push_cast at h2
  exact h2

theorem sub_error {x y : B32} (hx : Canon x) (hy : Canon y) (h : Finite (sub x y)) :
    |(val (sub x y) : ℝ) - (val x - val y)| ≤ 2⁻¹ ^ 24 * |(val x : ℝ) - val y| := by
  have := add_error hx (canon_of_neg hy) h
  rw [val_neg] at this
  push_cast at this
  rw [← sub_eq_add_neg] at this
  exact this

theorem mul_error {x y : B32} (hx : Finite x) (hy : Finite y) (h : Finite (mul x y)) :
    |(val (mul x y) : ℝ) - val x * val y| ≤ 2⁻¹ ^ 24 * |(val x : ℝ) * val y| + 2⁻¹ ^ 150 := by
  cases x <;> cases y <;> first | exact hx.elim | exact hy.elim | skip
  rename_i a m b n
  have h1 := round_error (a ^^ b) (N := m * n) (D := 2 ^ 149) (by positivity) h
  rw [if_neg (show ¬ (2 ^ 149 : Nat) = 1 by norm_num)] at h1
  have : val (fin a m) * val (fin b n) =
      (if (a ^^ b) = true then (-1 : ℚ) else 1) * (((m * n : Nat) : ℚ) / ((2 ^ 149 : Nat) : ℚ)) / 2 ^ 149 := by
    rw [sign_xor]; simp only [val]; push_cast; ring
  rw [← this] at h1
  have h2 : ((|val (mul (fin a m) (fin b n)) - (val (fin a m) * val (fin b n))| : ℚ) : ℝ) ≤
      ((2⁻¹ ^ 24 * |val (fin a m) * val (fin b n)| + 2⁻¹ ^ 150 : ℚ) : ℝ) := by exact_mod_cast h1
  push_cast at h2
  exact h2

/-- Near every number that is not small there is one with 24 bits. -/
theorem exists_bits24 {t : ℝ} (ht : 2 ^ 23 ≤ t) : ∃ r : Nat, Bits24 r ∧ |(r : ℝ) - t| ≤ 2⁻¹ ^ 24 * t := by
  obtain ⟨s, hs⟩ : ∃ s, s = ⌊t⌋₊ := ⟨_, rfl⟩
  have ht0 : 0 ≤ t := le_trans (by positivity) ht
  have h1 : (s : ℝ) ≤ t := by rw [hs]; exact Nat.floor_le ht0
  have h2 : t < s + 1 := by rw [hs]; exact Nat.lt_floor_add_one t
  have hs23 : 2 ^ 23 ≤ s := by rw [hs]; apply Nat.le_floor; exact_mod_cast ht
  have hs0 : s ≠ 0 := by omega
  have hlog : 23 ≤ Nat.log2 s := by rw [Nat.le_log2 hs0]; exact hs23
  obtain ⟨e, he⟩ : ∃ e, Nat.log2 s = 23 + e := ⟨Nat.log2 s - 23, by omega⟩
  have h3 : 2 ^ 23 * 2 ^ e ≤ s := by rw [← pow_add, ← he]; exact Nat.log2_self_le hs0
  have h4 : s < 2 ^ 24 * 2 ^ e := by
    rw [← pow_add]
    have := Nat.lt_log2_self (n := s)
    rw [he] at this
    rwa [show 23 + e + 1 = 24 + e from by omega] at this
  have hP : 0 < 2 ^ e := by positivity
  have hb : ∀ k, k ≤ 2 ^ 24 → Bits24 (k * 2 ^ e) := by
    intro k hk
    rcases Nat.lt_or_ge k (2 ^ 24) with h | h
    · exact ⟨k, e, h, rfl⟩
    · refine ⟨2 ^ 23, e + 1, by norm_num, ?_⟩
      rw [show k = 2 ^ 24 from by omega, pow_succ 2 e]; ring
  revert h3 h4 hP hb
  generalize 2 ^ e = P
  intro h3 h4 hP hb
  have hdm := Nat.div_add_mod s P
  have hml := Nat.mod_lt s hP
  have hq : s / P < 2 ^ 24 := (Nat.div_lt_iff_lt_mul hP).2 h4
  revert hdm hml hq
  generalize s / P = q
  generalize s % P = w
  intro hdm hml hq
  have hPr : (0 : ℝ) < P := by exact_mod_cast hP
  have hlo : (q : ℝ) * P ≤ t := by
    refine le_trans ?_ h1
    have : q * P ≤ s := by rw [← hdm, Nat.mul_comm]; omega
    exact_mod_cast this
  have hhi : t ≤ (q + 1) * P := by
    refine le_trans h2.le ?_
    have : s + 1 ≤ (q + 1) * P := by rw [← hdm]; nlinarith
    exact_mod_cast this
  have hhalf : (P : ℝ) / 2 ≤ 2⁻¹ ^ 24 * t := by
    have h5 : (2 : ℝ) ^ 23 * P ≤ t := by
      refine le_trans ?_ h1
      exact_mod_cast h3
    have : (P : ℝ) / 2 = 2⁻¹ ^ 24 * (2 ^ 23 * P) := by ring
    rw [this]
    exact mul_le_mul_of_nonneg_left h5 (by positivity)
  rcases le_total (t - q * P) (P / 2) with h | h
  · refine ⟨q * P, hb q hq.le, le_trans ?_ hhalf⟩
    push_cast
    rw [abs_le]; constructor <;> linarith
  · refine ⟨(q + 1) * P, hb (q + 1) hq, le_trans ?_ hhalf⟩
    push_cast
    rw [abs_le]; constructor <;> linarith

/-- Error of a square root. -/
theorem sqrt_error {x : B32} (hx : Finite x) (h0 : 0 ≤ val x) :
    |(val (sqrt x) : ℝ) - Real.sqrt (val x)| ≤ 2⁻¹ ^ 24 * Real.sqrt (val x) := by
  cases x with
  | nan => exact hx.elim
  | inf a => exact hx.elim
  | fin a m =>
    by_cases hm : m = 0
    · subst hm
      simp [sqrt, val]
    · have ha : a = false := by
        cases a with
        | false => rfl
        | true =>
          exfalso
          have : (0 : ℚ) < m := by exact_mod_cast Nat.pos_of_ne_zero hm
          simp only [val, if_true] at h0
          have : (0 : ℚ) ≤ -((m : ℚ) / 2 ^ 149) := by rw [← neg_div]; linarith
          have : (0 : ℚ) < (m : ℚ) / 2 ^ 149 := by positivity
          linarith
      subst ha
      have hpos : (0 : ℝ) < 2 ^ 149 := by positivity
      obtain ⟨t, ht⟩ : ∃ t : ℝ, t = Real.sqrt (m * 2 ^ 149) := ⟨_, rfl⟩
      have hroot : Real.sqrt (val (fin false m) : ℚ) = t / 2 ^ 149 := by
        have : ((val (fin false m) : ℚ) : ℝ) = (m * 2 ^ 149) / (2 ^ 149) ^ 2 := by
          simp only [val, Bool.false_eq_true, if_false, one_mul]
          push_cast; field_simp
        rw [this, Real.sqrt_div (by positivity), Real.sqrt_sq hpos.le, ht]
      have hm1 : (1 : ℝ) ≤ m := by exact_mod_cast Nat.pos_of_ne_zero hm
      have ht23 : 2 ^ 23 ≤ t := by
        rw [ht]; apply Real.le_sqrt_of_sq_le
        have h1 : ((2 : ℝ) ^ 23) ^ (2 : Nat) ≤ (2 : ℝ) ^ 149 := by
          rw [← pow_mul]; exact pow_le_pow_right₀ (by norm_num) (by norm_num)
        exact h1.trans (le_mul_of_one_le_left hpos.le hm1)
      have ht213 : t ≤ 2 ^ 213 := by
        rw [ht]; apply Real.sqrt_le_iff.2
        refine ⟨by positivity, ?_⟩
        rw [← pow_mul]
        have : (m : ℝ) ≤ 2 ^ 277 := by exact_mod_cast hx.2.le
        calc (m : ℝ) * 2 ^ 149 ≤ 2 ^ 277 * 2 ^ 149 := mul_le_mul_of_nonneg_right this hpos.le
          _ = 2 ^ (213 * 2) := by rw [← pow_add]
      obtain ⟨r, hr, hnear⟩ := exists_bits24 ht23
      have hrlt : r < overflow := by
        have h1 : (r : ℝ) ≤ 2 * t := by
          have := (abs_le.1 hnear).2
          have h2 : (2⁻¹ : ℝ) ^ 24 * t ≤ 1 * t :=
            mul_le_mul_of_nonneg_right (pow_le_one₀ (by norm_num) (by norm_num)) (le_trans (by positivity) ht23)
          linarith
        have h2 : (r : ℝ) ≤ 2 ^ 214 := by
          refine h1.trans ?_
          rw [show (2 : ℝ) ^ 214 = 2 * 2 ^ 213 by norm_num]; linarith
        have h3 : r ≤ 2 ^ 214 := by exact_mod_cast h2
        refine lt_of_le_of_lt h3 (Nat.pow_lt_pow_right (by norm_num) (by norm_num))
      have h1 := (sqrt_nearest hx hm).2 (fin false r) ⟨hr, hrlt⟩
      refine h1.trans ?_
      rw [hroot]
      have h2 : ((val (fin false r) : ℚ) : ℝ) = r / 2 ^ 149 := by simp [val]
      rw [h2, ← sub_div, abs_div, abs_of_pos hpos, ← mul_div_assoc]
      exact div_le_div_of_nonneg_right hnear hpos.le

/-! ### A distance -/

theorem between_of_error {a b e : ℝ} (h : |a - b| ≤ 2⁻¹ ^ 24 * |b| + e) (hb : 0 ≤ b) :
    (1 - 2⁻¹ ^ 24) * b - e ≤ a ∧ a ≤ (1 + 2⁻¹ ^ 24) * b + e := by
  rw [abs_of_nonneg hb] at h
  have := abs_le.1 h
  constructor <;> linarith

theorem sq_error {x : B32} (hx : Finite x) (h : Finite (mul x x)) {d : ℝ}
    (hd : |(val x : ℝ) - d| ≤ 2⁻¹ ^ 24 * |d|) :
    (1 - 2⁻¹ ^ 24) ^ 3 * d ^ 2 - 2⁻¹ ^ 150 ≤ val (mul x x) ∧
    (val (mul x x) : ℝ) ≤ (1 + 2⁻¹ ^ 24) ^ 3 * d ^ 2 + 2⁻¹ ^ 150 := by
  have h1 := mul_error hx hx h
  obtain ⟨h2, h3⟩ := between_of_error h1 (mul_self_nonneg _)
  have hu0 : (0 : ℝ) ≤ 2⁻¹ ^ 24 := by positivity
  have hu1 : (2⁻¹ : ℝ) ^ 24 ≤ 1 := pow_le_one₀ (by norm_num) (by norm_num)
  generalize (2⁻¹ : ℝ) ^ 24 = u at *
  have hlo : (1 - u) * |d| ≤ |(val x : ℝ)| := by
    have := abs_sub_abs_le_abs_sub d (val x : ℝ)
    rw [abs_sub_comm] at this
    linarith
  have hhi : |(val x : ℝ)| ≤ (1 + u) * |d| := by
    have := abs_sub_abs_le_abs_sub (val x : ℝ) d
    linarith
  have hsq : (val x : ℝ) * val x = |(val x : ℝ)| ^ 2 := by rw [sq_abs]; ring
  have hdd : d ^ 2 = |d| ^ 2 := (sq_abs d).symm
  rw [hsq] at h2 h3
  rw [hdd]
  have hd0 := abs_nonneg d
  have hx0 := abs_nonneg (val x : ℝ)
  generalize |d| = D at *
  generalize |(val x : ℝ)| = X at *
  have k1 : ((1 - u) * D) ^ 2 ≤ X ^ 2 := pow_le_pow_left₀ (mul_nonneg (by linarith) hd0) hlo 2
  have k2 : X ^ 2 ≤ ((1 + u) * D) ^ 2 := pow_le_pow_left₀ hx0 hhi 2
  have k3 := mul_le_mul_of_nonneg_left k1 (show 0 ≤ 1 - u by linarith)
  have k4 := mul_le_mul_of_nonneg_left k2 (show 0 ≤ 1 + u by linarith)
  constructor
  · linarith [show (1 - u) * ((1 - u) * D) ^ 2 = (1 - u) ^ 3 * D ^ 2 by ring]
  · linarith [show (1 + u) * ((1 + u) * D) ^ 2 = (1 + u) ^ 3 * D ^ 2 by ring]

theorem val_nonneg_of_sq {x : B32} : 0 ≤ val (mul x x) := by
  cases x with
  | nan => simp [mul, val]
  | inf a => simp [mul, val]
  | fin a m =>
    simp only [mul, Bool.xor_self, round]
    split
    · simp only [val, Bool.false_eq_true, if_false, one_mul]; positivity
    · simp [val]

theorem val_add_nonneg {x y : B32} (hx : Canon x) (hy : Canon y) (h : Finite (add x y)) (h1 : 0 ≤ val x)
    (h2 : 0 ≤ val y) : 0 ≤ val (add x y) := by
  have h3 := add_error hx hy h
  have h4 : (0 : ℝ) ≤ val x + val y := by
    have : (0 : ℚ) ≤ val x + val y := by linarith
    exact_mod_cast this
  have h5 := (between_of_error (e := 0) (by rw [add_zero]; exact h3) h4).1
  have hu1 : (2⁻¹ : ℝ) ^ 24 ≤ 1 := pow_le_one₀ (by norm_num) (by norm_num)
  have : (0 : ℝ) ≤ val (add x y) := by
    refine le_trans ?_ h5
    rw [sub_zero]
    exact mul_nonneg (by linarith) h4
  exact_mod_cast this

theorem finite_of_sqrt {x : B32} (hx : Canon x) (h : Finite (sqrt x)) : Finite x := by
  cases x with
  | nan => exact h.elim
  | inf a => simp only [sqrt] at h; split at h <;> exact h.elim
  | fin a m => exact hx a m rfl

theorem canon_sqrt {x : B32} (hx : Canon x) : Canon (sqrt x) := by
  cases x with
  | nan => exact hx
  | inf a => simp only [sqrt]; split <;> (intro a m h; simp at h)
  | fin a m =>
    simp only [sqrt]
    split
    · intro _ _ _; exact (nearest_zero _).1
    · split
      · intro a m h; simp at h
      · split <;> exact canon_round _ _ _

end B32

open B32

/-- Coordinates that are numbers of the format, infinite or NaN. -/
def Vec2.IsCanon (v : Vec2 B32) : Prop := Canon v.x ∧ Canon v.y

theorem Vec2.IsFinite.canon {v : Vec2 B32} (h : v.IsFinite) : v.IsCanon := ⟨h.1.canon, h.2.canon⟩

/-- If the distance of two points is finite, they are finite. -/
theorem finite_of_distance {a b : Vec2 B32} (ha : a.IsCanon) (hb : b.IsCanon) (h : Finite (a.distance b)) :
    (a.IsFinite ∧ b.IsFinite) ∧ Finite (sub a.x b.x) ∧ Finite (sub a.y b.y) ∧
    Finite (mul (sub a.x b.x) (sub a.x b.x)) ∧ Finite (mul (sub a.y b.y) (sub a.y b.y)) ∧
    Finite (add (mul (sub a.x b.x) (sub a.x b.x)) (mul (sub a.y b.y) (sub a.y b.y))) := by
  have h1 : Finite (add (mul (sub a.x b.x) (sub a.x b.x)) (mul (sub a.y b.y) (sub a.y b.y))) :=
    finite_of_sqrt (canon_add _ _) h
  obtain ⟨h2, h3⟩ := finite_of_add (canon_mul _ _) (canon_mul _ _) h1
  have h4 := finite_of_sq (canon_sub _ _) h2
  have h5 := finite_of_sq (canon_sub _ _) h3
  obtain ⟨h6, h7⟩ := finite_of_sub ha.1 hb.1 h4
  obtain ⟨h8, h9⟩ := finite_of_sub ha.2 hb.2 h5
  exact ⟨⟨⟨h6, h8⟩, h7, h9⟩, h4, h5, h2, h3, h1⟩

theorem sqrt_add_le' {x y : ℝ} (hx : 0 ≤ x) (hy : 0 ≤ y) : Real.sqrt (x + y) ≤ Real.sqrt x + Real.sqrt y := by
  rw [Real.sqrt_le_iff]
  refine ⟨by positivity, ?_⟩
  have h1 := Real.sq_sqrt hx
  have h2 := Real.sq_sqrt hy
  nlinarith [mul_nonneg (Real.sqrt_nonneg x) (Real.sqrt_nonneg y)]

theorem sqrt_sub_ge {a b : ℝ} (ha : 0 ≤ a) (hb : 0 ≤ b) : Real.sqrt a - Real.sqrt b ≤ Real.sqrt (a - b) := by
  rcases le_total a b with h | h
  · have := Real.sqrt_le_sqrt h
    have := Real.sqrt_nonneg (a - b)
    linarith
  · have := sqrt_add_le' (sub_nonneg.2 h) hb
    rw [sub_add_cancel] at this
    linarith

/-- Error of a distance. -/
theorem distance_error {a b : Vec2 B32} (ha : a.IsCanon) (hb : b.IsCanon) (h : Finite (a.distance b)) :
    (1 - 2⁻¹ ^ 24) ^ 3 * dist2 a.toReal b.toReal - 2⁻¹ ^ 74 ≤ val (a.distance b) ∧
    (val (a.distance b) : ℝ) ≤ (1 + 2⁻¹ ^ 24) ^ 3 * (dist2 a.toReal b.toReal + 2⁻¹ ^ 74) := by
  obtain ⟨-, h4, h5, h2, h3, h1⟩ := finite_of_distance ha hb h
  have ex := sub_error ha.1 hb.1 h4
  have ey := sub_error ha.2 hb.2 h5
  obtain ⟨x1, x2⟩ := sq_error h4 h2 ex
  obtain ⟨y1, y2⟩ := sq_error h5 h3 ey
  have es := add_error (canon_mul _ _) (canon_mul _ _) h1
  have hnn : 0 ≤ val (add (mul (sub a.x b.x) (sub a.x b.x)) (mul (sub a.y b.y) (sub a.y b.y))) :=
    val_add_nonneg (canon_mul _ _) (canon_mul _ _) h1 val_nonneg_of_sq val_nonneg_of_sq
  have er := sqrt_error h1 hnn
  have hx0 : (0 : ℝ) ≤ val (mul (sub a.x b.x) (sub a.x b.x)) := by exact_mod_cast val_nonneg_of_sq
  have hy0 : (0 : ℝ) ≤ val (mul (sub a.y b.y) (sub a.y b.y)) := by exact_mod_cast val_nonneg_of_sq
  obtain ⟨s1, s2⟩ := between_of_error (e := 0) (by rw [add_zero]; exact es) (add_nonneg hx0 hy0)
  obtain ⟨r1, r2⟩ := between_of_error (e := 0)
    (by rw [add_zero, abs_of_nonneg (Real.sqrt_nonneg _)]; exact er) (Real.sqrt_nonneg _)
  change _ ≤ ((val (sqrt (add (mul (sub a.x b.x) (sub a.x b.x)) (mul (sub a.y b.y) (sub a.y b.y)))) : ℚ) : ℝ) ∧
    ((val (sqrt (add (mul (sub a.x b.x) (sub a.x b.x)) (mul (sub a.y b.y) (sub a.y b.y)))) : ℚ) : ℝ) ≤ _
  rw [sub_zero] at s1 r1
  rw [add_zero] at s2 r2
  have hd : dist2 a.toReal b.toReal = Real.sqrt (((a.x.val : ℝ) - b.x.val) ^ 2 + ((a.y.val : ℝ) - b.y.val) ^ 2) := rfl
  rw [hd]
  generalize ((val (sqrt (add (mul (sub a.x b.x) (sub a.x b.x)) (mul (sub a.y b.y) (sub a.y b.y)))) : ℚ) : ℝ) = R at *
  generalize ((val (add (mul (sub a.x b.x) (sub a.x b.x)) (mul (sub a.y b.y) (sub a.y b.y))) : ℚ) : ℝ) = S at *
  generalize ((val (mul (sub a.x b.x) (sub a.x b.x)) : ℚ) : ℝ) = X at *
  generalize ((val (mul (sub a.y b.y) (sub a.y b.y)) : ℚ) : ℝ) = Y at *
  generalize hD : ((a.x.val : ℝ) - b.x.val) ^ 2 + ((a.y.val : ℝ) - b.y.val) ^ 2 = D at *
  have hD0 : 0 ≤ D := by rw [← hD]; positivity
  have hu0 : (0 : ℝ) ≤ 2⁻¹ ^ 24 := by positivity
  have hu1 : (2⁻¹ : ℝ) ^ 24 ≤ 1 / 100 := by norm_num
  have hη : (2⁻¹ : ℝ) ^ 150 * 4 = (2⁻¹ ^ 74) ^ 2 := by rw [← pow_mul]; norm_num
  have hη0 : (0 : ℝ) ≤ 2⁻¹ ^ 150 := by positivity
  have hτ0 : (0 : ℝ) ≤ 2⁻¹ ^ 74 := by positivity
  clear es er ex ey hd h
  generalize (2⁻¹ : ℝ) ^ 24 = u at *
  generalize (2⁻¹ : ℝ) ^ 150 = η at *
  generalize (2⁻¹ : ℝ) ^ 74 = τ at *
  have hXY1 : (1 - u) ^ 3 * D - 2 * η ≤ X + Y := by rw [← hD, mul_add]; linarith
  have hXY2 : X + Y ≤ (1 + u) ^ 3 * D + 2 * η := by rw [← hD, mul_add]; linarith
  have hS1 : ((1 - u) ^ 2) ^ 2 * D - τ ^ 2 ≤ S := by
    have := mul_le_mul_of_nonneg_left hXY1 (show 0 ≤ 1 - u by linarith)
    have e : (1 - u) * ((1 - u) ^ 3 * D - 2 * η) = ((1 - u) ^ 2) ^ 2 * D - (1 - u) * (2 * η) := by ring
    have : (1 - u) * (2 * η) ≤ 4 * η := by nlinarith
    linarith
  have hS2 : S ≤ ((1 + u) ^ 2) ^ 2 * D + τ ^ 2 := by
    have := mul_le_mul_of_nonneg_left hXY2 (show 0 ≤ 1 + u by linarith)
    have e : (1 + u) * ((1 + u) ^ 3 * D + 2 * η) = ((1 + u) ^ 2) ^ 2 * D + (1 + u) * (2 * η) := by ring
    have : (1 + u) * (2 * η) ≤ 4 * η := by nlinarith
    linarith
  have q1 : (1 - u) ^ 2 * Real.sqrt D - τ ≤ Real.sqrt S := by
    have h1 := sqrt_sub_ge (a := ((1 - u) ^ 2) ^ 2 * D) (b := τ ^ 2) (by positivity) (by positivity)
    rw [Real.sqrt_mul (by positivity), Real.sqrt_sq (by positivity), Real.sqrt_sq hτ0] at h1
    exact h1.trans (Real.sqrt_le_sqrt hS1)
  have q2 : Real.sqrt S ≤ (1 + u) ^ 2 * Real.sqrt D + τ := by
    have h1 := sqrt_add_le' (x := ((1 + u) ^ 2) ^ 2 * D) (y := τ ^ 2) (by positivity) (by positivity)
    rw [Real.sqrt_mul (by positivity), Real.sqrt_sq (by positivity), Real.sqrt_sq hτ0] at h1
    exact (Real.sqrt_le_sqrt hS2).trans h1
  have hsD := Real.sqrt_nonneg D
  constructor
  · have := mul_le_mul_of_nonneg_left q1 (show 0 ≤ 1 - u by linarith)
    have e : (1 - u) * ((1 - u) ^ 2 * Real.sqrt D - τ) = (1 - u) ^ 3 * Real.sqrt D - (1 - u) * τ := by ring
    have : (1 - u) * τ ≤ τ := by nlinarith
    linarith
  · have := mul_le_mul_of_nonneg_left q2 (show 0 ≤ 1 + u by linarith)
    have e : (1 + u) * ((1 + u) ^ 2 * Real.sqrt D + τ) = (1 + u) ^ 3 * Real.sqrt D + (1 + u) * τ := by ring
    have e2 : (1 + u) ^ 3 = (1 + u) * (1 + u) ^ 2 := by ring
    have : (1 + u) * τ ≤ (1 + u) ^ 3 * τ := by
      refine mul_le_mul_of_nonneg_right ?_ hτ0
      rw [e2]
      exact le_mul_of_one_le_right (by linarith) (one_le_pow₀ (by linarith))
    linarith

/-! ### Sums of distances -/

/-- `x` is `y` up to `n` roundings and `k` underflows. -/
def Within (n k : Nat) (x y : ℝ) : Prop :=
  (1 - 2⁻¹ ^ 24) ^ n * y - k * 2⁻¹ ^ 74 ≤ x ∧ x ≤ (1 + 2⁻¹ ^ 24) ^ n * (y + k * 2⁻¹ ^ 74)

theorem within_zero : Within 3 0 0 0 := by simp [Within]

theorem within_distance {a b : Vec2 B32} (ha : a.IsCanon) (hb : b.IsCanon) (h : Finite (a.distance b)) :
    Within 3 1 (val (a.distance b)) (dist2 a.toReal b.toReal) := by
  have := distance_error ha hb h
  unfold Within
  rw [Nat.cast_one, one_mul]
  exact this

/-- One more leg. -/
theorem Within.add {n k : Nat} {x d : B32} {y l : ℝ} (h : Within n k (val x) y) (hl : Within 3 1 (val d) l)
    (hn : 3 ≤ n) (hl0 : 0 ≤ l) (hx : Canon x) (hd : Canon d) (hx0 : 0 ≤ val x) (hd0 : 0 ≤ val d)
    (hf : Finite (add x d)) : Within (n + 1) (k + 1) (val (add x d)) (y + l) := by
  have es := add_error hx hd hf
  have hx0' : (0 : ℝ) ≤ val x := by exact_mod_cast hx0
  have hd0' : (0 : ℝ) ≤ val d := by exact_mod_cast hd0
  obtain ⟨s1, s2⟩ := between_of_error (e := 0) (by rw [add_zero]; exact es) (add_nonneg hx0' hd0')
  obtain ⟨h1, h2⟩ := h
  obtain ⟨l1, l2⟩ := hl
  have hu0 : (0 : ℝ) ≤ 2⁻¹ ^ 24 := by positivity
  have hu1 : (2⁻¹ : ℝ) ^ 24 ≤ 1 := pow_le_one₀ (by norm_num) (by norm_num)
  have hτ0 : (0 : ℝ) ≤ 2⁻¹ ^ 74 := by positivity
  unfold Within
  rw [sub_zero] at s1
  rw [add_zero] at s2
  push_cast
  push_cast at l1 l2
  clear es
  generalize (2⁻¹ : ℝ) ^ 24 = u at *
  generalize (2⁻¹ : ℝ) ^ 74 = τ at *
  have p1 : (1 - u) ^ n ≤ (1 - u) ^ 3 := pow_le_pow_of_le_one (by linarith) (by linarith) hn
  have p2 : (1 + u) ^ 3 ≤ (1 + u) ^ n := pow_le_pow_right₀ (by linarith) hn
  have m1 := mul_le_mul_of_nonneg_right p1 hl0
  have m2 := mul_le_mul_of_nonneg_right p2 (show 0 ≤ l + 1 * τ by linarith)
  have hk : (0 : ℝ) ≤ k * τ := by positivity
  constructor
  · have t1 : (1 - u) ^ n * (y + l) - (k + 1) * τ ≤ val x + val d := by rw [mul_add]; linarith
    have t2 := mul_le_mul_of_nonneg_left t1 (show 0 ≤ 1 - u by linarith)
    have e : (1 - u) * ((1 - u) ^ n * (y + l) - (k + 1) * τ) =
        (1 - u) ^ (n + 1) * (y + l) - (1 - u) * ((k + 1) * τ) := by rw [pow_succ]; ring
    have : (1 - u) * ((k + 1) * τ) ≤ (k + 1) * τ := by nlinarith
    linarith
  · have t1 : (val x : ℝ) + val d ≤ (1 + u) ^ n * (y + l + (k + 1) * τ) := by
      have : (1 + u) ^ n * (y + l + (k + 1) * τ) = (1 + u) ^ n * (y + k * τ) + (1 + u) ^ n * (l + 1 * τ) := by ring
      rw [this]; linarith
    have t2 := mul_le_mul_of_nonneg_left t1 (show 0 ≤ 1 + u by linarith)
    have e : (1 + u) * ((1 + u) ^ n * (y + l + (k + 1) * τ)) = (1 + u) ^ (n + 1) * (y + l + (k + 1) * τ) := by
      rw [pow_succ]; ring
    linarith

theorem one_add_pow_le {u : ℝ} (hu : 0 ≤ u) (n : Nat) (h : n * u ≤ 1) : (1 + u) ^ n ≤ 1 + 2 * (n * u) := by
  induction n with
  | zero => simp
  | succ n ih =>
    push_cast at h ⊢
    have hn : (0 : ℝ) ≤ n * u := by positivity
    have h1 := ih (by linarith)
    -- `(1 + u)^(n+1) ≤ 1 + 2 (n + 1) u` from the quadratic bound
    have key : ∀ m : Nat, (m : ℝ) * u ≤ 1 → (1 + u) ^ m ≤ 1 + m * u + (m * u) ^ 2 := by
      intro m
      induction m with
      | zero => simp
      | succ m ihm =>
        intro hm
        push_cast at hm ⊢
        have hm0 : (0 : ℝ) ≤ m * u := by positivity
        have := ihm (by linarith)
        have h2 := mul_le_mul_of_nonneg_right this (show 0 ≤ 1 + u by linarith)
        rw [pow_succ]
        refine h2.trans ?_
        have h3 : (m * u) ^ 2 * u ≤ m * u * u := by
          have : (m * u) ^ 2 ≤ m * u := by rw [sq]; exact mul_le_of_le_one_left hm0 (by linarith)
          exact mul_le_mul_of_nonneg_right this hu
        nlinarith [mul_nonneg hu hu]
    have h2 := key (n + 1) (by push_cast; exact h)
    push_cast at h2
    have h3 : ((n + 1) * u) ^ 2 ≤ (n + 1) * u := by
      rw [sq]; exact mul_le_of_le_one_left (by positivity) h
    linarith

/-- The error bound in a readable form. -/
theorem Within.accurate {k : Nat} {x : B32} {y : ℝ} (h : Within (k + 3) k (val x) y) (hy : 0 ≤ y)
    (hk : k + 3 ≤ 2 ^ 24) : Accurate k x y := by
  obtain ⟨h1, h2⟩ := h
  have hu0 : (0 : ℝ) ≤ 2⁻¹ ^ 24 := by positivity
  have hnu : ((k + 3 : Nat) : ℝ) * 2⁻¹ ^ 24 ≤ 1 := by
    have : ((k + 3 : Nat) : ℝ) ≤ 2 ^ 24 := by exact_mod_cast hk
    rw [inv_pow, mul_inv_le_iff₀ (by positivity), one_mul]
    exact this
  have b1 := one_add_pow_le hu0 (k + 3) hnu
  have b2 : 1 - ((k + 3 : Nat) : ℝ) * 2⁻¹ ^ 24 ≤ (1 - 2⁻¹ ^ 24) ^ (k + 3) := by
    have := one_add_mul_le_pow (a := (-(2⁻¹ : ℝ) ^ 24)) (by norm_num) (k + 3)
    rw [← sub_eq_add_neg] at this
    refine le_trans (le_of_eq ?_) this
    ring
  have hτ0 : (0 : ℝ) ≤ 2⁻¹ ^ 74 := by positivity
  have e1 : (2⁻¹ : ℝ) ^ 23 = 2 * 2⁻¹ ^ 24 := by norm_num
  have e2 : (2⁻¹ : ℝ) ^ 72 = 4 * 2⁻¹ ^ 74 := by norm_num
  unfold Accurate
  rw [e1, e2]
  push_cast at hnu b1 b2
  generalize (2⁻¹ : ℝ) ^ 24 = u at *
  generalize (2⁻¹ : ℝ) ^ 74 = τ at *
  have hkτ : (0 : ℝ) ≤ k * τ := by positivity
  have hku : (0 : ℝ) ≤ (k + 3) * u := by positivity
  rw [abs_le]
  constructor
  · have := mul_le_mul_of_nonneg_right b2 hy
    nlinarith [mul_nonneg hku hy]
  · have := mul_le_mul_of_nonneg_right b1 (show 0 ≤ y + k * τ by linarith)
    have : (k + 3) * u * (k * τ) ≤ 1 * (k * τ) := mul_le_mul_of_nonneg_right hnu hkτ
    nlinarith

end Polyanya
