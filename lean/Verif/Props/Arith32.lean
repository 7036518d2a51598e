import Verif.Proofs.Ieee
import Verif.Proofs.Exact32
import Verif.Props.Binary32
/-
C75: the operations on binary32 numbers in the model are those of IEEE 754.
-/

namespace Polyanya
namespace B32

theorem ofInt_ieee (neg0 : Bool) {s : Int} (h : s ≠ 0) : Ieee ((s : ℚ) / 2 ^ 149) (ofInt neg0 s) := by
  unfold ofInt
  rw [if_neg h]
  refine round_ieee _ one_pos ?_
  congr 1
  rw [Nat.cast_one, div_one]
  have habs : ((s.natAbs : Nat) : ℚ) = |(s : ℚ)| := by
    rw [← Int.cast_natCast, Int.natCast_natAbs, Int.cast_abs]
  rw [habs]
  rcases lt_or_ge s 0 with h | h
  · rw [if_pos (by simpa using h), abs_of_neg (by exact_mod_cast h)]; ring
  · rw [if_neg (by simpa using h), abs_of_nonneg (by exact_mod_cast h)]; ring

/-- Zero is rounded to a zero. -/
theorem zero_ieee (a : Bool) : Ieee 0 (fin a 0) :=
  ⟨fun h => by rw [abs_zero] at h; norm_num at h, fun _ => nearest_zero a,
    fun _ z _ _ _ => ⟨0, by simp [val]⟩, fun h => (h rfl).elim⟩

theorem add_ieee {x y : B32} (hx : Finite x) (hy : Finite y) : Ieee (val x + val y) (add x y) := by
  cases x <;> cases y <;> first | exact hx.elim | exact hy.elim | skip
  rename_i a m b n
  have : val (fin a m) + val (fin b n) = ((signed a m + signed b n : Int) : ℚ) / 2 ^ 149 := by
    rw [val_fin, val_fin, Int.cast_add, add_div]
  rw [this]
  by_cases h : signed a m + signed b n = 0
  · have e : add (fin a m) (fin b n) = fin (a && b && m == 0 && n == 0) 0 := by
      change ofInt _ _ = _
      unfold ofInt; rw [if_pos h]
    rw [e, h, Int.cast_zero, zero_div]
    exact zero_ieee _
  · exact ofInt_ieee _ h

theorem sub_ieee {x y : B32} (hx : Finite x) (hy : Finite y) : Ieee (val x - val y) (sub x y) := by
  have := add_ieee hx (finite_neg hy)
  rwa [val_neg, ← sub_eq_add_neg] at this

theorem mul_ieee {x y : B32} (hx : Finite x) (hy : Finite y) : Ieee (val x * val y) (mul x y) := by
  cases x <;> cases y <;> first | exact hx.elim | exact hy.elim | skip
  rename_i a m b n
  refine round_ieee _ (by positivity) ?_
  rw [sign_xor]
  simp only [val]
  push_cast
  ring

theorem div_ieee {x y : B32} (hx : Finite x) (hy : Finite y) (h0 : val y ≠ 0) : Ieee (val x / val y) (div x y) := by
  cases x <;> cases y <;> first | exact hx.elim | exact hy.elim | skip
  rename_i a m b n
  have hn : n ≠ 0 := by rintro rfl; simp [val] at h0
  have : div (fin a m) (fin b n) = round (a ^^ b) (m * 2 ^ 149) n := by simp [div, hn]
  rw [this]
  refine round_ieee _ (Nat.pos_of_ne_zero hn) ?_
  rw [sign_xor]
  simp only [val]
  have hn' : (n : ℚ) ≠ 0 := by exact_mod_cast hn
  push_cast
  cases a <;> cases b <;> simp <;> field_simp <;> norm_num

end B32

open B32

/-- C75: on finite numbers, sums, differences, products and quotients are those that IEEE 754 demands: rounded to
nearest, ties to even, with overflow to infinity and the sign of the exact result. Square roots are nearest to the
exact root. Comparisons are exact. -/
theorem C75_arithmetic (x y : B32) (hx : Finite x) (hy : Finite y) :
    Ieee (val x + val y) (x +. y) ∧ Ieee (val x - val y) (x -. y) ∧ Ieee (val x * val y) (x *. y) ∧
    (val y ≠ 0 → Ieee (val x / val y) (x /. y)) ∧
    (0 < val x → Finite (Scalar.sqrt x) ∧ ∀ z : B32, z.Finite →
      |(val (Scalar.sqrt x) : ℝ) - Real.sqrt (val x)| ≤ |(val z : ℝ) - Real.sqrt (val x)|) ∧
    ((x <. y) = true ↔ val x < val y) ∧ ((x <=. y) = true ↔ val x ≤ val y) ∧ ((x ==. y) = true ↔ val x = val y) ∧
    val (Scalar.neg x) = - val x ∧ val (Scalar.abs x) = |val x| := by
  refine ⟨add_ieee hx hy, sub_ieee hx hy, mul_ieee hx hy, div_ieee hx hy, ?_, ?_, ?_, ?_, val_neg x, ?_⟩
  · intro h0
    cases x with
    | nan => exact hx.elim
    | inf _ => exact hx.elim
    | fin a m =>
      have ha : a = false := by
        cases a with
        | false => rfl
        | true =>
          have : (0 : ℚ) ≤ m / 2 ^ 149 := by positivity
          simp only [val, if_true, neg_mul, one_mul, neg_div] at h0
          linarith
      subst ha
      exact sqrt_nearest hx (by rintro rfl; simp [val] at h0)
  all_goals cases x <;> cases y <;> first | exact hx.elim | exact hy.elim | skip
  all_goals rename_i a m b n
  · rw [val_lt_iff]; exact decide_eq_true_iff
  · rw [val_le_iff]; exact decide_eq_true_iff
  · rw [le_antisymm_iff (a := val _), val_le_iff, val_le_iff, ← le_antisymm_iff]; exact decide_eq_true_iff
  · have hp : (0 : ℚ) ≤ m / 2 ^ 149 := by positivity
    change val (fin false m) = _
    cases a
    · simp only [val, Bool.false_eq_true, if_false, one_mul]; rw [abs_of_nonneg hp]
    · simp only [val, if_true, Bool.false_eq_true, if_false, one_mul, neg_mul, neg_div, abs_neg]
      rw [abs_of_nonneg hp]

/-- A zero of either sign. -/
def B32.IsZero : B32 → Prop
  | fin _ m => m = 0
  | _ => False

/-- An infinity of either sign. -/
def B32.IsInf : B32 → Prop
  | inf _ => True
  | _ => False

/-- C75: the exceptional cases of the operations. A result is NaN exactly if an operand is NaN or the operation is
invalid; infinities and divisions by zero give infinities, with the sign of the exact result; a sum of opposite numbers
is `+0`. -/
theorem C75_exceptions (x y : B32) :
    (x +. y = nan ↔ x = nan ∨ y = nan ∨ (IsInf x ∧ IsInf y ∧ x.signNeg ≠ y.signNeg)) ∧
    (x -. y = nan ↔ x = nan ∨ y = nan ∨ (IsInf x ∧ IsInf y ∧ x.signNeg = y.signNeg)) ∧
    (x *. y = nan ↔ x = nan ∨ y = nan ∨ (IsInf x ∧ IsZero y) ∨ (IsZero x ∧ IsInf y)) ∧
    (x /. y = nan ↔ x = nan ∨ y = nan ∨ (IsInf x ∧ IsInf y) ∨ (IsZero x ∧ IsZero y)) ∧
    (Scalar.sqrt x = nan ↔ x = nan ∨ (x.signNeg = true ∧ ¬ IsZero x)) ∧
    (IsInf x → x +. y ≠ nan → x +. y = x) ∧ (IsInf y → x +. y ≠ nan → x +. y = y) ∧
    (x ≠ nan → y ≠ nan → x *. y ≠ nan → (x *. y).signNeg = (x.signNeg ^^ y.signNeg)) ∧
    (x ≠ nan → y ≠ nan → x /. y ≠ nan → (x /. y).signNeg = (x.signNeg ^^ y.signNeg)) ∧
    ((IsInf x ∨ IsInf y) → x *. y ≠ nan → IsInf (x *. y)) ∧
    (IsInf x → x /. y ≠ nan → IsInf (x /. y)) ∧
    (¬ IsInf x → IsInf y → x /. y ≠ nan → IsZero (x /. y)) ∧
    (¬ IsZero x → IsZero y → x /. y ≠ nan → IsInf (x /. y)) ∧
    (IsInf x → x.signNeg = false → Scalar.sqrt x = x) ∧ (IsZero x → Scalar.sqrt x = x) ∧
    (x.Finite → ¬ IsZero x → x +. Scalar.neg x = fin false 0) ∧
    (IsZero x → IsZero y → x +. y = fin (x.signNeg && y.signNeg) 0) ∧
    (∀ m, Scalar.sqrt (fin false m) ≠ nan → (Scalar.sqrt (fin false m)).signNeg = false) := by
  have hsr : ∀ a N D, (B32.round a N D).signNeg = a := by intro a N D; unfold B32.round; simp only; split <;> rfl
  have hnr : ∀ a N D, B32.round a N D ≠ nan := by intro a N D; unfold B32.round; simp only; split <;> simp
  have hno : ∀ a s, ofInt a s ≠ nan := by
    intro a s; unfold ofInt; split
    · simp
    · exact hnr _ _ _
  have hself : ∀ a m, signed a m + signed (!a) m = 0 := by intro a m; cases a <;> simp [signed]
  simp only [Scalar.add, Scalar.sub, Scalar.mul, Scalar.div, Scalar.sqrt, Scalar.neg]
  refine ⟨?_, ?_, ?_, ?_, ?_, ?_, ?_, ?_, ?_, ?_, ?_, ?_, ?_, ?_, ?_, ?_, ?_, ?_⟩
  · cases x <;> cases y <;> simp [add, IsInf, signNeg, hno, -Bool.forall_bool]
  · cases x <;> cases y <;> simp [sub, neg, add, IsInf, signNeg, hno]
  · cases x <;> cases y <;> simp [mul, IsInf, IsZero, hnr, -Nat.reducePow]
  · cases x <;> cases y <;> simp [div, IsInf, IsZero, -Nat.reducePow]
    rename_i a m b n
    by_cases hn : n = 0 <;> by_cases hm : m = 0 <;> simp [hn, hm, hnr, -Nat.reducePow, -Bool.forall_bool]
  · cases x with
    | nan => simp [sqrt]
    | inf a => cases a <;> simp [sqrt, IsZero, signNeg]
    | fin a m =>
      by_cases h : m = 0
      · simp [sqrt, h, IsZero]
      · cases a <;> simp [sqrt, h, IsZero, signNeg, -Nat.reducePow]
        split <;> exact hnr _ _ _
  · cases x <;> cases y <;> simp [add, IsInf]
  · cases x <;> cases y <;> simp [add, IsInf]
    intro h; simp [h]
  · cases x <;> cases y <;> simp [mul, -Nat.reducePow]
    · simp [signNeg]
    · rename_i a b n; by_cases h : n = 0 <;> simp [h, signNeg]
    · rename_i a m b; by_cases h : m = 0 <;> simp [h, signNeg]
    · intro _; exact hsr _ _ _
  · cases x <;> cases y <;> simp [div, -Nat.reducePow]
    · simp [signNeg]
    · simp [signNeg]
    · rename_i a m b n
      by_cases hn : n = 0 <;> by_cases hm : m = 0 <;> simp [hn, hm, -Nat.reducePow]
      · simp [signNeg]
      · intro _; exact hsr _ _ _
      · intro _; exact hsr _ _ _
  · cases x <;> cases y <;> simp [mul, IsInf]
    · rename_i a b n; by_cases h : n = 0 <;> simp [h]
    · rename_i a m b; by_cases h : m = 0 <;> simp [h]
  · cases x <;> cases y <;> simp [div, IsInf]
  · cases x <;> cases y <;> simp [div, IsInf, IsZero]
  · cases x <;> cases y <;> simp [div, IsInf, IsZero]
    intro h h'; simp [h, h']
  · cases x <;> simp [IsInf, sqrt, signNeg]
  · cases x <;> simp [IsZero, sqrt]
    intro h; simp [h]
  · intro hf h0
    cases x with
    | nan => exact hf.elim
    | inf a => exact hf.elim
    | fin a m =>
      simp only [neg, add, ofInt, hself, if_true]
      simp
  · cases x <;> cases y <;> simp [IsZero, add, ofInt, signNeg]
    intro h h'; subst h; subst h'
    cases ‹Bool› <;> cases ‹Bool› <;> simp [signed]
  · intro m
    by_cases h : m = 0
    · simp [sqrt, h, signNeg]
    · simp only [sqrt, h, if_false, Bool.false_eq_true]
      split <;> intro _ <;> exact hsr _ _ _

/-- C75: `f32::total_cmp` orders numbers by their values, `-0` below `+0`, and NaN above everything. -/
theorem C75_total_order (x y : B32) (hx : x = nan ∨ IsInf x ∨ x.Finite) (hy : y = nan ∨ IsInf y ∨ y.Finite) :
    (Scalar.totalCmp x y = .lt ↔ (x <. y) = true ∨ (IsZero x ∧ IsZero y ∧ x.signNeg = true ∧ y.signNeg = false) ∨
      (x ≠ nan ∧ y = nan)) ∧
    (Scalar.totalCmp x y = .eq ↔ x = y) := by
  have hf : ∀ a m, (fin a m).Finite → (m : Int) < overflow := fun a m h => by exact_mod_cast h.2
  simp only [Scalar.totalCmp, B32.totalCmp, Scalar.lt, compare_lt_iff_lt, compare_eq_iff_eq]
  have ho : (0 : Int) < overflow := by unfold overflow; positivity
  revert ho hf
  generalize hO : (overflow : Int) = O
  intro hf ho
  cases x with
  | nan =>
    cases y with
    | nan => simp [B32.lt, place, IsZero]
    | inf b => cases b <;> simp [B32.lt, place, IsZero] <;> omega
    | fin b n =>
      have := hf b n (by simpa [IsInf] using hy)
      cases b <;> simp [B32.lt, place, IsZero] <;> omega
  | inf a =>
    cases y with
    | nan => cases a <;> simp [B32.lt, place, IsZero] <;> omega
    | inf b => cases a <;> cases b <;> simp [B32.lt, place, IsZero] <;> omega
    | fin b n =>
      have := hf b n (by simpa [IsInf] using hy)
      cases a <;> cases b <;> simp [B32.lt, place, IsZero] <;> omega
  | fin a m =>
    have h1 := hf a m (by simpa [IsInf] using hx)
    cases y with
    | nan => cases a <;> simp [B32.lt, place, IsZero] <;> omega
    | inf b => cases a <;> cases b <;> simp [B32.lt, place, IsZero] <;> omega
    | fin b n =>
      have h2 := hf b n (by simpa [IsInf] using hy)
      cases a <;> cases b <;> simp [B32.lt, place, IsZero, signed, signNeg] <;> omega

/-- Numbers whose sum is a tie are rounded to the even neighbour: `2^24 + 1` is `2^24`. -/
theorem C75_tie_example : (B32.ofNat (2 ^ 24) +. B32.ofNat 1) = B32.ofNat (2 ^ 24) ∧
    (B32.ofNat (2 ^ 24 + 2) +. B32.ofNat 1) = B32.ofNat (2 ^ 24 + 4) := by decide +kernel

end Polyanya
