import Verif.Proofs.Binary32
import Verif.Proofs.LocateExt
/-
Where binary32 arithmetic is exact: comparisons always, sums and products of numbers on a grid.
-/

namespace Polyanya
namespace B32

theorem exact_fin (a : Bool) (m : Nat) : exact (fin a m) = Ext.fin (val (fin a m)) := rfl

theorem val_lt_iff (a b : Bool) (m n : Nat) : val (fin a m) < val (fin b n) ↔ signed a m < signed b n := by
  rw [val_fin, val_fin, div_lt_div_iff_of_pos_right (by positivity)]
  exact Int.cast_lt

theorem val_le_iff (a b : Bool) (m n : Nat) : val (fin a m) ≤ val (fin b n) ↔ signed a m ≤ signed b n := by
  rw [val_fin, val_fin, div_le_div_iff_of_pos_right (by positivity)]
  exact Int.cast_le

theorem exact_lt (x y : B32) : (x.exact <. y.exact) = (x <. y) := by
  cases x <;> cases y <;> try rfl
  rename_i a m b n
  change (Ext.fin (val (fin a m)) <. Ext.fin (val (fin b n))) = decide (signed a m < signed b n)
  rw [Bool.eq_iff_iff, ext_lt, val_lt_iff, decide_eq_true_iff]

theorem exact_le (x y : B32) : (x.exact <=. y.exact) = (x <=. y) := by
  cases x <;> cases y <;> try rfl
  rename_i a m b n
  change (Ext.fin (val (fin a m)) <=. Ext.fin (val (fin b n))) = decide (signed a m ≤ signed b n)
  rw [Bool.eq_iff_iff, ext_le, val_le_iff, decide_eq_true_iff]

theorem exact_abs (x : B32) : (Scalar.abs x).exact = Scalar.abs x.exact := by
  cases x with
  | nan => rfl
  | inf a => rfl
  | fin a m =>
    change Ext.fin (val (fin false m)) = Ext.fin (Scalar.abs (val (fin a m)))
    rw [ExactField.abs]
    congr 1
    have hp : (0 : ℚ) ≤ m / 2 ^ 149 := by positivity
    cases a
    · simp only [val, Bool.false_eq_true, if_false, one_mul]; rw [abs_of_nonneg hp]
    · simp only [val, if_true, Bool.false_eq_true, if_false, one_mul, neg_mul, neg_div, abs_neg]
      rw [abs_of_nonneg hp]

theorem exact_fmin (x y : B32) : (fmin x y).exact = fmin x.exact y.exact := by
  unfold fmin; rw [exact_lt]; split <;> rfl

theorem exact_fmax (x y : B32) : (fmax x y).exact = fmax x.exact y.exact := by
  unfold fmax; rw [exact_lt]; split <;> rfl

theorem exact_inRange (lo hi x : B32) : inRange lo.exact hi.exact x.exact = inRange lo hi x := by
  unfold inRange; rw [exact_le, exact_le]

theorem exact_zero : (Scalar.lit 0 0 : B32).exact = (Scalar.lit 0 0 : Ext ℚ) := by decide +kernel

theorem exact_maxVal : (Scalar.maxVal : B32).exact = (Scalar.maxVal : Ext ℚ) := by decide +kernel

/-! ### Numbers on a grid -/

/-- `x` is `z` times the unit `2^(k-149)`. -/
def Mult (k : Nat) (x : B32) (z : Int) : Prop := B32.exact x = Ext.fin ((z : ℚ) * (2 : ℚ) ^ k / (2 : ℚ) ^ 149)

theorem Mult.signed {k : Nat} {x : B32} {z : Int} (h : Mult k x z) :
    ∃ a m, x = fin a m ∧ B32.signed a m = z * 2 ^ k := by
  cases x with
  | nan => simp [Mult, exact] at h
  | inf a => simp [Mult, exact] at h
  | fin a m =>
    refine ⟨a, m, rfl, ?_⟩
    have h1 : val (fin a m) = z * 2 ^ k / 2 ^ 149 := Ext.fin.inj h
    rw [val_fin, div_left_inj' (by positivity)] at h1
    exact_mod_cast h1

theorem Mult.val {k : Nat} {x : B32} {z : Int} (h : Mult k x z) : B32.val x = z * 2 ^ k / 2 ^ 149 := by
  obtain ⟨a, m, rfl, -⟩ := h.signed
  exact Ext.fin.inj h

theorem signed_natAbs (a : Bool) (m : Nat) : (B32.signed a m).natAbs = m := by
  cases a <;> simp [B32.signed]

theorem Mult.finite {k : Nat} {x : B32} {z : Int} (h : Mult k x z) (hz : z.natAbs < 2 ^ 24) (hk : k ≤ 253) :
    Finite x := by
  obtain ⟨a, m, rfl, h1⟩ := h.signed
  have hm : m = z.natAbs * 2 ^ k := by
    rw [← signed_natAbs a m, h1, Int.natAbs_mul]
    congr 1
  refine ⟨⟨_, k, hz, hm⟩, ?_⟩
  rw [hm]
  calc z.natAbs * 2 ^ k < 2 ^ 24 * 2 ^ k := Nat.mul_lt_mul_of_pos_right hz (by positivity)
    _ = 2 ^ (24 + k) := (pow_add _ _ _).symm
    _ ≤ 2 ^ 277 := Nat.pow_le_pow_right (by norm_num) (by omega)

/-- There is such a number. -/
theorem exists_mult {k : Nat} {z : Int} (hz : z.natAbs < 2 ^ 24) (hk : k ≤ 253) :
    ∃ y, Finite y ∧ B32.val y = z * 2 ^ k / 2 ^ 149 := by
  have h : Mult k (fin (z < 0) (z.natAbs * 2 ^ k)) z := by
    unfold Mult
    rw [exact_fin, val_fin]
    congr 1
    congr 1
    have : B32.signed (z < 0) (z.natAbs * 2 ^ k) = z * 2 ^ k := by
      unfold B32.signed
      rcases lt_or_ge z 0 with h | h
      · rw [if_pos (by simpa using h)]
        push_cast
        rw [abs_of_neg h]; ring
      · rw [if_neg (by simpa using h)]
        push_cast
        rw [abs_of_nonneg h]
    rw [this]
    push_cast
    ring
  exact ⟨_, h.finite hz hk, h.val⟩

/-- A correctly rounded result is exact if the exact value is a number of the format. -/
theorem Rounded.exact {v : ℚ} {r y : B32} (h : Rounded v r) (hy : Finite y) (hv : B32.val y = v) :
    r.exact = Ext.fin v := by
  rcases h with ⟨hf, h⟩ | ⟨h, -⟩
  · have := h y hy
    rw [hv, sub_self, abs_zero] at this
    have h0 : B32.val r = v := by
      have := abs_nonpos_iff.1 this
      linarith
    cases r with
    | nan => exact hf.elim
    | inf a => exact hf.elim
    | fin a m => rw [exact_fin, h0]
  · exfalso
    cases y with
    | nan => exact hy.elim
    | inf a => exact hy.elim
    | fin a m =>
      obtain ⟨⟨q, e, hq, rfl⟩, hlt⟩ := hy
      -- the number is at most the greatest finite number
      have hmax : q * 2 ^ e ≤ (2 ^ 24 - 1) * 2 ^ 253 := by
        rcases Nat.lt_or_ge 253 e with he | he
        · obtain ⟨f, rfl⟩ : ∃ f, e = 253 + (f + 1) := ⟨e - 254, by omega⟩
          rw [pow_add, mul_comm (2 ^ 253), ← mul_assoc]
          refine Nat.mul_le_mul_right _ ?_
          have : q * 2 ^ (f + 1) * 2 ^ 253 < 2 ^ 24 * 2 ^ 253 := by
            rw [← pow_add, mul_assoc, mul_comm (2 ^ (f + 1)), ← pow_add]
            exact hlt
          have := Nat.lt_of_mul_lt_mul_right this
          omega
        · exact Nat.mul_le_mul (by omega) (Nat.pow_le_pow_right (by norm_num) he)
      have habs : |v| = ((q * 2 ^ e : Nat) : ℚ) / 2 ^ 149 := by
        rw [← hv]
        have hp : (0 : ℚ) ≤ ((q * 2 ^ e : Nat) : ℚ) / 2 ^ 149 := by positivity
        cases a
        · simp only [B32.val, Bool.false_eq_true, if_false, one_mul]; rw [abs_of_nonneg hp]
        · simp only [B32.val, if_true, neg_mul, one_mul, neg_div, abs_neg]; rw [abs_of_nonneg hp]
      rw [habs, le_div_iff₀ (by positivity)] at h
      have h1 : ((q * 2 ^ e : Nat) : ℚ) ≤ (2 ^ 24 - 1) * 2 ^ 253 := by
        have : ((q * 2 ^ e : Nat) : ℚ) ≤ (((2 ^ 24 - 1) * 2 ^ 253 : Nat) : ℚ) := Nat.cast_le.2 hmax
        refine this.trans (le_of_eq ?_)
        rw [Nat.cast_mul]
        norm_num
      have h2 : ((2 : ℚ) ^ 128 - 2 ^ 103) * 2 ^ 149 = (2 ^ 25 - 1) * 2 ^ 252 := by
        rw [sub_mul, ← pow_add, ← pow_add, sub_mul, ← pow_add]; norm_num
      rw [h2] at h
      have h3 : ((2 : ℚ) ^ 24 - 1) * 2 ^ 253 = (2 ^ 25 - 2) * 2 ^ 252 := by
        rw [show (2 : ℚ) ^ 253 = 2 * 2 ^ 252 from by rw [show 253 = 1 + 252 from rfl, pow_add, pow_one]]
        ring
      rw [h3] at h1
      have h4 : (0 : ℚ) < 2 ^ 252 := by positivity
      nlinarith

theorem sub_mult {k : Nat} {x y : B32} {z w : Int} (hk : k ≤ 253) (hx : Mult k x z) (hy : Mult k y w)
    (hz : z.natAbs < 2 ^ 24) (hw : w.natAbs < 2 ^ 24) (hzw : (z - w).natAbs < 2 ^ 24) :
    Mult k (x -. y) (z - w) := by
  obtain ⟨r, hr, hv⟩ := exists_mult (k := k) hzw hk
  have h := sub_rounded (hx.finite hz hk) (hy.finite hw hk)
  rw [hx.val, hy.val] at h
  have e : (z : ℚ) * 2 ^ k / 2 ^ 149 - w * 2 ^ k / 2 ^ 149 = ((z - w : Int) : ℚ) * 2 ^ k / 2 ^ 149 := by
    push_cast; ring
  rw [e] at h
  exact Rounded.exact h hr hv

theorem add_mult {k : Nat} {x y : B32} {z w : Int} (hk : k ≤ 253) (hx : Mult k x z) (hy : Mult k y w)
    (hz : z.natAbs < 2 ^ 24) (hw : w.natAbs < 2 ^ 24) (hzw : (z + w).natAbs < 2 ^ 24) :
    Mult k (x +. y) (z + w) := by
  obtain ⟨r, hr, hv⟩ := exists_mult (k := k) hzw hk
  have h := add_rounded (hx.finite hz hk) (hy.finite hw hk)
  rw [hx.val, hy.val] at h
  have e : (z : ℚ) * 2 ^ k / 2 ^ 149 + w * 2 ^ k / 2 ^ 149 = ((z + w : Int) : ℚ) * 2 ^ k / 2 ^ 149 := by
    push_cast; ring
  rw [e] at h
  exact Rounded.exact h hr hv

theorem mul_mult {k j : Nat} {x y : B32} {z w : Int} (hk : k ≤ 253) (hj : j ≤ 253) (hkj : k + k = 149 + j)
    (hx : Mult k x z) (hy : Mult k y w)
    (hz : z.natAbs < 2 ^ 24) (hw : w.natAbs < 2 ^ 24) (hzw : (z * w).natAbs < 2 ^ 24) :
    Mult j (x *. y) (z * w) := by
  obtain ⟨r, hr, hv⟩ := exists_mult (k := j) hzw hj
  have h := mul_rounded (hx.finite hz hk) (hy.finite hw hk)
  rw [hx.val, hy.val] at h
  have e : (z : ℚ) * 2 ^ k / 2 ^ 149 * (w * 2 ^ k / 2 ^ 149) = ((z * w : Int) : ℚ) * 2 ^ j / 2 ^ 149 := by
    have : (2 : ℚ) ^ k * 2 ^ k = 2 ^ 149 * 2 ^ j := by rw [← pow_add, ← pow_add, hkj]
    rw [div_mul_div_comm, Int.cast_mul, div_eq_div_iff (by positivity) (by positivity)]
    linear_combination (z : ℚ) * w * 2 ^ 149 * this
  rw [e] at h
  exact Rounded.exact h hr hv

end B32
end Polyanya
