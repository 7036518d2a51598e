import Verif.Spec.Binary32
import Verif.Spec.Ext
import Mathlib.Analysis.Real.Sqrt
/-
Laws about signs, satisfied by IEEE binary32 and by exact arithmetic.
-/

namespace Polyanya

/-- Comparisons with NaN are false; sums of numbers that are not negative, and roots, are not negative. -/
class SignLaws (K : Type) [Scalar K] : Prop where
  not_nan : ∀ a b : K, (a <=. b) = true → Scalar.isNan b = false
  zero : ((Scalar.lit 0 0 : K) <=. Scalar.lit 0 0) = true
  add : ∀ a b : K, (Scalar.lit 0 0 <=. a) = true → (Scalar.lit 0 0 <=. b) = true → (Scalar.lit 0 0 <=. (a +. b)) = true
  sqrt : ∀ a : K, Scalar.isNan (Scalar.sqrt a) = false → (Scalar.lit 0 0 <=. Scalar.sqrt a) = true

/-- A number that is neither NaN nor negative. -/
def NonNegative {K : Type} [Scalar K] (x : K) : Prop := Scalar.isNan x = false ∧ (Scalar.lit 0 0 <=. x) = true

theorem B32.nonneg_iff (a : Bool) (m : Nat) : B32.le (.fin false 0) (.fin a m) = true ↔ 0 ≤ B32.signed a m := by
  simp [B32.le, B32.signed]

theorem B32.round_nonneg (N D : Nat) : B32.le (.fin false 0) (B32.round false N D) = true := by
  unfold B32.round
  simp only
  split
  · simp [B32.le, B32.signed]
  · simp [B32.le]

instance : SignLaws B32 where
  not_nan a b h := by cases a <;> cases b <;> simp_all [Scalar.le, B32.le, Scalar.isNan, B32.isNan]
  zero := rfl
  add a b h1 h2 := by
    change B32.le (.fin false 0) _ = true at h1 h2
    change B32.le (.fin false 0) (B32.add a b) = true
    cases a <;> cases b <;> first | (simp_all [B32.add, B32.le]; done) | skip
    rename_i m n x y
    rw [B32.nonneg_iff] at h1 h2
    change B32.le (.fin false 0) (B32.ofInt _ (B32.signed m n + B32.signed x y)) = true
    unfold B32.ofInt
    by_cases h : B32.signed m n + B32.signed x y = 0
    · rw [if_pos h, B32.nonneg_iff]; simp [B32.signed]
    · rw [if_neg h, decide_eq_false (by omega)]
      exact B32.round_nonneg _ _
  sqrt a h := by
    change B32.isNan (B32.sqrt a) = false at h
    change B32.le (.fin false 0) (B32.sqrt a) = true
    cases a with
    | nan => simp [B32.sqrt, B32.isNan] at h
    | inf a => cases a <;> simp_all [B32.sqrt, B32.isNan, B32.le]
    | fin a m =>
      simp only [B32.sqrt] at h ⊢
      split
      · cases a <;> simp [B32.le, B32.signed]
      · rename_i h0
        rw [if_neg h0] at h
        split
        · rename_i ha
          rw [if_pos ha] at h
          simp [B32.isNan] at h
        · split <;> exact B32.round_nonneg _ _

instance : SignLaws ℝ where
  not_nan _ _ _ := rfl
  zero := by rw [real_le]
  add a b h1 h2 := by
    simp only [real_le, real_lit, real_add, Int.cast_zero, zero_div] at *
    exact add_nonneg h1 h2
  sqrt a _ := by
    simp only [real_le, real_lit, Int.cast_zero, zero_div]
    exact Real.sqrt_nonneg a

instance : SignLaws (Ext ℝ) where
  not_nan a b h := by cases a <;> cases b <;> simp_all [Scalar.le, Ext.le, Scalar.isNan, Ext.isNan]
  zero := by simp [Scalar.le, Ext.le, Scalar.lit]
  add a b h1 h2 := by
    cases a <;> cases b <;> simp_all [Scalar.le, Ext.le, Scalar.lit, Scalar.add, Ext.add]
    exact add_nonneg h1 h2
  sqrt a h := by
    cases a with
    | nan => simp [Scalar.sqrt, Ext.sqrt, Scalar.isNan, Ext.isNan] at h
    | inf a => cases a <;> simp_all [Scalar.sqrt, Ext.sqrt, Scalar.isNan, Ext.isNan, Scalar.le, Ext.le, Scalar.lit]
    | fin a =>
      simp only [Scalar.sqrt, Ext.sqrt] at h ⊢
      split
      · rename_i h0; rw [if_pos h0] at h; simp [Scalar.isNan, Ext.isNan] at h
      · simp only [Scalar.le, Ext.le, Scalar.lit]
        simp [Real.sqrt_nonneg]

end Polyanya
