import Verif.Spec.Path
/-
Laws of the comparison operations, satisfied by IEEE binary32 and by exact arithmetic, used only where a
property is about order. (`Scalar` itself has no laws.)
-/

namespace Polyanya

/-- `f32::total_cmp` is a total order. -/
class TotalCmpLaws (K : Type) [Scalar K] : Prop where
  refl : ∀ a : K, Scalar.totalCmp a a = .eq
  swap : ∀ a b : K, Scalar.totalCmp b a = (Scalar.totalCmp a b).swap
  trans : ∀ a b c : K, Scalar.totalCmp a b ≠ .gt → Scalar.totalCmp b c ≠ .gt → Scalar.totalCmp a c ≠ .gt
  eq_left : ∀ a b c : K, Scalar.totalCmp a b = .eq → Scalar.totalCmp a c = Scalar.totalCmp b c

/-- `<=` on floats is transitive, and total on values that are not NaN. -/
class LeLaws (K : Type) [Scalar K] : Prop where
  le_trans : ∀ a b c : K, (a <=. b) = true → (b <=. c) = true → (a <=. c) = true
  le_total : ∀ a b : K, Scalar.isNan a = false → Scalar.isNan b = false →
    (a <=. b) = true ∨ (b <=. a) = true

end Polyanya
