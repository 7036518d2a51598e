import Verif.Spec.Binary32
import Verif.Spec.RealScalar
/-
Specification for C75: what "accurate" means for a length computed with binary32 numbers.
-/

namespace Polyanya

/-- The point with the values of the coordinates, as real numbers. -/
noncomputable def Vec2.toReal (v : Vec2 B32) : Vec2 ℝ := ⟨(v.x.val : ℝ), (v.y.val : ℝ)⟩

/-- `x` is the exact number `y ≥ 0` up to the rounding errors of a sum of `k` distances: a relative error of `2^(-23)`
for each and three more, and `2^(-72)` for each (underflow of squares). -/
def Accurate (k : Nat) (x : B32) (y : ℝ) : Prop :=
  |(x.val : ℝ) - y| ≤ (k + 3) * 2⁻¹ ^ 23 * y + k * 2⁻¹ ^ 72

end Polyanya
