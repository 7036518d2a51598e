import Verif.Spec.Binary32
/-
What IEEE 754 demands of binary32 arithmetic, in terms of the values of numbers: `Ieee`.
-/

namespace Polyanya
namespace B32

/-- `r` is the result that IEEE 754 demands, with rounding to nearest, ties to even, for the exact value `v`. -/
structure Ieee (v : ℚ) (r : B32) : Prop where
  /-- Exact values that would be rounded to `2^128` or more overflow. -/
  overflows : (2 : ℚ) ^ 128 - 2 ^ 103 ≤ |v| → r = inf (v < 0)
  /-- All others are rounded to a nearest finite number. -/
  nearest : |v| < (2 : ℚ) ^ 128 - 2 ^ 103 → Nearest v r
  /-- If another finite number is as near, the result is an even multiple of the difference. -/
  even : |v| < (2 : ℚ) ^ 128 - 2 ^ 103 → ∀ z, Finite z → val z ≠ val r → |val z - v| = |val r - v| →
    ∃ k : ℤ, val r = 2 * k * (val z - val r)
  /-- The sign is that of the exact value, also if the result is zero. -/
  sign : v ≠ 0 → r.signNeg = decide (v < 0)

end B32
end Polyanya
