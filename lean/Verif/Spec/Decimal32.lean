import Verif.Spec.File
import Verif.Spec.Binary32
/-
Text form of `f32` with six decimals, as Rust documents it (C73): `format!("{:.06}", x)` is the exact value rounded to six
decimals, `parse` gives the nearest number. How a tie is rounded when formatting is left open.
-/

namespace Polyanya

/-- Six decimal digits of a number below a million. -/
def sixDigits (m : Nat) : List UInt8 :=
  [UInt8.ofNat (48 + m / 100000 % 10), UInt8.ofNat (48 + m / 10000 % 10), UInt8.ofNat (48 + m / 1000 % 10),
    UInt8.ofNat (48 + m / 100 % 10), UInt8.ofNat (48 + m / 10 % 10), UInt8.ofNat (48 + m % 10)]

/-- `± n / 10^6` in decimal: the integer part, a point, six decimals. -/
def decimalText (neg : Bool) (n : Nat) : List UInt8 :=
  (if neg then [45] else []) ++ natBytes (n / 1000000) ++ [46] ++ sixDigits (n % 1000000)

/-- The value of `decimalText neg n`. -/
def decimalValue (neg : Bool) (n : Nat) : ℚ := (if neg then -1 else 1) * n / 1000000

/-- What Rust's documentation says about formatting with six decimals and parsing `f32`: formatting rounds to the nearest
decimal and shows the sign (also of a negative zero); parsing gives what IEEE 754 demands for the value, with the sign shown. -/
class DecimalLaws [FloatText B32] : Prop where
  fmt : ∀ neg mag, B32.Finite (.fin neg mag) → ∃ n, FloatText.fmt6 (B32.fin neg mag) = decimalText neg n ∧
    |decimalValue neg n - B32.val (.fin neg mag)| ≤ 1 / 2 / 1000000
  parse : ∀ neg n, ∃ y : B32, FloatText.parse (decimalText neg n) = some y ∧ B32.Rounded (decimalValue neg n) y ∧
    B32.signNeg y = neg

/-- Both coordinates of every vertex are finite binary32 numbers. -/
def FiniteFile (f : PolyanyaFile B32) : Prop := ∀ v ∈ f.vertices, B32.Finite v.coords.x ∧ B32.Finite v.coords.y

/-- `y` is `x` up to a millionth, and `x` itself if it is larger than 16 or has at most six decimals. -/
structure KeptNumber (x y : B32) : Prop where
  finite : B32.Finite y
  close : |B32.val y - B32.val x| ≤ 1 / 1000000
  exact : (16 < |B32.val x| ∨ ∃ z : Int, B32.val x = z / 1000000) → y = x

end Polyanya
