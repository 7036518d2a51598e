import Verif.Model.Async
import Verif.Spec.Laws
import Verif.Spec.Stitching
import Verif.Spec.RatScalar
import Verif.Spec.Ext
import Mathlib.Data.Nat.Log
import Mathlib.Tactic.Ring
import Mathlib.Tactic.Linarith
/-
IEEE 754 binary32 (`f32`): the numbers, and the operations `+ - * / sqrt`, comparisons, decimal literals and
conversions, rounded to nearest, ties to even. The theorems about every `Scalar K` hold for it; the laws assumed in
some theorems (`NanLaws`, `TotalCmpLaws`, `LeLaws`, `EqLaws`) are proved for it here.

Not IEEE: `sin`, `cos` and `atan2` come from the platform's library and are stand-ins here. `angleTo` is what glam makes of IEEE
operations.
-/

namespace Polyanya

/-- A binary32 number. A finite one is `± mag * 2^(-149)`: every binary32 number is a multiple of the smallest
subnormal number. There is one NaN (the sign and payload of a NaN are not specified by Rust). -/
inductive B32 where
  | nan
  | inf (neg : Bool)
  | fin (neg : Bool) (mag : Nat)
deriving DecidableEq, Repr

namespace B32

/-- The exponent of the unit in the last place of a number with integer part `n` (in units of `2^(-149)`):
numbers have 24 significant bits. -/
def ulpExp (n : Nat) : Nat := Nat.log2 n - 23

/-- `N / D` rounded to a multiple of `2^e`, to nearest, ties to even. -/
def roundTo (e N D : Nat) : Nat :=
  let u := D * 2 ^ e
  let q := N / u
  let r := N % u
  (if 2 * r < u then q else if u < 2 * r then q + 1 else if q % 2 = 0 then q else q + 1) * 2 ^ e

/-- The least magnitude that overflows: `2^128` in units of `2^(-149)`. -/
def overflow : Nat := 2 ^ 277

/-- `± N / D`, in units of `2^(-149)`, rounded to a binary32 number. -/
def round (neg : Bool) (N D : Nat) : B32 :=
  let mag := roundTo (ulpExp (N / D)) N D
  if mag < overflow then fin neg mag else inf neg

/-- The integer `s`, in units of `2^(-149)`, rounded; `neg0` is the sign of a zero. -/
def ofInt (neg0 : Bool) (s : Int) : B32 :=
  if s = 0 then fin neg0 0 else round (s < 0) s.natAbs 1

/-- The signed magnitude of a finite number. -/
def signed (neg : Bool) (mag : Nat) : Int := if neg then -mag else mag

/-- IEEE addition. The sum of two zeros is `-0` only if both are; an exact zero sum is `+0` otherwise. -/
def add : B32 → B32 → B32
  | nan, _ => nan
  | _, nan => nan
  | inf a, inf b => if a = b then inf a else nan
  | inf a, fin _ _ => inf a
  | fin _ _, inf b => inf b
  | fin a m, fin b n => ofInt (a && b && m == 0 && n == 0) (signed a m + signed b n)

/-- Change of the sign. -/
def neg : B32 → B32
  | nan => nan
  | inf a => inf (!a)
  | fin a m => fin (!a) m

/-- IEEE subtraction. -/
def sub (x y : B32) : B32 := add x (neg y)

/-- IEEE multiplication. -/
def mul : B32 → B32 → B32
  | nan, _ => nan
  | _, nan => nan
  | inf a, inf b => inf (a ^^ b)
  | inf a, fin b n => if n = 0 then nan else inf (a ^^ b)
  | fin a m, inf b => if m = 0 then nan else inf (a ^^ b)
  | fin a m, fin b n => round (a ^^ b) (m * n) (2 ^ 149)

/-- IEEE division. -/
def div : B32 → B32 → B32
  | nan, _ => nan
  | _, nan => nan
  | inf _, inf _ => nan
  | inf a, fin b _ => inf (a ^^ b)
  | fin a _, inf b => fin (a ^^ b) 0
  | fin a m, fin b n => if n = 0 then (if m = 0 then nan else inf (a ^^ b)) else round (a ^^ b) (m * 2 ^ 149) n

/-- Integer square root of a number below `2^(2 b)`: the greatest `r` with `r * r ≤ n`. -/
def natSqrt (n : Nat) : Nat := isqrtAux n 214 0

/-- IEEE square root. The root of `m * 2^(-149)` is the root of `m * 2^149`, in units of `2^(-149)`. If this is not an
integer it is replaced by the middle between the neighbouring integers, which are so large that they round alike. -/
def sqrt : B32 → B32
  | nan => nan
  | inf a => if a then nan else inf a
  | fin a m =>
    if m = 0 then fin a 0
    else if a then nan
    else
      let n := m * 2 ^ 149
      let s := natSqrt n
      if s * s = n then round false s 1 else round false (2 * s + 1) 2

/-- `f32::abs`. -/
def abs : B32 → B32
  | nan => nan
  | inf _ => inf false
  | fin _ m => fin false m

/-- `<`. -/
def lt : B32 → B32 → Bool
  | nan, _ => false
  | _, nan => false
  | inf a, inf b => a && !b
  | inf a, fin _ _ => a
  | fin _ _, inf b => !b
  | fin a m, fin b n => decide (signed a m < signed b n)

/-- `<=`. -/
def le : B32 → B32 → Bool
  | nan, _ => false
  | _, nan => false
  | inf a, inf b => a || !b
  | inf a, fin _ _ => a
  | fin _ _, inf b => !b
  | fin a m, fin b n => decide (signed a m ≤ signed b n)

/-- `==`. -/
def eq : B32 → B32 → Bool
  | inf a, inf b => a == b
  | fin a m, fin b n => decide (signed a m = signed b n)
  | _, _ => false

/-- The place of a number in the order of `f32::total_cmp`: twice the signed magnitude, where `-0` is one below `+0`. -/
def place : B32 → Int
  | nan => 2 * overflow + 2
  | inf a => if a then -(2 * overflow) else 2 * overflow
  | fin a m => if a then -(2 * m) - 1 else 2 * m

/-- `f32::total_cmp`. -/
def totalCmp (x y : B32) : Ordering := compare x.place y.place

/-- The decimal literal `m * 10^(-e)`. -/
def lit (m : Int) (e : Nat) : B32 :=
  if m = 0 then fin false 0 else round (m < 0) (m.natAbs * 2 ^ 149) (10 ^ e)

/-- `as f32` from an unsigned integer. -/
def ofNat (n : Nat) : B32 := round false (n * 2 ^ 149) 1

/-- `as i32`: towards zero, saturating, NaN gives 0. -/
def toI32 : B32 → Int
  | nan => 0
  | inf a => if a then -2147483648 else 2147483647
  | fin a m =>
    let k : Int := m / 2 ^ 149
    max (-2147483648) (min 2147483647 (if a then -k else k))

/-- `f32::is_nan`. -/
def isNan : B32 → Bool
  | nan => true
  | _ => false

/-- `f32::is_sign_negative`. -/
def signNeg : B32 → Bool
  | nan => false
  | inf a => a
  | fin a _ => a

/-- `term - term*x²/((k+1)(k+2)) + …`: the rest of the power series of sine or cosine, in fixed point. -/
def series (x : Int) : Nat → Int → Int → Int
  | 0, _, _ => 0
  | n + 1, k, term => term + series x n (k + 2) (-(term * x * x) / (2 ^ 298 * ((k + 1) * (k + 2))))

/-- A stand-in for the platform's `sin` (`isCos = false`) or `cos`: the power series, rounded, for arguments up to 16. -/
def trig (isCos : Bool) : B32 → B32
  | fin a m =>
    if 2 ^ 153 < m then fin false 0
    else if m = 0 then (if isCos then lit 1 0 else fin a 0)
    else
      let s := if isCos then series (signed a m) 60 0 (2 ^ 300) else series (signed a m) 60 1 (signed a m * 2 ^ 151)
      round (s < 0) s.natAbs (2 ^ 151)
  | _ => nan

/-- glam's `acos_approx`: a polynomial times a square root, in binary32 operations. -/
def acosApprox (v : B32) : B32 :=
  let x := v.abs
  let omx := (lit 1 0).sub x
  let omx := if omx.lt (.fin false 0) then .fin false 0 else omx
  let r := ((((((((lit (-12624911) 10).mul x).add (lit 667009 8)).mul x).add (lit (-17088126) 9)).mul x).add (lit 3089188 8)).mul x)
  let r := ((((((r.add (lit (-50174303) 9)).mul x).add (lit 8897899 8)).mul x).add (lit (-2145988) 7)).mul x).add
    (lit 15707963 7)
  let r := r.mul omx.sqrt
  if (fin false 0).le v then r else (lit 31415927 7).sub r

/-- glam's `Vec2::angle_to`. -/
def angle (a b c d : B32) : B32 :=
  let dot := (a.mul c).add (b.mul d)
  let lens := ((a.mul a).add (b.mul b)).mul ((c.mul c).add (d.mul d))
  let perp := (a.mul d).sub (b.mul c)
  let t := acosApprox (dot.div lens.sqrt)
  if perp.isNan then .nan else if perp.signNeg then t.neg else t

end B32

instance : Scalar B32 where
  add := B32.add
  sub := B32.sub
  mul := B32.mul
  div := B32.div
  neg := B32.neg
  sqrt := B32.sqrt
  abs := B32.abs
  -- stand-ins: not IEEE operations
  sin := B32.trig false
  cos := B32.trig true
  atan2 x y := if x.isNan || y.isNan then .nan else .fin false 0
  signNeg := B32.signNeg
  lt := B32.lt
  le := B32.le
  eq := B32.eq
  isNan := B32.isNan
  totalCmp := B32.totalCmp
  lit := B32.lit
  ofNat := B32.ofNat
  toI32 := B32.toI32
  tau := B32.lit 6283185307179586 15
  maxVal := .fin false ((2 ^ 24 - 1) * 2 ^ 253)
  angleTo := B32.angle

instance : NanLaws B32 where
  eq_self_or_nan x := by cases x <;> simp [Scalar.eq, B32.eq, Scalar.isNan, B32.isNan]
  nan_add_left x y h := by cases x <;> simp_all [Scalar.isNan, B32.isNan, Scalar.add, B32.add]
  nan_add_right x y h := by cases y <;> cases x <;> simp_all [Scalar.isNan, B32.isNan, Scalar.add, B32.add]
  nan_sub_left x y h := by cases x <;> simp_all [Scalar.isNan, B32.isNan, Scalar.sub, B32.sub, B32.add]
  nan_mul_left x y h := by cases x <;> simp_all [Scalar.isNan, B32.isNan, Scalar.mul, B32.mul]
  nan_sqrt x h := by cases x <;> simp_all [Scalar.isNan, B32.isNan, Scalar.sqrt, B32.sqrt]

instance : TotalCmpLaws B32 where
  refl a := by simp [Scalar.totalCmp, B32.totalCmp]
  swap a b := by simp [Scalar.totalCmp, B32.totalCmp, Int.compare_swap]
  trans a b c h1 h2 := by
    simp only [Scalar.totalCmp, B32.totalCmp, ne_eq, compare_gt_iff_gt, not_lt] at *
    omega
  eq_left a b c h := by
    simp only [Scalar.totalCmp, B32.totalCmp, compare_eq_iff_eq] at *
    rw [h]

instance : LeLaws B32 where
  le_trans a b c h1 h2 := by
    cases a <;> cases b <;> cases c <;> simp only [Scalar.le, B32.le] at * <;> simp_all
    · rename_i x y z
      cases x <;> cases y <;> simp_all
    · omega
  le_total a b h1 h2 := by
    cases a <;> cases b <;> simp_all [Scalar.le, B32.le, Scalar.isNan, B32.isNan]
    · rename_i x y; cases x <;> cases y <;> simp
    · omega

instance : EqLaws B32 where
  symm a b h := by
    cases a <;> cases b <;> simp_all [Scalar.eq, B32.eq]
  refl_left a b h := by
    cases a <;> cases b <;> simp_all [Scalar.eq, B32.eq]

/-! ### What IEEE 754 demands -/

namespace B32

/-- A magnitude with at most 24 significant bits. -/
def Bits24 (r : Nat) : Prop := ∃ k e, k < 2 ^ 24 ∧ r = k * 2 ^ e

/-- The value of a finite number. -/
def val : B32 → ℚ
  | fin a m => (if a then -1 else 1) * m / 2 ^ 149
  | _ => 0

/-- A finite number of the format: 24 bits, and below the overflow threshold. -/
def Finite : B32 → Prop
  | fin _ m => Bits24 m ∧ m < overflow
  | _ => False

/-- `y` is finite and nearest to `x` among the finite numbers. -/
def Nearest (x : ℚ) (y : B32) : Prop := Finite y ∧ ∀ z, Finite z → |val y - x| ≤ |val z - x|

/-- `r` is what IEEE 754 demands for the exact value `v`: the finite number nearest to it, or infinity of the same sign
if `v` is so large that it rounds to `2^128` or more. -/
def Rounded (v : ℚ) (r : B32) : Prop :=
  Nearest v r ∨ (2 : ℚ) ^ 128 - 2 ^ 103 ≤ |v| ∧ r = inf (v < 0)

end B32

/-- The binary32 number nearest to a rational number. -/
def B32.ofRat (q : ℚ) : B32 := if q = 0 then .fin false 0 else B32.round (q < 0) (q.num.natAbs * 2 ^ 149) q.den

/-- The value of a binary32 number. -/
def B32.exact : B32 → Ext ℚ
  | nan => .nan
  | inf a => .inf a
  | fin a m => .fin ((if a then -1 else 1) * m / 2 ^ 149)

/-- The point with the same coordinates, as exact numbers. -/
def Vec2.exact (v : Vec2 B32) : Vec2 (Ext ℚ) := ⟨v.x.exact, v.y.exact⟩

def Vertex.exact (v : Vertex B32) : Vertex (Ext ℚ) :=
  { coords := v.coords.exact, polygons := v.polygons, isCorner := v.isCorner }

/-- The layer with the same vertices, as exact numbers. -/
def Layer.exact (l : Layer B32) : Layer (Ext ℚ) :=
  { vertices := l.vertices.map Vertex.exact, polygons := l.polygons, offset := l.offset.exact, scale := l.scale.exact,
    baked := l.baked.map (fun bs => bs.map (fun b => (b.1.exact, b.2.exact))),
    islands := l.islands }

/-- The mesh with the same vertices, as exact numbers. -/
def Mesh.exact (m : Mesh B32) : Mesh (Ext ℚ) :=
  { layers := m.layers.map Layer.exact, searchDelta := m.searchDelta.exact, searchSteps := m.searchSteps }

/-- The binary32 point nearest to this one. -/
def f2 (x y : ℚ) : Vec2 B32 := ⟨B32.ofRat x, B32.ofRat y⟩

end Polyanya
