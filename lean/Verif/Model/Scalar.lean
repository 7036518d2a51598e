/-
Model of the `f32` operations and of the `glam::Vec2` methods used by polyanya.

`f32` is modelled by a class of *operations without laws*: a theorem quantified over all
`Scalar K` therefore holds for IEEE binary32 (rounding, NaN, infinities) as well as for exact reals.
-/

namespace Polyanya

/-- The operations on `f32` used by the crate, with no law attached.
Comparisons are Boolean valued, as in Rust (`NaN` compares false), `eq` is Rust's `==` on `f32`. -/
class Scalar (K : Type) where
  add : K → K → K
  sub : K → K → K
  mul : K → K → K
  div : K → K → K
  neg : K → K
  sqrt : K → K
  abs : K → K
  sin : K → K
  cos : K → K
  /-- `atan2`, first argument is `y` (`input/triangulation.rs:761,768`) -/
  atan2 : K → K → K
  /-- `f32::is_sign_negative` (`input/triangulation.rs:762`) -/
  signNeg : K → Bool
  lt : K → K → Bool
  le : K → K → Bool
  eq : K → K → Bool
  isNan : K → Bool
  /-- `f32::total_cmp` (`lib.rs:660-668`) -/
  totalCmp : K → K → Ordering
  /-- decimal literal `m * 10^(-e)` -/
  lit : Int → Nat → K
  /-- `as f32` from an unsigned integer -/
  ofNat : Nat → K
  /-- `as i32` (saturating cast) -/
  toI32 : K → Int
  /-- `std::f32::consts::TAU` -/
  tau : K
  /-- `f32::MAX` -/
  maxVal : K
  /-- `glam::Vec2::angle_to` on components (`mesh_cleanup.rs:36`), left abstract -/
  angleTo : K → K → K → K → K

infixl:65 " +. " => Scalar.add
infixl:65 " -. " => Scalar.sub
infixl:70 " *. " => Scalar.mul
infixl:70 " /. " => Scalar.div
infix:50 " <. " => Scalar.lt
infix:50 " <=. " => Scalar.le
infix:50 " ==. " => Scalar.eq

/-- `glam::Vec2`. -/
structure Vec2 (K : Type) where
  x : K
  y : K
deriving DecidableEq, Repr

variable {K : Type} [Scalar K]

namespace Vec2

/-- `Vec2::ZERO`. -/
def zero : Vec2 K := ⟨Scalar.lit 0 0, Scalar.lit 0 0⟩

/-- `Vec2::ONE`. -/
def one : Vec2 K := ⟨Scalar.lit 1 0, Scalar.lit 1 0⟩

instance : Add (Vec2 K) := ⟨fun a b => ⟨a.x +. b.x, a.y +. b.y⟩⟩
instance : Sub (Vec2 K) := ⟨fun a b => ⟨a.x -. b.x, a.y -. b.y⟩⟩
instance : Neg (Vec2 K) := ⟨fun a => ⟨Scalar.neg a.x, Scalar.neg a.y⟩⟩

/-- `Vec2 * f32` (same components as `f32 * Vec2` up to operand order). -/
def smul (v : Vec2 K) (k : K) : Vec2 K := ⟨v.x *. k, v.y *. k⟩

/-- `f32 * Vec2`. -/
def lsmul (k : K) (v : Vec2 K) : Vec2 K := ⟨k *. v.x, k *. v.y⟩

/-- `Vec2 * Vec2`, componentwise. -/
def cmul (a b : Vec2 K) : Vec2 K := ⟨a.x *. b.x, a.y *. b.y⟩

/-- `Vec2 / f32`. -/
def sdiv (v : Vec2 K) (k : K) : Vec2 K := ⟨v.x /. k, v.y /. k⟩

/-- `Vec2 == Vec2` (IEEE equality of both components). -/
def beq (a b : Vec2 K) : Bool := (a.x ==. b.x) && (a.y ==. b.y)

/-- `Vec2::dot`. -/
def dot (a b : Vec2 K) : K := (a.x *. b.x) +. (a.y *. b.y)

/-- `Vec2::perp_dot`. -/
def perpDot (a b : Vec2 K) : K := (a.x *. b.y) -. (a.y *. b.x)

/-- `Vec2::length_squared`. -/
def lengthSquared (a : Vec2 K) : K := a.dot a

/-- `Vec2::length`. -/
def length (a : Vec2 K) : K := Scalar.sqrt (a.dot a)

/-- `Vec2::distance`. -/
def distance (a b : Vec2 K) : K := (a - b).length

/-- `Vec2::distance_squared`. -/
def distanceSquared (a b : Vec2 K) : K := (a - b).lengthSquared

/-- `Vec2::project_onto`: `rhs * self.dot(rhs) * rhs.dot(rhs).recip()`. -/
def projectOnto (a b : Vec2 K) : Vec2 K :=
  (b.smul (a.dot b)).smul (Scalar.lit 1 0 /. b.dot b)

/-- `Vec2::normalize`: `self * self.length().recip()`. -/
def normalize (a : Vec2 K) : Vec2 K := a.smul (Scalar.lit 1 0 /. a.length)

end Vec2

end Polyanya
