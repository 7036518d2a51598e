import Verif.Spec.RealScalar
import Verif.Spec.RatScalar
import Mathlib.Algebra.Order.Field.Basic
import Mathlib.Algebra.Order.Field.Rat
/-
Exact arithmetic with the non-finite values of IEEE: the numbers of an ordered field, two infinities and
NaN. Division by zero gives an infinity or NaN as in IEEE (there is only one zero, so the sign of the
infinity is the sign of the dividend), comparisons with NaN are false. Theorems about `Ext F` say what the
program does when no rounding occurs. (`Scalar ℝ` differs from it in `x / 0 = 0`.)
-/

namespace Polyanya

/-- A field whose `Scalar` operations are the operations of the field. -/
class ExactField (F : Type) [Field F] [LinearOrder F] [Scalar F] : Prop where
  add : ∀ a b : F, a +. b = a + b
  sub : ∀ a b : F, a -. b = a - b
  mul : ∀ a b : F, a *. b = a * b
  div : ∀ a b : F, a /. b = a / b
  neg : ∀ a : F, Scalar.neg a = -a
  abs : ∀ a : F, Scalar.abs a = |a|
  lt : ∀ a b : F, (a <. b) = true ↔ a < b
  le : ∀ a b : F, (a <=. b) = true ↔ a ≤ b
  eq : ∀ a b : F, (a ==. b) = true ↔ a = b
  lit : ∀ (m : Int) (e : Nat), (Scalar.lit m e : F) = (m : F) / 10 ^ e
  ofNat : ∀ n : Nat, (Scalar.ofNat n : F) = (n : F)

noncomputable instance : ExactField ℝ where
  add := real_add
  sub := real_sub
  mul := real_mul
  div := real_div
  neg := real_neg
  abs := real_abs
  lt := real_lt
  le := real_le
  eq := real_eq
  lit := real_lit
  ofNat := real_ofNat

instance : ExactField ℚ where
  add _ _ := rfl
  sub _ _ := rfl
  mul _ _ := rfl
  div _ _ := rfl
  neg _ := rfl
  abs a := by
    change (if a < 0 then -a else a) = |a|
    split
    · rename_i h; exact (abs_of_neg h).symm
    · rename_i h; exact (abs_of_nonneg (not_lt.1 h)).symm
  lt _ _ := decide_eq_true_iff
  le _ _ := decide_eq_true_iff
  eq _ _ := decide_eq_true_iff
  lit m e := by
    change (m : ℚ) / ((10 ^ e : ℕ) : ℚ) = _
    norm_num
  ofNat _ := rfl

/-- Numbers, infinities and NaN. -/
inductive Ext (F : Type) where
  | fin (x : F)
  | inf (negative : Bool)
  | nan
deriving DecidableEq, Repr

namespace Ext

variable {F : Type} [Scalar F]

/-- Is the value below zero (the sign used for infinities)? -/
def isNeg : Ext F → Bool
  | fin x => x <. Scalar.lit 0 0
  | inf n => n
  | nan => false

def isZero : Ext F → Bool
  | fin x => x ==. Scalar.lit 0 0
  | _ => false

def add : Ext F → Ext F → Ext F
  | fin a, fin b => fin (a +. b)
  | nan, _ => nan
  | _, nan => nan
  | inf a, inf b => if a = b then inf a else nan
  | inf a, fin _ => inf a
  | fin _, inf b => inf b

def neg : Ext F → Ext F
  | fin a => fin (Scalar.neg a)
  | inf n => inf (!n)
  | nan => nan

def sub : Ext F → Ext F → Ext F
  | fin a, fin b => fin (a -. b)
  | a, b => add a (neg b)

def mul : Ext F → Ext F → Ext F
  | fin a, fin b => fin (a *. b)
  | nan, _ => nan
  | _, nan => nan
  | a, b => if a.isZero || b.isZero then nan else inf (a.isNeg != b.isNeg)

def div : Ext F → Ext F → Ext F
  | fin a, fin b =>
    if b ==. Scalar.lit 0 0 then
      (if a ==. Scalar.lit 0 0 then nan else inf (a <. Scalar.lit 0 0))
    else fin (a /. b)
  | nan, _ => nan
  | _, nan => nan
  | fin _, inf _ => fin (Scalar.lit 0 0)
  | inf a, fin b => inf (a != (fin b).isNeg)
  | inf _, inf _ => nan

/-- Apply a function of numbers. -/
def map1 (f : F → F) : Ext F → Ext F
  | fin a => fin (f a)
  | _ => nan

def sqrt : Ext F → Ext F
  | fin a => if a <. Scalar.lit 0 0 then nan else fin (Scalar.sqrt a)
  | inf false => inf false
  | _ => nan

def abs : Ext F → Ext F
  | fin a => fin (Scalar.abs a)
  | inf _ => inf false
  | nan => nan

def lt : Ext F → Ext F → Bool
  | fin a, fin b => a <. b
  | nan, _ => false
  | _, nan => false
  | inf a, inf b => a && !b
  | inf a, fin _ => a
  | fin _, inf b => !b

def le : Ext F → Ext F → Bool
  | fin a, fin b => a <=. b
  | nan, _ => false
  | _, nan => false
  | inf a, inf b => a || !b
  | inf a, fin _ => a
  | fin _, inf b => !b

def beq : Ext F → Ext F → Bool
  | fin a, fin b => a ==. b
  | inf a, inf b => a == b
  | _, _ => false

def isNan : Ext F → Bool
  | nan => true
  | _ => false

/-- `-inf < numbers < inf < NaN`. -/
def totalCmp : Ext F → Ext F → Ordering
  | fin a, fin b => Scalar.totalCmp a b
  | nan, nan => .eq
  | nan, _ => .gt
  | _, nan => .lt
  | inf a, inf b => if a = b then .eq else if a then .lt else .gt
  | inf a, fin _ => if a then .lt else .gt
  | fin _, inf b => if b then .gt else .lt

instance : Scalar (Ext F) where
  add := add
  sub := sub
  mul := mul
  div := div
  neg := neg
  sqrt := sqrt
  abs := abs
  sin := map1 Scalar.sin
  cos := map1 Scalar.cos
  atan2 y x := match y, x with
    | fin y, fin x => fin (Scalar.atan2 y x)
    | _, _ => nan
  signNeg := isNeg
  lt := lt
  le := le
  eq := beq
  isNan := isNan
  totalCmp := totalCmp
  lit m e := fin (Scalar.lit m e)
  ofNat n := fin (Scalar.ofNat n)
  toI32
    | fin a => Scalar.toI32 a
    | inf true => -2147483648
    | inf false => 2147483647
    | nan => 0
  tau := fin Scalar.tau
  maxVal := fin Scalar.maxVal
  angleTo a b c d := match a, b, c, d with
    | fin a, fin b, fin c, fin d => fin (Scalar.angleTo a b c d)
    | _, _, _, _ => nan

end Ext

section
variable {F : Type} [Field F] [LinearOrder F] [Scalar F] [ExactField F]

instance : NanLaws (Ext F) where
  eq_self_or_nan x := by
    cases x with
    | fin a => exact .inl ((ExactField.eq a a).2 rfl)
    | inf n => exact .inl (by simp [Scalar.eq, Ext.beq])
    | nan => exact .inr rfl
  nan_add_left x y h := by
    cases x <;> first | (exact absurd h Bool.false_ne_true) | (cases y <;> rfl)
  nan_add_right x y h := by
    cases y <;> first | (exact absurd h Bool.false_ne_true) | (cases x <;> rfl)
  nan_sub_left x y h := by
    cases x <;> first | (exact absurd h Bool.false_ne_true) | (cases y <;> rfl)
  nan_mul_left x y h := by
    cases x <;> first | (exact absurd h Bool.false_ne_true) | (cases y <;> rfl)
  nan_sqrt x h := by
    cases x <;> first | (exact absurd h Bool.false_ne_true) | rfl

end

/-- The point with these finite coordinates. -/
def Vec2.fin {F : Type} (p : Vec2 F) : Vec2 (Ext F) := ⟨.fin p.x, .fin p.y⟩

theorem Vec2.fin_injective {F : Type} {p q : Vec2 F} (h : p.fin = q.fin) : p = q := by
  cases p; cases q
  simp only [Vec2.fin, Vec2.mk.injEq, Ext.fin.injEq] at h
  rw [h.1, h.2]

end Polyanya
