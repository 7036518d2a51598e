import Verif.Spec.Laws
import Mathlib.Analysis.SpecialFunctions.Trigonometric.Inverse
import Mathlib.Analysis.SpecialFunctions.Complex.Arg
/-
Exact arithmetic: the scalar operations on real numbers. Theorems about this instance are the ones that
say "in exact arithmetic".
-/

namespace Polyanya

open Classical in
noncomputable instance : Scalar ℝ where
  add a b := a + b
  sub a b := a - b
  mul a b := a * b
  div a b := a / b
  neg a := -a
  sqrt := Real.sqrt
  abs a := |a|
  sin := Real.sin
  cos := Real.cos
  atan2 y x := Complex.arg ⟨x, y⟩
  signNeg a := decide (a < 0)
  lt a b := decide (a < b)
  le a b := decide (a ≤ b)
  eq a b := decide (a = b)
  isNan _ := false
  totalCmp a b := if a < b then .lt else if a = b then .eq else .gt
  lit m e := (m : ℝ) / 10 ^ e
  ofNat n := (n : ℝ)
  toI32 a := max (-2147483648) (min 2147483647 (if 0 ≤ a then ⌊a⌋ else ⌈a⌉))
  tau := 2 * Real.pi
  maxVal := 340282346638528859811704183484516925440
  angleTo a b c d := Real.arccos ((a * c + b * d) / Real.sqrt ((a * a + b * b) * (c * c + d * d)))
    * (if a * d - b * c < 0 then -1 else 1)

instance : NanLaws ℝ where
  eq_self_or_nan _ := .inl (decide_eq_true rfl)
  nan_add_left _ _ h := nomatch h
  nan_add_right _ _ h := nomatch h
  nan_sub_left _ _ h := nomatch h
  nan_mul_left _ _ h := nomatch h
  nan_sqrt _ h := nomatch h

instance : LeLaws ℝ where
  le_trans a b c hab hbc := by
    simp only [Scalar.le, decide_eq_true_eq] at *
    exact le_trans hab hbc
  le_total a b _ _ := by
    simp only [Scalar.le, decide_eq_true_eq]
    exact le_total a b

instance : TotalCmpLaws ℝ where
  refl a := by simp [Scalar.totalCmp]
  swap a b := by
    simp only [Scalar.totalCmp]
    rcases lt_trichotomy a b with h | h | h
    · simp [h, h.ne', h.le.not_gt]
    · simp [h]
    · simp [h, h.ne', h.le.not_gt]
  trans a b c := by
    simp only [Scalar.totalCmp]
    intro h1 h2
    have h1 : a ≤ b := by
      by_contra hc
      push Not at hc
      simp [hc.ne', hc.le.not_gt] at h1
    have h2 : b ≤ c := by
      by_contra hc
      push Not at hc
      simp [hc.ne', hc.le.not_gt] at h2
    rcases (le_trans h1 h2).lt_or_eq with h | h
    · simp [h]
    · simp [h]
  eq_left a b c := by
    simp only [Scalar.totalCmp]
    intro h
    have : a = b := by
      by_contra hc
      rcases lt_or_gt_of_ne hc with h' | h'
      · simp [h'] at h
      · simp [h'.le.not_gt, hc] at h
    rw [this]

section
variable (a b : ℝ)
@[simp] theorem real_add : a +. b = a + b := rfl
@[simp] theorem real_sub : a -. b = a - b := rfl
@[simp] theorem real_mul : a *. b = a * b := rfl
@[simp] theorem real_div : a /. b = a / b := rfl
@[simp] theorem real_neg : Scalar.neg a = -a := rfl
@[simp] theorem real_sqrt : Scalar.sqrt a = Real.sqrt a := rfl
@[simp] theorem real_abs : Scalar.abs a = |a| := rfl
@[simp] theorem real_sin : Scalar.sin a = Real.sin a := rfl
@[simp] theorem real_cos : Scalar.cos a = Real.cos a := rfl
@[simp] theorem real_lt : (a <. b) = true ↔ a < b := by simp [Scalar.lt]
@[simp] theorem real_le : (a <=. b) = true ↔ a ≤ b := by simp [Scalar.le]
@[simp] theorem real_eq : (a ==. b) = true ↔ a = b := by simp [Scalar.eq]
@[simp] theorem real_lt_false : (a <. b) = false ↔ b ≤ a := by simp [Scalar.lt]
@[simp] theorem real_le_false : (a <=. b) = false ↔ b < a := by simp [Scalar.le]
@[simp] theorem real_isNan : Scalar.isNan a = false := rfl
@[simp] theorem real_lit (m : Int) (e : Nat) : (Scalar.lit m e : ℝ) = (m : ℝ) / 10 ^ e := rfl
@[simp] theorem real_ofNat (n : Nat) : (Scalar.ofNat n : ℝ) = n := rfl
end

section
variable (p q : Vec2 ℝ) (k : ℝ)
@[simp] theorem vadd_x : (p + q).x = p.x + q.x := rfl
@[simp] theorem vadd_y : (p + q).y = p.y + q.y := rfl
@[simp] theorem vsub_x : (p - q).x = p.x - q.x := rfl
@[simp] theorem vsub_y : (p - q).y = p.y - q.y := rfl
@[simp] theorem vneg_x : (-p).x = -p.x := rfl
@[simp] theorem vneg_y : (-p).y = -p.y := rfl
@[simp] theorem vsmul_x : (p.smul k).x = p.x * k := rfl
@[simp] theorem vsmul_y : (p.smul k).y = p.y * k := rfl
@[simp] theorem vlsmul_x : (Vec2.lsmul k p).x = k * p.x := rfl
@[simp] theorem vlsmul_y : (Vec2.lsmul k p).y = k * p.y := rfl
@[simp] theorem vdot : p.dot q = p.x * q.x + p.y * q.y := rfl
@[simp] theorem vperp : p.perpDot q = p.x * q.y - p.y * q.x := rfl
theorem vlength : p.length = Real.sqrt (p.x * p.x + p.y * p.y) := rfl
theorem vdistance : p.distance q = Real.sqrt ((p.x - q.x) * (p.x - q.x) + (p.y - q.y) * (p.y - q.y)) := rfl
theorem vbeq : p.beq q = true ↔ p = q := by
  simp only [Vec2.beq, Bool.and_eq_true, real_eq]
  constructor
  · rintro ⟨h1, h2⟩; cases p; cases q; simp_all
  · rintro rfl; exact ⟨rfl, rfl⟩
end

theorem Vec2.ext' {p q : Vec2 ℝ} (hx : p.x = q.x) (hy : p.y = q.y) : p = q := by
  cases p; cases q; simp_all

/-- Euclidean distance between two points of the plane. -/
noncomputable def dist2 (p q : Vec2 ℝ) : ℝ := Real.sqrt ((p.x - q.x) ^ 2 + (p.y - q.y) ^ 2)

/-- The length of a polyline. -/
noncomputable def polyLen : List (Vec2 ℝ) → ℝ
  | [] => 0
  | [_] => 0
  | a :: b :: l => dist2 a b + polyLen (b :: l)

theorem distance_eq (p q : Vec2 ℝ) : p.distance q = dist2 p q := by
  rw [vdistance, dist2, pow_two, pow_two]

/-- Twice the signed area of the triangle `a b p`; positive when `p` is to the left of the line from `a`
to `b`. -/
def cross (a b p : Vec2 ℝ) : ℝ := (b.x - a.x) * (p.y - a.y) - (b.y - a.y) * (p.x - a.x)

end Polyanya
