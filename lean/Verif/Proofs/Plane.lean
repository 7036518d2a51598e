import Verif.Spec.RealScalar
import Mathlib.Analysis.Complex.Norm
/-
Plane geometry in exact arithmetic.
-/

namespace Polyanya

/-- A point as a complex number. -/
def toC (p : Vec2 ℝ) : ℂ := ⟨p.x, p.y⟩

theorem dist2_eq (p q : Vec2 ℝ) : dist2 p q = dist (toC p) (toC q) := by
  rw [Complex.dist_eq_re_im]; rfl

theorem dist2_nonneg (p q : Vec2 ℝ) : 0 ≤ dist2 p q := Real.sqrt_nonneg _

theorem dist2_self (p : Vec2 ℝ) : dist2 p p = 0 := by rw [dist2_eq, dist_self]

theorem dist2_comm (p q : Vec2 ℝ) : dist2 p q = dist2 q p := by rw [dist2_eq, dist2_eq, dist_comm]

theorem dist2_triangle (p q r : Vec2 ℝ) : dist2 p r ≤ dist2 p q + dist2 q r := by
  rw [dist2_eq, dist2_eq, dist2_eq]; exact dist_triangle _ _ _

/-- The point `a + u (b - a)`. -/
def lerp (a b : Vec2 ℝ) (u : ℝ) : Vec2 ℝ := ⟨a.x + u * (b.x - a.x), a.y + u * (b.y - a.y)⟩

/-- `x` is on the closed segment from `a` to `b`. -/
def OnSeg (a b x : Vec2 ℝ) : Prop := ∃ u, 0 ≤ u ∧ u ≤ 1 ∧ x = lerp a b u

theorem toC_lerp (a b : Vec2 ℝ) (u : ℝ) : toC (lerp a b u) = toC a + u * (toC b - toC a) := by
  apply Complex.ext <;> simp [toC, lerp]

/-- Distance to a point of a segment is convex. -/
theorem dist2_lerp_le (r a b : Vec2 ℝ) {u : ℝ} (h0 : 0 ≤ u) (h1 : u ≤ 1) :
    dist2 r (lerp a b u) ≤ (1 - u) * dist2 r a + u * dist2 r b := by
  rw [dist2_eq, dist2_eq, dist2_eq, toC_lerp, dist_eq_norm, dist_eq_norm, dist_eq_norm]
  have : toC r - (toC a + u * (toC b - toC a)) =
      ((1 - u : ℝ) : ℂ) * (toC r - toC a) + (u : ℂ) * (toC r - toC b) := by
    push_cast; ring
  rw [this]
  refine (norm_add_le _ _).trans ?_
  rw [norm_mul, norm_mul, Complex.norm_real, Complex.norm_real, Real.norm_of_nonneg h0,
    Real.norm_of_nonneg (by linarith)]

/-- On a segment, distances add up. -/
theorem dist2_onSeg {a b x : Vec2 ℝ} (h : OnSeg a b x) : dist2 a x + dist2 x b = dist2 a b := by
  obtain ⟨u, h0, h1, rfl⟩ := h
  have e1 : dist2 a (lerp a b u) ≤ (1 - u) * dist2 a a + u * dist2 a b := dist2_lerp_le a a b h0 h1
  have e2 : dist2 b (lerp a b u) ≤ (1 - u) * dist2 b a + u * dist2 b b := dist2_lerp_le b a b h0 h1
  rw [dist2_self] at e1 e2
  rw [dist2_comm b, dist2_comm b a] at e2
  have e3 := dist2_triangle a (lerp a b u) b
  linarith

theorem cross_lerp (a b : Vec2 ℝ) (u : ℝ) : cross a b (lerp a b u) = 0 := by
  simp only [cross, lerp]; ring

/-- `side` in terms of the signed area. -/
theorem side_left {p a b : Vec2 ℝ} : side p (a, b) = .left ↔ 1 / 10000 ≤ cross a b p := by
  simp only [side, vperp, vsub_x, vsub_y, real_abs, epsilon, real_lit]
  change (if (|cross a b p| <. ((1 : Int) : ℝ) / 10 ^ 4) = true then EdgeSide.edge
    else if (((0 : Int) : ℝ) / 10 ^ 0 <. cross a b p) = true then EdgeSide.left else EdgeSide.right) = _ ↔ _
  simp only [real_lt]
  norm_num
  split
  · rename_i h
    rw [abs_lt] at h
    simp only [reduceCtorEq, false_iff, not_le]
    linarith [h.2]
  · rename_i h
    rw [not_lt, le_abs'] at h
    split
    · simp only [true_iff]
      rcases h with h | h <;> linarith
    · simp only [reduceCtorEq, false_iff, not_le]
      linarith

theorem side_right {p a b : Vec2 ℝ} : side p (a, b) = .right ↔ cross a b p ≤ -(1 / 10000) := by
  simp only [side, vperp, vsub_x, vsub_y, real_abs, epsilon, real_lit]
  change (if (|cross a b p| <. ((1 : Int) : ℝ) / 10 ^ 4) = true then EdgeSide.edge
    else if (((0 : Int) : ℝ) / 10 ^ 0 <. cross a b p) = true then EdgeSide.left else EdgeSide.right) = _ ↔ _
  simp only [real_lt]
  norm_num
  split
  · rename_i h
    rw [abs_lt] at h
    simp only [reduceCtorEq, false_iff, not_le]
    linarith [h.1]
  · rename_i h
    rw [not_lt, le_abs'] at h
    split
    · simp only [reduceCtorEq, false_iff, not_le]
      linarith
    · simp only [true_iff]
      rcases h with h | h <;> linarith

theorem side_edge {p a b : Vec2 ℝ} : side p (a, b) = .edge ↔ |cross a b p| < 1 / 10000 := by
  have h1 := @side_left p a b
  have h2 := @side_right p a b
  rw [abs_lt]
  cases h : side p (a, b) with
  | left =>
    rw [h] at h1
    simp only [reduceCtorEq, false_iff, not_and, not_lt]
    exact fun _ => h1.1 rfl
  | right =>
    rw [h] at h2
    simp only [reduceCtorEq, false_iff, not_and, not_lt]
    intro h3
    linarith [h2.1 rfl]
  | edge =>
    rw [h] at h1 h2
    simp only [reduceCtorEq, false_iff, not_le] at h1 h2
    simp only [true_iff]
    exact ⟨h2, h1⟩

theorem mirror_x (g a b : Vec2 ℝ) : (mirror g (a, b)).x = a.x +
    (2 * ((b.x - a.x) * ((g.x - a.x) * (b.x - a.x) + (g.y - a.y) * (b.y - a.y)) *
      (1 / ((b.x - a.x) * (b.x - a.x) + (b.y - a.y) * (b.y - a.y)))) - (g.x - a.x)) := by
  simp [mirror, Vec2.projectOnto]

theorem mirror_y (g a b : Vec2 ℝ) : (mirror g (a, b)).y = a.y +
    (2 * ((b.y - a.y) * ((g.x - a.x) * (b.x - a.x) + (g.y - a.y) * (b.y - a.y)) *
      (1 / ((b.x - a.x) * (b.x - a.x) + (b.y - a.y) * (b.y - a.y)))) - (g.y - a.y)) := by
  simp [mirror, Vec2.projectOnto]

theorem ne_normSq {a b : Vec2 ℝ} (h : a ≠ b) :
    (b.x - a.x) * (b.x - a.x) + (b.y - a.y) * (b.y - a.y) ≠ 0 := by
  intro h0
  apply h
  have hx := mul_self_nonneg (b.x - a.x)
  have hy := mul_self_nonneg (b.y - a.y)
  apply Vec2.ext'
  · have := mul_self_eq_zero.1 (show (b.x - a.x) * (b.x - a.x) = 0 by linarith); linarith
  · have := mul_self_eq_zero.1 (show (b.y - a.y) * (b.y - a.y) = 0 by linarith); linarith

/-- Points of the line are as far from the mirror image as from the point. -/
theorem mirror_dist (g a b : Vec2 ℝ) (u : ℝ) :
    dist2 (lerp a b u) (mirror g (a, b)) = dist2 (lerp a b u) g := by
  unfold dist2
  congr 1
  by_cases h : a = b
  · subst h
    rw [mirror_x, mirror_y]
    simp only [lerp, sub_self, mul_zero, zero_mul, add_zero]
    ring
  · have hk := one_div_mul_cancel (ne_normSq h)
    rw [mirror_x, mirror_y]
    simp only [lerp]
    generalize hk' : 1 / ((b.x - a.x) * (b.x - a.x) + (b.y - a.y) * (b.y - a.y)) = k at hk
    linear_combination (-4 * u * ((g.x - a.x) * (b.x - a.x) + (g.y - a.y) * (b.y - a.y)) +
      4 * ((g.x - a.x) * (b.x - a.x) + (g.y - a.y) * (b.y - a.y)) ^ 2 * k) * hk

/-- Mirroring changes the side. -/
theorem mirror_cross (g a b : Vec2 ℝ) : cross a b (mirror g (a, b)) = - cross a b g := by
  by_cases h : a = b
  · subst h; simp [cross]
  · have := ne_normSq h
    unfold cross
    rw [mirror_x, mirror_y]
    field_simp
    ring

end Polyanya
