import Verif.Proofs.Estimate
import Verif.Proofs.Straight
import Mathlib.Analysis.Convex.StrictConvexBetween
import Mathlib.Analysis.Complex.Convex
import Mathlib.Analysis.InnerProductSpace.Convex
/-
Shortening polylines in the plane.
-/

namespace Polyanya

theorem dist2_between {a b x : Vec2 ℝ} (h : Between a b x) : dist2 a x + dist2 x b = dist2 a b :=
  dist2_onSeg h

theorem dist2_along_le (r a b : Vec2 ℝ) {u : ℝ} (h0 : 0 ≤ u) (h1 : u ≤ 1) :
    dist2 r (along a b u) ≤ (1 - u) * dist2 r a + u * dist2 r b := dist2_lerp_le r a b h0 h1

theorem between_of_dist {p q y : Vec2 ℝ} (h : dist2 p y + dist2 y q = dist2 p q) : Between p q y := by
  rw [dist2_eq, dist2_eq, dist2_eq, dist_add_dist_eq_iff] at h
  obtain ⟨u, ⟨u0, u1⟩, hu⟩ := h
  refine ⟨u, u0, u1, ?_⟩
  have hx := congrArg Complex.re hu
  have hy := congrArg Complex.im hu
  simp only [AffineMap.lineMap_apply, vsub_eq_sub, vadd_eq_add, Complex.add_re, Complex.add_im,
    Complex.real_smul, Complex.mul_re, Complex.mul_im, Complex.sub_re, Complex.sub_im, Complex.ofReal_re,
    Complex.ofReal_im, toC] at hx hy
  rw [Vec2.ext_iff']
  simp only [along]
  constructor
  · linear_combination -hx
  · linear_combination -hy

/-- Turning at `w` instead of going around it. -/
theorem turn_le {r w y y' z : Vec2 ℝ} (hz : Between y y' z) (hw : Between r z w) :
    dist2 r w + dist2 w y' ≤ dist2 r y + dist2 y y' := by
  have h1 := dist2_between hz
  have h2 := dist2_between hw
  have h3 := dist2_triangle r y z
  have h4 := dist2_triangle w z y'
  linarith

/-- The ray from `r` through `w` meets the segment from `y` to `y'`, behind the line `A B`. -/
theorem turn_point {r w y y' A B : Vec2 ℝ} (hr : 0 < tri A B r) (hw : tri A B w = 0) (hy : tri A B y = 0)
    (hy' : tri A B y' ≤ 0) (h : tri r w y * tri r w y' ≤ 0) :
    ∃ z, Between y y' z ∧ Between r z w := by
  have hrw : r ≠ w := by rintro rfl; exact hr.ne' hw
  have key : ∀ z, Between y y' z → tri r w z = 0 → Between r z w := by
    rintro z ⟨u, u0, u1, rfl⟩ h0
    obtain ⟨k, hk⟩ := on_line hrw h0
    have h2 : tri A B (along y y' u) ≤ 0 := by
      rw [tri_along, hy]
      have := mul_nonpos_of_nonneg_of_nonpos u0 hy'
      linarith
    have h1 : tri A B (along y y' u) = (1 - k) * tri A B r := by
      rw [hk, tri_along, hw]; ring
    rw [h1] at h2
    have hk1 : 1 ≤ k := by
      by_contra hcon
      push Not at hcon
      have := mul_pos (show 0 < 1 - k by linarith) hr
      linarith
    have hk0 : k ≠ 0 := by linarith
    refine ⟨1 / k, by positivity, by rw [div_le_one (by linarith)]; exact hk1, ?_⟩
    rw [hk, Vec2.ext_iff']
    simp only [along]
    constructor <;> (field_simp; ring)
  by_cases heq : tri r w y = tri r w y'
  · refine ⟨y, Between.left _ _, key y (Between.left _ _) ?_⟩
    rw [← heq] at h
    exact mul_self_eq_zero.1 (le_antisymm h (mul_self_nonneg _))
  · have hne : tri r w y - tri r w y' ≠ 0 := sub_ne_zero.2 heq
    have hu : 0 ≤ tri r w y / (tri r w y - tri r w y') ∧ tri r w y / (tri r w y - tri r w y') ≤ 1 := by
      rcases lt_or_gt_of_ne hne with h' | h'
      · exact ⟨div_nonneg_of_nonpos (by nlinarith [sq_nonneg (tri r w y), sq_nonneg (tri r w y')]) h'.le,
          by rw [div_le_one_of_neg h']; nlinarith [sq_nonneg (tri r w y), sq_nonneg (tri r w y')]⟩
      · exact ⟨div_nonneg (by nlinarith [sq_nonneg (tri r w y), sq_nonneg (tri r w y')]) h'.le,
          by rw [div_le_one h']; nlinarith [sq_nonneg (tri r w y), sq_nonneg (tri r w y')]⟩
    have e := div_mul_cancel₀ (tri r w y) hne
    generalize tri r w y / (tri r w y - tri r w y') = u at hu e
    have hb : Between y y' (along y y' u) := ⟨u, hu.1, hu.2, rfl⟩
    refine ⟨_, hb, key _ hb ?_⟩
    rw [tri_along]
    linear_combination -e

/-- A path that bends on the line `A B` at `w` gets shorter when `w` moves. -/
theorem taut {p w y' A B : Vec2 ℝ} {s : ℝ} (hp : 0 < tri A B p) (hw : w = along A B s)
    (hy' : tri A B y' ≤ 0) (hne : tri p w y' ≠ 0) :
    ∃ σ, (tri p w y' < 0 → σ < s) ∧ (0 < tri p w y' → s < σ) ∧ ∀ k, 0 < k → k ≤ 1 →
      dist2 p (along A B (s + k * (σ - s))) + dist2 (along A B (s + k * (σ - s))) y'
        < dist2 p w + dist2 w y' := by
  have hd : 0 < tri A B p - tri A B y' := by linarith
  have hτ := div_mul_cancel₀ (tri A B p) hd.ne'
  have τ0 : 0 < tri A B p / (tri A B p - tri A B y') := div_pos hp hd
  have τ1 : tri A B p / (tri A B p - tri A B y') ≤ 1 := by rw [div_le_one hd]; linarith
  generalize tri A B p / (tri A B p - tri A B y') = τ at hτ τ0 τ1
  have hAB : A ≠ B := by rintro rfl; simp at hp
  have hz0 : tri A B (along p y' τ) = 0 := by rw [tri_along]; linear_combination -hτ
  obtain ⟨σ, hσ⟩ := on_line hAB hz0
  have e1 : tri p w (along p y' τ) = τ * tri p w y' := by rw [tri_along]; simp
  have e2 : tri p w (along p y' τ) = (σ - s) * tri A B p := by
    rw [hσ, hw]; simp only [tri, along]; ring
  have e3 : (σ - s) * tri A B p = τ * tri p w y' := by rw [← e2, e1]
  have hz : Between p y' (along p y' τ) := ⟨τ, τ0.le, τ1, rfl⟩
  refine ⟨σ, ?_, ?_, ?_⟩
  · intro h
    by_contra hcon
    push Not at hcon
    have := mul_nonneg (show 0 ≤ σ - s by linarith) hp.le
    have := mul_neg_of_pos_of_neg τ0 h
    linarith
  · intro h
    by_contra hcon
    push Not at hcon
    have := mul_nonpos_of_nonpos_of_nonneg (show σ - s ≤ 0 by linarith) hp.le
    have := mul_pos τ0 h
    linarith
  · intro k k0 k1
    have hk : along A B (s + k * (σ - s)) = along w (along p y' τ) k := by
      rw [hσ, hw, along_along]
    have h1 := dist2_along_le p w (along p y' τ) k0.le k1
    have h2 := dist2_along_le y' w (along p y' τ) k0.le k1
    rw [← hk] at h1 h2
    rw [dist2_comm y', dist2_comm y' w, dist2_comm y' (along p y' τ)] at h2
    have h3 := dist2_between hz
    have h4 : dist2 p y' < dist2 p w + dist2 w y' := by
      refine lt_of_le_of_ne (dist2_triangle _ _ _) ?_
      intro heq
      obtain ⟨v, -, -, hv⟩ := between_of_dist heq.symm
      apply hne
      rw [hv]
      simp only [tri, along]; ring
    have h5 := mul_lt_mul_of_pos_left h4 k0
    nlinarith

end Polyanya
