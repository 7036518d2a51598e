import Verif.Proofs.Grid
import Verif.Spec.Spaced
/-
On a coarse grid, points that may be listed in `path_with_layers` are not close to each other.
-/

namespace Polyanya

variable {F : Type} [Field F] [LinearOrder F] [IsStrictOrderedRing F]

/-- The coordinates in units of the grid are fractions with a common, small denominator. -/
def Fractional (o : Vec2 F) (u : F) (N : Nat) (z : Vec2 F) : Prop :=
  ∃ (X Y : F) (p p' q : ℤ), z = ⟨o.x + u * X, o.y + u * Y⟩ ∧ q ≠ 0 ∧ |q| ≤ 2 * N ^ 2 ∧ X * q = p ∧ Y * q = p'

theorem OnGrid.fractional {o : Vec2 F} {u : F} {N : Nat} (hN : 1 ≤ N) {z : Vec2 F} (h : OnGrid o u N z) :
    Fractional o u N z := by
  obtain ⟨i, j, -, -, rfl⟩ := h
  refine ⟨i, j, i, j, 1, rfl, one_ne_zero, ?_, by simp, by simp⟩
  rw [abs_one]
  have : (1 : ℤ) ≤ N := by exact_mod_cast hN
  nlinarith

theorem Fractional.apart {o : Vec2 F} {u : F} {N : Nat} (hN : 1 ≤ N) (hu : (N : F) ^ 4 / 25 ≤ u) {z z' : Vec2 F}
    (h : Fractional o u N z) (h' : Fractional o u N z') (hlt : sqDist z z' < 1 / 10000) : z = z' := by
  obtain ⟨X, Y, p, p', q, rfl, hq0, hq, h1, h2⟩ := h
  obtain ⟨X', Y', r, r', t, rfl, ht0, ht, h3, h4⟩ := h'
  have hcast : ∀ q : ℤ, |q| ≤ 2 * N ^ 2 → ((|q| : ℤ) : F) ≤ 2 * (N : F) ^ 2 := by
    intro q hq
    exact_mod_cast hq
  have N1 : (1 : F) ≤ N := by exact_mod_cast hN
  have hN4 : (0 : F) < (N : F) ^ 4 := by positivity
  have hM : ((|q * t| : ℤ) : F) ≤ 4 * (N : F) ^ 4 := by
    rw [abs_mul]
    push_cast
    have a1 := hcast q hq
    have a2 := hcast t ht
    push_cast at a1 a2
    have := mul_le_mul a1 a2 (abs_nonneg _) (by positivity)
    nlinarith
  have key : ∀ (x y : F) (a b : ℤ), x * q = a → y * t = b → u ^ 2 * ((x - y) * (x - y)) < 1 / 10000 → x = y := by
    intro x y a b hx hy hd
    by_contra hne
    have e : (x - y) * ((q * t : ℤ) : F) = ((a * t - b * q : ℤ) : F) := by
      push_cast
      rw [← hx, ← hy]
      ring
    have h2 := fraction_gap e (sub_ne_zero.2 hne) (mul_ne_zero hq0 ht0) hM
    have h4 : 1 ≤ (x - y) * (x - y) * (4 * (N : F) ^ 4) ^ 2 := by
      have := mul_le_mul h2 h2 zero_le_one (by linarith)
      have e : |x - y| * (4 * (N : F) ^ 4) * (|x - y| * (4 * (N : F) ^ 4)) = |x - y| * |x - y| * (4 * (N : F) ^ 4) ^ 2 := by
        ring
      rw [e, abs_mul_abs_self] at this
      linarith
    have h5 : u ^ 2 < 1 / 10000 * (4 * (N : F) ^ 4) ^ 2 := by
      have h7 := mul_lt_mul_of_pos_right hd (by positivity : (0 : F) < (4 * (N : F) ^ 4) ^ 2)
      have h8 := mul_le_mul_of_nonneg_right h4 (sq_nonneg u)
      nlinarith
    have h6 : ((N : F) ^ 4 / 25) ^ 2 ≤ u ^ 2 := pow_le_pow_left₀ (by positivity) hu 2
    nlinarith
  have e : sqDist (⟨o.x + u * X, o.y + u * Y⟩ : Vec2 F) ⟨o.x + u * X', o.y + u * Y'⟩
      = u ^ 2 * ((X - X') * (X - X')) + u ^ 2 * ((Y - Y') * (Y - Y')) := by
    simp only [sqDist]; ring
  rw [e] at hlt
  have p1 := mul_nonneg (sq_nonneg u) (mul_self_nonneg (X - X'))
  have p2 := mul_nonneg (sq_nonneg u) (mul_self_nonneg (Y - Y'))
  rw [key X X' _ _ h1 h3 (by linarith), key Y Y' _ _ h2 h4 (by linarith)]

variable [Scalar F]

/-- Points that may be listed in `path_with_layers` are not close to each other, on a mesh on a coarse grid. -/
theorem spaced_of_grid {m : Mesh (Ext F)} {start goal o : Vec2 F} {u : F} {N : Nat} (hN : 1 ≤ N)
    (hu : (N : F) ^ 4 / 25 ≤ u)
    (hv : ∀ v, IsVertex m v → OnGrid o u N v) (hs : OnGrid o u N start) (hg : OnGrid o u N goal) :
    Spaced m start goal := by
  have hu0 : 0 < u := lt_of_lt_of_le (by positivity) hu
  have heye : ∀ v, Eye m start v → OnGrid o u N v := by
    rintro v (rfl | h)
    · exact hs
    · exact hv v h
  have hlisted : ∀ r z, Eye m start r → Listed m start goal r z → Fractional o u N z := by
    rintro r z hr (h | rfl | ⟨A, B, w, hE, hw, hne, h0, hline⟩)
    · exact (heye z h).fractional hN
    · exact hg.fractional hN
    · have hA := heye A (.inr (hE.isVertex A (.inl rfl)))
      have hB := heye B (.inr (hE.isVertex B (.inr rfl)))
      have hW : OnGrid o u N w := by rcases hw with h | rfl; exacts [heye w h, hg]
      have hAB : A ≠ B := by rintro rfl; exact hne rfl
      obtain ⟨τ, hτ⟩ := on_line hAB hline
      obtain ⟨q, hq, hqe⟩ := (heye r hr).tri_diff_int hW hA hB
      obtain ⟨p, hp⟩ := (heye r hr).tri_int hW hA
      have hu2 : u ^ 2 ≠ 0 := pow_ne_zero 2 hu0.ne'
      have hq0 : q ≠ 0 := by
        rintro rfl
        apply hne
        rw [Int.cast_zero, mul_zero] at hqe
        exact sub_eq_zero.1 hqe
      have hpq : τ * q = p := by
        rw [hτ, tri_along] at h0
        apply mul_left_cancel₀ hu2
        rw [← hp]
        linear_combination -h0 - τ * hqe
      obtain ⟨ai, aj, -, -, rfl⟩ := hA
      obtain ⟨bi, bj, -, -, rfl⟩ := hB
      refine ⟨ai + τ * (bi - ai), aj + τ * (bj - aj), ai * q + p * (bi - ai), aj * q + p * (bj - aj), q, ?_, hq0, hq, ?_, ?_⟩
      · rw [hτ]
        simp only [along, Vec2.mk.injEq]
        constructor <;> ring
      · push_cast; rw [← hpq]; ring
      · push_cast; rw [← hpq]; ring
  intro r hr z z' hz hz' hlt
  exact (hlisted r z hr hz).apart hN hu (hlisted r z' hr hz') hlt

end Polyanya
