import Verif.Spec.Triangulation
import Verif.Spec.RealScalar
import Verif.Proofs.Res
/-
C51: the outline around an edge of an obstacle, in exact arithmetic.
-/

namespace Polyanya

/-- The point `q` is on the segment from `a` to `b`. -/
def OnSegment (a b q : Vec2 ℝ) : Prop :=
  ∃ s : ℝ, 0 ≤ s ∧ s ≤ 1 ∧ q.x = a.x + s * (b.x - a.x) ∧ q.y = a.y + s * (b.y - a.y)

/-- The distance from `p` to the segment is `d`. -/
def AtDistance (a b p : Vec2 ℝ) (d : ℝ) : Prop :=
  (∃ q, OnSegment a b q ∧ dist2 p q = d) ∧ ∀ q, OnSegment a b q → d ≤ dist2 p q

theorem real_tau : (Scalar.tau : ℝ) = 2 * Real.pi := rfl

/-- The angle under which a point is seen. -/
theorem angleAt_spec {c v : Vec2 ℝ} {d ux uy : ℝ} (hd : 0 < d) (hu : ux ^ 2 + uy ^ 2 = 1) (hx : v.x = c.x + d * ux)
    (hy : v.y = c.y + d * uy) :
    Real.cos (angleAt c v) = ux ∧ Real.sin (angleAt c v) = uy ∧ 0 ≤ angleAt c v ∧ angleAt c v < 2 * Real.pi := by
  have e : (Scalar.atan2 (v.y -. c.y) (v.x -. c.x) : ℝ) = Complex.arg ⟨d * ux, d * uy⟩ := by
    show Complex.arg ⟨v.x - c.x, v.y - c.y⟩ = _
    rw [hx, hy]
    congr 2 <;> ring
  have hn : ‖(⟨d * ux, d * uy⟩ : ℂ)‖ = d := by
    rw [Complex.norm_def, Complex.normSq_mk]
    rw [show d * ux * (d * ux) + d * uy * (d * uy) = d ^ 2 * (ux ^ 2 + uy ^ 2) by ring, hu, mul_one]
    exact Real.sqrt_sq hd.le
  have hne : (⟨d * ux, d * uy⟩ : ℂ) ≠ 0 := by
    intro h
    rw [h, norm_zero] at hn
    linarith
  have hcos : Real.cos (Complex.arg ⟨d * ux, d * uy⟩) = ux := by
    rw [Complex.cos_arg hne, hn]
    field_simp
  have hsin : Real.sin (Complex.arg ⟨d * ux, d * uy⟩) = uy := by
    rw [Complex.sin_arg, hn]
    field_simp
  have h1 := Complex.neg_pi_lt_arg (⟨d * ux, d * uy⟩ : ℂ)
  have h2 := Complex.arg_le_pi (⟨d * ux, d * uy⟩ : ℂ)
  have hpi := Real.pi_pos
  unfold angleAt
  rw [e]
  simp only [real_add, real_tau]
  by_cases h : (Complex.arg ⟨d * ux, d * uy⟩ : ℝ) < 0
  · have : Scalar.signNeg (Complex.arg ⟨d * ux, d * uy⟩ : ℝ) = true := by
      simp only [Scalar.signNeg, decide_eq_true_eq]; exact h
    rw [if_pos this, Real.cos_add_two_pi, Real.sin_add_two_pi]
    exact ⟨hcos, hsin, by linarith, by linarith⟩
  · have : ¬ Scalar.signNeg (Complex.arg ⟨d * ux, d * uy⟩ : ℝ) = true := by
      simp only [Scalar.signNeg, decide_eq_true_eq]; exact h
    rw [if_neg this]
    push Not at h
    exact ⟨hcos, hsin, h, by linarith⟩

/-- The number of segments made odd. -/
def oddSegments (n : Nat) : Nat := if n % 2 = 0 then n - 1 else n

/-- Point number `i` of a half circle of `n` segments around `c`, clockwise from direction `u`. -/
noncomputable def arcPoint (c : Vec2 ℝ) (d ux uy : ℝ) (n i : Nat) : Vec2 ℝ :=
  ⟨c.x + d * (Real.cos (Real.pi * i / n) * ux + Real.sin (Real.pi * i / n) * uy),
   c.y + d * (Real.cos (Real.pi * i / n) * uy - Real.sin (Real.pi * i / n) * ux)⟩

/-- An arc between opposite points is a clockwise half circle. -/
theorem createArc_real {c v w : Vec2 ℝ} {d ux uy : ℝ} (hd : 0 < d) (hu : ux ^ 2 + uy ^ 2 = 1)
    (hv : v = ⟨c.x + d * ux, c.y + d * uy⟩) (hw : w = ⟨c.x - d * ux, c.y - d * uy⟩) {n : Nat} (hn : n ≠ 0) :
    createArc c d v w n = .ok ((List.range (oddSegments n + 1)).map (arcPoint c d ux uy (oddSegments n))) := by
  have hpi := Real.pi_pos
  have hm : 0 < oddSegments n := by unfold oddSegments; split <;> omega
  have hm' : (oddSegments n : ℝ) ≠ 0 := by positivity
  obtain ⟨a1, a2, a3, a4⟩ := angleAt_spec (c := c) (v := v) hd hu (by rw [hv]) (by rw [hv])
  obtain ⟨b1, b2, b3, b4⟩ := angleAt_spec (c := c) (v := w) (ux := -ux) (uy := -uy) hd (by rw [← hu]; ring)
    (by rw [hw]; ring) (by rw [hw]; ring)
  -- the angles differ by half a turn
  have hdiff : angleAt c v - angleAt c w = Real.pi ∨ angleAt c v - angleAt c w = -Real.pi := by
    have hc : Real.cos (angleAt c v - angleAt c w + Real.pi) = 1 := by
      rw [Real.cos_add_pi, Real.cos_sub, a1, a2, b1, b2]
      linarith [hu]
    obtain ⟨k, hk⟩ := (Real.cos_eq_one_iff _).1 hc
    have hk1 : (-1 : ℝ) < k := by
      by_contra h
      push Not at h
      have : (k : ℝ) * (2 * Real.pi) ≤ -1 * (2 * Real.pi) := by
        apply mul_le_mul_of_nonneg_right h; linarith
      linarith
    have hk2 : (k : ℝ) < 2 := by
      by_contra h
      push Not at h
      have : (2 : ℝ) * (2 * Real.pi) ≤ k * (2 * Real.pi) := by
        apply mul_le_mul_of_nonneg_right h; linarith
      linarith
    have hk1 : (-1 : ℤ) < k := by exact_mod_cast hk1
    have hk2 : k < (2 : ℤ) := by exact_mod_cast hk2
    have : k = 0 ∨ k = 1 := by omega
    rcases this with rfl | rfl
    · right
      simp only [Int.cast_zero, zero_mul] at hk
      linarith
    · left
      simp only [Int.cast_one, one_mul] at hk
      linarith
  have hangle : (if angleAt c w <. angleAt c v then angleAt c v -. angleAt c w
      else (angleAt c v +. Scalar.tau) -. angleAt c w : ℝ) = Real.pi := by
    rcases hdiff with h | h
    · rw [if_pos ((real_lt _ _).2 (by linarith))]
      exact h
    · rw [if_neg]
      · simp only [real_sub, real_add, real_tau]
        linarith
      · rw [real_lt]
        linarith
  unfold createArc
  simp only [hangle]
  rw [if_neg hn]
  have hodd : (if n % 2 = 0 then n - 1 else n) = oddSegments n := rfl
  simp only [hodd]
  rw [Except.ok.injEq]
  -- points, one by one
  obtain ⟨m, hm1⟩ : ∃ m, oddSegments n = m + 1 := ⟨oddSegments n - 1, by omega⟩
  have hfirst : v = arcPoint c d ux uy (oddSegments n) 0 := by
    rw [hv]
    simp [arcPoint]
  have hlast : w = arcPoint c d ux uy (oddSegments n) (oddSegments n) := by
    rw [hw]
    unfold arcPoint
    rw [show Real.pi * (oddSegments n : ℝ) / (oddSegments n : ℝ) = Real.pi by field_simp]
    simp only [Real.cos_pi, Real.sin_pi]
    apply Vec2.ext' <;> ring
  have hmid : ∀ i : Nat, (⟨c.x +. (Scalar.cos (angleAt c v +. ((Scalar.neg Real.pi /. Scalar.ofNat (oddSegments n)) *. Scalar.ofNat i)) *. d),
      c.y +. (Scalar.sin (angleAt c v +. ((Scalar.neg Real.pi /. Scalar.ofNat (oddSegments n)) *. Scalar.ofNat i)) *. d)⟩ : Vec2 ℝ) =
      arcPoint c d ux uy (oddSegments n) i := by
    intro i
    simp only [real_add, real_mul, real_div, real_neg, real_ofNat, real_cos, real_sin]
    rw [show -Real.pi / (oddSegments n : ℝ) * (i : ℝ) = -(Real.pi * i / oddSegments n) by ring]
    rw [← sub_eq_add_neg, Real.cos_sub, Real.sin_sub, a1, a2]
    unfold arcPoint
    apply Vec2.ext' <;> ring
  simp only [hmid]
  rw [hm1, Nat.add_sub_cancel, List.range_succ, List.map_append, List.map_singleton, ← hm1, ← hlast]
  congr 1
  rw [hm1, List.range_succ_eq_map, List.map_cons, ← hm1, ← hfirst, List.range'_eq_map_range, List.map_map, List.map_map]
  congr 1
  apply List.map_congr_left
  intro i _
  simp [Function.comp, Nat.add_comm]

theorem sin_arc_nonneg {n i : Nat} (hi : i ≤ n) : 0 ≤ Real.sin (Real.pi * i / n) := by
  have hpi := Real.pi_pos
  rcases Nat.eq_zero_or_pos n with rfl | hn
  · simp
  · have hn' : (0 : ℝ) < n := by exact_mod_cast hn
    have hi' : (i : ℝ) ≤ n := by exact_mod_cast hi
    apply Real.sin_nonneg_of_nonneg_of_le_pi
    · positivity
    · rw [div_le_iff₀ hn']
      exact mul_le_mul_of_nonneg_left hi' hpi.le

/-- A point beyond the end `a` of a segment, at distance `d` from it. -/
theorem atDistance_of {a b p : Vec2 ℝ} {d : ℝ} (hd : 0 < d) (h1 : (p.x - a.x) ^ 2 + (p.y - a.y) ^ 2 = d ^ 2)
    (h2 : (p.x - a.x) * (b.x - a.x) + (p.y - a.y) * (b.y - a.y) ≤ 0) : AtDistance a b p d := by
  refine ⟨⟨a, ⟨0, le_refl _, zero_le_one, by ring, by ring⟩, ?_⟩, ?_⟩
  · unfold dist2
    rw [h1]
    exact Real.sqrt_sq hd.le
  · rintro q ⟨s, hs0, -, hx, hy⟩
    unfold dist2
    apply Real.le_sqrt_of_sq_le
    rw [hx, hy, ← h1]
    nlinarith [mul_nonneg hs0 (neg_nonneg.2 h2), sq_nonneg (s * (b.x - a.x)), sq_nonneg (s * (b.y - a.y))]

theorem atDistance_symm {a b p : Vec2 ℝ} {d : ℝ} (h : AtDistance b a p d) : AtDistance a b p d := by
  have key : ∀ q, OnSegment a b q → OnSegment b a q := by
    rintro q ⟨s, h0, h1, hx, hy⟩
    exact ⟨1 - s, by linarith, by linarith, by rw [hx]; ring, by rw [hy]; ring⟩
  have key' : ∀ q, OnSegment b a q → OnSegment a b q := by
    rintro q ⟨s, h0, h1, hx, hy⟩
    exact ⟨1 - s, by linarith, by linarith, by rw [hx]; ring, by rw [hy]; ring⟩
  obtain ⟨⟨q, h1, h2⟩, h3⟩ := h
  exact ⟨⟨q, key' q h1, h2⟩, fun q hq => h3 q (key q hq)⟩

/-- **C51**: in exact arithmetic, all points of the outline made around an edge of an obstacle (with positive agent radius
`d` and at least one segment per corner) are at distance exactly `d` from the edge. There are `n + 1` points around each
end, `n` being the number of segments, or the next smaller odd number. -/
theorem C51_outline (a b : Vec2 ℝ) (hab : a ≠ b) (d : ℝ) (hd : 0 < d) (n : Nat) (hn : n ≠ 0) :
    ∃ outline, roundLine (a, b) d n = .ok outline ∧ outline.length = 2 * ((if n % 2 = 0 then n - 1 else n) + 1) ∧
      ∀ p ∈ outline, AtDistance a b p d := by
  have hL : 0 < dist2 b a := by
    unfold dist2
    apply Real.sqrt_pos_of_pos
    by_contra h
    push Not at h
    apply hab
    have h1 : (b.x - a.x) ^ 2 = 0 := by nlinarith [sq_nonneg (b.x - a.x), sq_nonneg (b.y - a.y)]
    have h2 : (b.y - a.y) ^ 2 = 0 := by nlinarith [sq_nonneg (b.x - a.x), sq_nonneg (b.y - a.y)]
    have h1 := pow_eq_zero_iff (two_ne_zero) |>.1 h1
    have h2 := pow_eq_zero_iff (two_ne_zero) |>.1 h2
    exact Vec2.ext' (by linarith) (by linarith)
  have hL2 : dist2 b a ^ 2 = (b.x - a.x) ^ 2 + (b.y - a.y) ^ 2 := by
    unfold dist2
    rw [Real.sq_sqrt]
    positivity
  have hnormal : segmentNormal a b = some ⟨-(b.y - a.y) / dist2 b a, (b.x - a.x) / dist2 b a⟩ := by
    unfold segmentNormal
    simp only [distance_eq]
    rw [if_neg]
    · rfl
    · simp only [real_eq, real_lit]
      simp [hL.ne']
  obtain ⟨nx, hnx⟩ : ∃ nx, nx = -(b.y - a.y) / dist2 b a := ⟨_, rfl⟩
  obtain ⟨ny, hny⟩ : ∃ ny, ny = (b.x - a.x) / dist2 b a := ⟨_, rfl⟩
  have hunit : nx ^ 2 + ny ^ 2 = 1 := by
    rw [hnx, hny, div_pow, div_pow, ← add_div, hL2]
    rw [div_eq_one_iff_eq]
    · ring
    · rw [← hL2]; positivity
  have hdx : b.x - a.x = dist2 b a * ny := by rw [hny]; field_simp
  have hdy : b.y - a.y = -(dist2 b a * nx) := by rw [hnx]; field_simp
  unfold roundLine
  simp only [hnormal, ← hnx, ← hny]
  rw [createArc_real (ux := -nx) (uy := -ny) hd (by rw [← hunit]; ring)
      (Vec2.ext' (by simp; ring) (by simp; ring)) (Vec2.ext' (by simp; ring) (by simp; ring)) hn, res_bind_ok,
    createArc_real (ux := nx) (uy := ny) hd hunit
      (Vec2.ext' (by simp; ring) (by simp; ring)) (Vec2.ext' (by simp; ring) (by simp; ring)) hn, res_bind_ok]
  refine ⟨_, rfl, ?_, ?_⟩
  · have : (if n % 2 = 0 then n - 1 else n) = oddSegments n := rfl
    rw [this]
    simp
    omega
  · intro p hp
    rcases List.mem_append.1 hp with hp | hp
    · obtain ⟨i, hi, rfl⟩ := List.mem_map.1 hp
      rw [List.mem_range] at hi
      have hs := sin_arc_nonneg (n := oddSegments n) (i := i) (by omega)
      have hcs := Real.sin_sq_add_cos_sq (Real.pi * i / oddSegments n)
      refine atDistance_of hd ?_ ?_
      · simp only [arcPoint]
        linear_combination (d ^ 2 * (nx ^ 2 + ny ^ 2)) * hcs + d ^ 2 * hunit
      · simp only [arcPoint]
        rw [hdx, hdy]
        have : (a.x + d * (Real.cos (Real.pi * i / oddSegments n) * -nx + Real.sin (Real.pi * i / oddSegments n) * -ny) - a.x) *
              (dist2 b a * ny) +
            (a.y + d * (Real.cos (Real.pi * i / oddSegments n) * -ny - Real.sin (Real.pi * i / oddSegments n) * -nx) - a.y) *
              -(dist2 b a * nx) = -(d * dist2 b a * Real.sin (Real.pi * i / oddSegments n) * (nx ^ 2 + ny ^ 2)) := by ring
        rw [this, hunit]
        have := mul_nonneg (mul_nonneg hd.le hL.le) hs
        linarith
    · obtain ⟨i, hi, rfl⟩ := List.mem_map.1 hp
      rw [List.mem_range] at hi
      have hs := sin_arc_nonneg (n := oddSegments n) (i := i) (by omega)
      have hcs := Real.sin_sq_add_cos_sq (Real.pi * i / oddSegments n)
      refine atDistance_symm (atDistance_of hd ?_ ?_)
      · simp only [arcPoint]
        linear_combination (d ^ 2 * (nx ^ 2 + ny ^ 2)) * hcs + d ^ 2 * hunit
      · simp only [arcPoint]
        rw [show a.x - b.x = -(dist2 b a * ny) by rw [← hdx]; ring, show a.y - b.y = dist2 b a * nx by linarith]
        have : (b.x + d * (Real.cos (Real.pi * i / oddSegments n) * nx + Real.sin (Real.pi * i / oddSegments n) * ny) - b.x) *
              -(dist2 b a * ny) +
            (b.y + d * (Real.cos (Real.pi * i / oddSegments n) * ny - Real.sin (Real.pi * i / oddSegments n) * nx) - b.y) *
              (dist2 b a * nx) = -(d * dist2 b a * Real.sin (Real.pi * i / oddSegments n) * (nx ^ 2 + ny ^ 2)) := by ring
        rw [this, hunit]
        have := mul_nonneg (mul_nonneg hd.le hL.le) hs
        linarith

/-- **C51**: around a single point (an edge of length zero), the outline is made of `2 n` points at distance `d`. -/
theorem C51_point (a : Vec2 ℝ) (d : ℝ) (hd : 0 < d) (n : Nat) :
    ∃ outline, roundLine (a, a) d n = .ok outline ∧ outline.length = 2 * n ∧ ∀ p ∈ outline, AtDistance a a p d := by
  have hnormal : segmentNormal a a = none := by
    unfold segmentNormal
    simp only [distance_eq]
    rw [if_pos]
    simp [dist2]
  unfold roundLine
  simp only [hnormal]
  refine ⟨_, rfl, by simp; omega, ?_⟩
  intro p hp
  obtain ⟨i, -, rfl⟩ := List.mem_map.1 hp
  simp only [real_add, real_mul, real_cos, real_sin]
  generalize (Scalar.ofNat i *. Scalar.tau /. Scalar.ofNat (n * 2) : ℝ) = θ
  have hcs := Real.sin_sq_add_cos_sq θ
  refine atDistance_of hd ?_ ?_
  · simp only
    linear_combination d ^ 2 * hcs
  · simp

/-- **C51**: with zero segments per corner, the computation overflows. -/
theorem C51_no_segments (a b : Vec2 ℝ) (hab : a ≠ b) (d : ℝ) : roundLine (a, b) d 0 = .error .panic := by
  have hL : dist2 b a ≠ 0 := by
    unfold dist2
    intro h
    rw [Real.sqrt_eq_zero (by positivity)] at h
    apply hab
    have h1 : (b.x - a.x) ^ 2 = 0 := by nlinarith [sq_nonneg (b.x - a.x), sq_nonneg (b.y - a.y)]
    have h2 : (b.y - a.y) ^ 2 = 0 := by nlinarith [sq_nonneg (b.x - a.x), sq_nonneg (b.y - a.y)]
    have h1 := pow_eq_zero_iff (two_ne_zero) |>.1 h1
    have h2 := pow_eq_zero_iff (two_ne_zero) |>.1 h2
    exact Vec2.ext' (by linarith) (by linarith)
  have hnormal : ∃ n, segmentNormal a b = some n := by
    unfold segmentNormal
    simp only [distance_eq]
    rw [if_neg]
    · exact ⟨_, rfl⟩
    · simp only [real_eq, real_lit]
      simpa using hL
  obtain ⟨nn, hnn⟩ := hnormal
  unfold roundLine
  simp only [hnn]
  unfold createArc
  rfl

/-- A horizontal edge, radius 1/2, five segments. -/
example : ∃ outline, roundLine (⟨0, 0⟩, ⟨1, 0⟩) (1 / 2 : ℝ) 5 = .ok outline ∧ outline.length = 12 ∧
    ∀ p ∈ outline, AtDistance ⟨0, 0⟩ ⟨1, 0⟩ p (1 / 2) := by
  obtain ⟨o, h1, h2, h3⟩ := C51_outline ⟨0, 0⟩ ⟨1, 0⟩ (by simp) (1 / 2 : ℝ) (by norm_num) 5 (by simp)
  exact ⟨o, h1, by simpa using h2, h3⟩

end Polyanya
