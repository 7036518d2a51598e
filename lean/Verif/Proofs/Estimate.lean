import Verif.Proofs.Plane
import Verif.Proofs.Found
/-
Exact arithmetic: the heuristic, the turning point, and the known length of search nodes.
-/

namespace Polyanya

theorem polyLen_snoc (a : Vec2 ℝ) (l : List (Vec2 ℝ)) (x : Vec2 ℝ) :
    polyLen ((a :: l) ++ [x]) = polyLen (a :: l) + dist2 ((a :: l).getLast (by simp)) x := by
  induction l generalizing a with
  | nil => simp [polyLen]
  | cons b l ih =>
    have := ih b
    simp only [List.cons_append, polyLen] at this ⊢
    rw [this]
    simp only [List.getLast_cons_cons]
    ring

theorem polyLen_nonneg : ∀ l : List (Vec2 ℝ), 0 ≤ polyLen l
  | [] => le_refl _
  | [_] => le_refl _
  | a :: b :: l => add_nonneg (dist2_nonneg a b) (polyLen_nonneg (b :: l))

/-- A polyline is at least as long as the straight line. -/
theorem polyLen_ge (a : Vec2 ℝ) (l : List (Vec2 ℝ)) :
    dist2 a ((a :: l).getLast (by simp)) ≤ polyLen (a :: l) := by
  induction l generalizing a with
  | nil => simp [polyLen, dist2_self]
  | cons b l ih =>
    simp only [List.getLast_cons_cons, polyLen]
    exact (dist2_triangle a b _).trans (by linarith [ih b])

theorem polyLen_append (a x : Vec2 ℝ) (l r : List (Vec2 ℝ)) :
    polyLen ((a :: l) ++ x :: r) = polyLen ((a :: l) ++ [x]) + polyLen (x :: r) := by
  induction l generalizing a with
  | nil => simp [polyLen]
  | cons b l ih =>
    have := ih b
    simp only [List.cons_append, polyLen] at this ⊢
    rw [this]
    ring

/-! The heuristic -/

theorem intersectionTime_eq (r g a b : Vec2 ℝ) :
    intersectionTime (r, g) (a, b) = cross r a g / (cross a b r - cross a b g) := by
  simp only [intersectionTime, vperp, vsub_x, vsub_y, real_div]
  congr 1 <;> (simp only [cross]; ring)

theorem cross_diff (r g a b : Vec2 ℝ) : cross r a g - cross r b g = cross a b r - cross a b g := by
  simp only [cross]; ring

/-- The goal as used by the heuristic is as far from points of the line as the goal. -/
theorem mirroredGoal_dist (r g a b : Vec2 ℝ) (u : ℝ) :
    dist2 (lerp a b u) (mirroredGoal r g (a, b)) = dist2 (lerp a b u) g := by
  unfold mirroredGoal
  split
  · exact mirror_dist g a b u
  · rfl

/-- Neither point is in the tolerance band around the line, except exactly on the line. -/
def Clear (a b p : Vec2 ℝ) : Prop := cross a b p = 0 ∨ 1 / 10000 ≤ |cross a b p|

/-- Root and (mirrored) goal are on opposite sides. -/
theorem mirroredGoal_opposite {r g a b : Vec2 ℝ} (hr : Clear a b r) (hg : Clear a b g) :
    cross a b r * cross a b (mirroredGoal r g (a, b)) ≤ 0 := by
  unfold mirroredGoal
  rcases hr with hr | hr
  · rw [hr, zero_mul]
  rcases hg with hg | hg
  · split
    · rw [mirror_cross, hg]; simp
    · rw [hg]; simp
  rw [le_abs'] at hr hg
  split
  · rename_i hs
    rw [mirror_cross]
    rcases hr with hr | hr
    · have h1 : side r (a, b) = .right := side_right.2 (by linarith)
      rw [h1, eq_comm, side_right] at hs
      nlinarith
    · have h1 : side r (a, b) = .left := side_left.2 hr
      rw [h1, eq_comm, side_left] at hs
      nlinarith
  · rename_i hs
    rcases hr with hr | hr
    · have h1 : side r (a, b) = .right := side_right.2 (by linarith)
      rcases hg with hg | hg
      · exact absurd (h1.trans (side_right.2 (by linarith)).symm) hs
      · nlinarith
    · have h1 : side r (a, b) = .left := side_left.2 hr
      rcases hg with hg | hg
      · nlinarith
      · exact absurd (h1.trans (side_left.2 hg).symm) hs

/-- Where the segment from root to goal crosses the line. -/
theorem crossing_on_seg {r g a b : Vec2 ℝ} (hop : cross a b r * cross a b g ≤ 0)
    (hD : cross a b r - cross a b g ≠ 0) :
    OnSeg r g (lerp a b (intersectionTime (r, g) (a, b))) := by
  refine ⟨cross a b r / (cross a b r - cross a b g), ?_, ?_, ?_⟩
  · rcases lt_or_gt_of_ne hD with h | h
    · exact div_nonneg_of_nonpos (by nlinarith [sq_nonneg (cross a b r), sq_nonneg (cross a b g)]) h.le
    · exact div_nonneg (by nlinarith [sq_nonneg (cross a b r), sq_nonneg (cross a b g)]) h.le
  · rcases lt_or_gt_of_ne hD with h | h
    · rw [div_le_one_of_neg h]; nlinarith [sq_nonneg (cross a b r), sq_nonneg (cross a b g)]
    · rw [div_le_one h]; nlinarith [sq_nonneg (cross a b r), sq_nonneg (cross a b g)]
  · rw [intersectionTime_eq]
    apply Vec2.ext'
    · simp only [lerp]
      rw [div_mul_eq_mul_div, div_mul_eq_mul_div, eq_comm, ← sub_eq_zero]
      field_simp
      simp only [cross]
      ring
    · simp only [lerp]
      rw [div_mul_eq_mul_div, div_mul_eq_mul_div, eq_comm, ← sub_eq_zero]
      field_simp
      simp only [cross]
      ring

theorem lerp_lerp (a b : Vec2 ℝ) (s t u : ℝ) :
    lerp (lerp a b s) (lerp a b t) u = lerp a b (s + u * (t - s)) := by
  apply Vec2.ext' <;> (simp only [lerp]; ring)

/-- Going through a point of the line is the longer, the further it is from the crossing. -/
theorem detour_mono {r g a b : Vec2 ℝ} {c s x : ℝ} (hc : OnSeg r g (lerp a b c))
    (hcs : (c ≤ s ∧ s ≤ x) ∨ (x ≤ s ∧ s ≤ c)) :
    dist2 r (lerp a b s) + dist2 (lerp a b s) g ≤ dist2 r (lerp a b x) + dist2 (lerp a b x) g := by
  by_cases hne : x = c
  · have : s = x := by rcases hcs with h | h <;> linarith [h.1, h.2]
    rw [this]
  have hxc : x - c ≠ 0 := sub_ne_zero.2 hne
  have hu : 0 ≤ (s - c) / (x - c) ∧ (s - c) / (x - c) ≤ 1 := by
    rcases hcs with ⟨h1, h2⟩ | ⟨h1, h2⟩
    · have : 0 < x - c := lt_of_le_of_ne (by linarith) (Ne.symm hxc)
      exact ⟨div_nonneg (by linarith) this.le, by rw [div_le_one this]; linarith⟩
    · have : x - c < 0 := lt_of_le_of_ne (by linarith) hxc
      exact ⟨div_nonneg_of_nonpos (by linarith) this.le, by rw [div_le_one_of_neg this]; linarith⟩
  have hs : lerp a b s = lerp (lerp a b c) (lerp a b x) ((s - c) / (x - c)) := by
    rw [lerp_lerp]
    congr 1
    field_simp
    ring
  have e1 := dist2_lerp_le r (lerp a b c) (lerp a b x) hu.1 hu.2
  have e2 := dist2_lerp_le g (lerp a b c) (lerp a b x) hu.1 hu.2
  rw [← hs] at e1 e2
  have e3 := dist2_onSeg hc
  have e4 := dist2_triangle r (lerp a b x) g
  rw [dist2_comm g (lerp a b s), dist2_comm g (lerp a b c), dist2_comm g (lerp a b x)] at e2
  generalize (s - c) / (x - c) = u at *
  nlinarith [hu.1, hu.2]

theorem lerp_zero (a b : Vec2 ℝ) : lerp a b 0 = a := by apply Vec2.ext' <;> simp [lerp]
theorem lerp_one (a b : Vec2 ℝ) : lerp a b 1 = b := by apply Vec2.ext' <;> simp [lerp]

/-- The four cases of the heuristic. -/
theorem heuristic_cases (r g a b : Vec2 ℝ) :
    (heuristic r g (a, b) = dist2 r (mirroredGoal r g (a, b)) ∧
      (r = a ∨ r = b ∨ (0 ≤ intersectionTime (r, mirroredGoal r g (a, b)) (a, b) ∧
        intersectionTime (r, mirroredGoal r g (a, b)) (a, b) ≤ 1))) ∨
    (heuristic r g (a, b) = dist2 r a + dist2 a (mirroredGoal r g (a, b)) ∧ r ≠ a ∧ r ≠ b ∧
      intersectionTime (r, mirroredGoal r g (a, b)) (a, b) < 0) ∨
    (heuristic r g (a, b) = dist2 r b + dist2 b (mirroredGoal r g (a, b)) ∧ r ≠ a ∧ r ≠ b ∧
      1 < intersectionTime (r, mirroredGoal r g (a, b)) (a, b)) := by
  simp only [heuristic]
  split
  · rename_i h
    simp only [Bool.or_eq_true, vbeq] at h
    exact .inl ⟨distance_eq _ _, h.elim .inl (fun h => .inr (.inl h))⟩
  · rename_i h
    simp only [Bool.or_eq_true, vbeq, not_or] at h
    split
    · rename_i h1
      simp only [real_lt, real_lit, Int.cast_zero, zero_div] at h1
      refine .inr (.inl ⟨?_, h.1, h.2, h1⟩)
      rw [distance_eq, distance_eq]; rfl
    · rename_i h1
      simp only [real_lt, real_lit, Int.cast_zero, zero_div, not_lt] at h1
      split
      · rename_i h2
        simp only [real_lt, real_lit, Int.cast_one, pow_zero, div_one] at h2
        refine .inr (.inr ⟨?_, h.1, h.2, h2⟩)
        rw [distance_eq, distance_eq]; rfl
      · rename_i h2
        simp only [real_lt, real_lit, Int.cast_one, pow_zero, div_one, not_lt] at h2
        exact .inl ⟨distance_eq _ _, .inr (.inr ⟨h1, h2⟩)⟩

/-- The heuristic is at most the length of the detour through any point of the interval. -/
theorem heuristic_le {r g a b : Vec2 ℝ} (hr : Clear a b r) (hg : Clear a b g) {x : Vec2 ℝ}
    (hx : OnSeg a b x) : heuristic r g (a, b) ≤ dist2 r x + dist2 x g := by
  obtain ⟨u, h0, h1, rfl⟩ := hx
  rw [← mirroredGoal_dist r g a b u]
  have hop := mirroredGoal_opposite hr hg
  generalize hg' : mirroredGoal r g (a, b) = g' at hop
  have hD : ∀ t : ℝ, intersectionTime (r, g') (a, b) ≠ 0 → cross a b r - cross a b g' ≠ 0 := by
    intro t ht h0
    rw [intersectionTime_eq, h0, div_zero] at ht
    exact ht rfl
  rcases heuristic_cases r g a b with ⟨h, -⟩ | ⟨h, -, -, ht⟩ | ⟨h, -, -, ht⟩
  · rw [h, hg']; exact dist2_triangle _ _ _
  · rw [hg'] at h ht
    rw [h]
    have hc := crossing_on_seg hop (hD 0 ht.ne)
    have := detour_mono (s := 0) (x := u) hc (.inl ⟨ht.le, h0⟩)
    rwa [lerp_zero] at this
  · rw [hg'] at h ht
    rw [h]
    have hc := crossing_on_seg hop (hD 0 (by linarith))
    have := detour_mono (s := 1) (x := u) hc (.inr ⟨h1, ht.le⟩)
    rwa [lerp_one] at this

/-- The heuristic is at least the straight line to the (mirrored) goal. -/
theorem heuristic_ge (r g a b : Vec2 ℝ) : dist2 r (mirroredGoal r g (a, b)) ≤ heuristic r g (a, b) := by
  rcases heuristic_cases r g a b with ⟨h, -⟩ | ⟨h, -⟩ | ⟨h, -⟩
  · rw [h]
  · rw [h]; exact dist2_triangle _ _ _
  · rw [h]; exact dist2_triangle _ _ _

/-- The mirror image of the goal is further away, when the goal is on the root's side. -/
theorem dist2_mirror_ge {r g a b : Vec2 ℝ} (hab : a ≠ b) (h : 0 ≤ cross a b r * cross a b g) :
    dist2 r g ≤ dist2 r (mirror g (a, b)) := by
  unfold dist2
  apply Real.sqrt_le_sqrt
  have hk := one_div_mul_cancel (ne_normSq hab)
  rw [mirror_x, mirror_y]
  have hkn : 0 ≤ 1 / ((b.x - a.x) * (b.x - a.x) + (b.y - a.y) * (b.y - a.y)) :=
    one_div_nonneg.2 (add_nonneg (mul_self_nonneg _) (mul_self_nonneg _))
  generalize 1 / ((b.x - a.x) * (b.x - a.x) + (b.y - a.y) * (b.y - a.y)) = k at hk hkn
  have key : (r.x - (a.x + (2 * ((b.x - a.x) * ((g.x - a.x) * (b.x - a.x) + (g.y - a.y) * (b.y - a.y)) * k)
        - (g.x - a.x)))) ^ 2 +
      (r.y - (a.y + (2 * ((b.y - a.y) * ((g.x - a.x) * (b.x - a.x) + (g.y - a.y) * (b.y - a.y)) * k)
        - (g.y - a.y)))) ^ 2
      = (r.x - g.x) ^ 2 + (r.y - g.y) ^ 2 + 4 * k * (cross a b r * cross a b g) := by
    unfold cross
    generalize b.x - a.x = dx at *
    generalize b.y - a.y = dy at *
    linear_combination (4 * ((g.x - a.x) * dx + (g.y - a.y) * dy) ^ 2 * k
      - 4 * ((g.x - a.x) * (r.x - a.x) + (g.y - a.y) * (r.y - a.y))) * hk
  rw [key]
  nlinarith [mul_nonneg hkn h]

end Polyanya
