import Verif.Proofs.Estimate
import Verif.Spec.RatScalar
/-
Properties C06, C07 and C38: the reported length and the estimate, in exact arithmetic, default features.
-/

namespace Polyanya

/-! ### The known part of a node is the length of its polyline -/

theorem added_exact {q : Query ℝ} (hc : q.cfg.detailed = false) {root : Vec2 ℝ} {o : UInt32}
    {start stop : Vec2 ℝ × UInt32} {node n : SearchNode ℝ} (h : Added q root o start stop node n)
    (h1 : node.distanceStartToRoot = polyLen (q.src.1 :: node.path))
    (h2 : (q.src.1 :: node.path).getLast (by simp) = node.root) :
    n.distanceStartToRoot = polyLen (q.src.1 :: n.path) ∧
    (q.src.1 :: n.path).getLast (by simp) = n.root ∧
    n.heuristic = heuristic n.root q.dst.1 n.interval := by
  obtain ⟨newF, hh, hf, hhe, -, -, rfl⟩ := h
  simp only [newDistance, hc, Bool.false_eq_true, if_false] at hf
  simp only [newHeuristic, hc, Bool.false_eq_true, if_false, Except.ok.injEq] at hhe
  have hlast : node.root = (q.src.1 :: node.path).getLast (by simp) := h2.symm
  simp only [mkNode]
  split at hf
  · rename_i hb
    rw [vbeq] at hb
    simp only [Except.ok.injEq] at hf
    have hb' : root.beq node.root = true := by rw [vbeq]; exact hb
    simp only [hb', if_true]
    exact ⟨by rw [← hf, h1], by rw [h2, hb], hhe.symm⟩
  · rename_i hb
    simp only [Except.ok.injEq] at hf
    simp only [hb]
    refine ⟨?_, by simp, hhe.symm⟩
    rw [← hf, h1, distance_eq]
    have := polyLen_snoc q.src.1 node.path root
    rw [h2] at this
    simpa using this.symm

theorem gen_exact {q : Query ℝ} (hc : q.cfg.detailed = false) {n : SearchNode ℝ} (h : Gen q n) :
    n.distanceStartToRoot = polyLen (q.src.1 :: n.path) ∧
    (q.src.1 :: n.path).getLast (by simp) = n.root ∧
    n.heuristic = heuristic n.root q.dst.1 n.interval := by
  induction h with
  | setup hs =>
    obtain ⟨_, _, _, _, _, _, -, -, -, -, -, -, -, -, hA⟩ := hs
    exact added_exact hc hA (by simp [emptyNode, polyLen]) (by simp [emptyNode])
  | child _ hch ih =>
    obtain ⟨_, _, _, _, _, _, -, -, -, -, -, -, -, -, -, -, -, -, hA⟩ := hch
    exact added_exact hc hA ih.1 ih.2.1

/-! ### C38 -/

/-- C38: the heuristic is at most the length of every route (polyline) from the root through a point of
the interval to the destination, when root and destination are not inside the tolerance band of 1e-4
around the line of the interval (being exactly on the line is fine). -/
theorem C38_heuristic_admissible_partial (root goal a b x : Vec2 ℝ) (hr : Clear a b root) (hg : Clear a b goal)
    (hx : OnSeg a b x) (pre post : List (Vec2 ℝ)) :
    heuristic root goal (a, b) ≤ polyLen (root :: pre ++ x :: post ++ [goal]) := by
  have h1 := heuristic_le hr hg hx
  have h2 := polyLen_append root x pre (post ++ [goal])
  have h3 := polyLen_ge root (pre ++ [x])
  have h4 := polyLen_ge x (post ++ [goal])
  simp only [List.cons_append, List.append_assoc, ne_eq, List.append_eq_nil_iff, List.cons_ne_nil, and_false,
    not_false_eq_true, List.getLast_append_of_ne_nil, List.getLast_singleton, List.getLast_cons] at h2 h3 h4 ⊢
  rw [h2]
  linarith

/-- C38, in the search: the estimate of every node the search creates (known length plus heuristic) is at
most the length of every route that follows the node's polyline and then goes from its root through its
interval to the destination. -/
theorem C38_estimate_admissible_partial (q : Query ℝ) (hc : q.cfg.detailed = false) (n : SearchNode ℝ)
    (hn : Gen q n) (hr : Clear n.interval.1 n.interval.2 n.root)
    (hg : Clear n.interval.1 n.interval.2 q.dst.1) (x : Vec2 ℝ) (hx : OnSeg n.interval.1 n.interval.2 x)
    (pre post : List (Vec2 ℝ)) :
    n.distanceStartToRoot + n.heuristic ≤
      polyLen (q.src.1 :: n.path ++ (pre ++ x :: post ++ [q.dst.1])) := by
  obtain ⟨h1, h2, h3⟩ := gen_exact hc hn
  have h4 := C38_heuristic_admissible_partial n.root q.dst.1 _ _ x hr hg hx pre post
  rw [h1, h3]
  have key : polyLen (q.src.1 :: n.path ++ (pre ++ x :: post ++ [q.dst.1])) =
      polyLen (q.src.1 :: n.path) + polyLen (n.root :: pre ++ x :: post ++ [q.dst.1]) := by
    rcases List.eq_nil_or_concat n.path with hp | ⟨l, z, hp⟩
    · rw [hp] at h2 ⊢
      simp only [List.getLast_singleton] at h2
      simp [polyLen, h2]
    · simp only [List.concat_eq_append] at hp
      rw [hp] at h2 ⊢
      have hz : z = n.root := by simpa using h2
      subst hz
      have := polyLen_append q.src.1 n.root l (pre ++ x :: post ++ [q.dst.1])
      simp only [List.cons_append, List.append_assoc, List.singleton_append, List.nil_append] at this ⊢
      exact this
  rw [key]
  linarith

/-- C38 without the hypothesis is false: a root inside the band, on the same side of the interval as the
destination, is not mirrored, and the estimate goes through the wrong end of the interval. Here it is at
least 3.5, while going through the other end takes less than 2.6. -/
theorem C38_false_in_band :
    ∃ root goal a b : Vec2 ℝ, a ≠ b ∧ OnSeg a b b ∧
      dist2 root b + dist2 b goal < 26 / 10 ∧ 35 / 10 ≤ heuristic root goal (a, b) := by
  refine ⟨⟨1/2, 1/20000⟩, ⟨3, 3/20000⟩, ⟨0, 0⟩, ⟨1, 0⟩, by simp,
    ⟨1, zero_le_one, le_refl _, (lerp_one _ _).symm⟩, ?_, ?_⟩
  · have h1 : dist2 ⟨1/2, 1/20000⟩ ⟨1, 0⟩ ≤ 51/100 := by
      unfold dist2; rw [Real.sqrt_le_left (by norm_num)]; norm_num
    have h2 : dist2 ⟨1, 0⟩ ⟨3, 3/20000⟩ ≤ 201/100 := by
      unfold dist2; rw [Real.sqrt_le_left (by norm_num)]; norm_num
    linarith
  · have hs : side (⟨1/2, 1/20000⟩ : Vec2 ℝ) (⟨0, 0⟩, ⟨1, 0⟩) = .edge :=
      side_edge.2 (by norm_num [cross, abs_lt])
    have hg : side (⟨3, 3/20000⟩ : Vec2 ℝ) (⟨0, 0⟩, ⟨1, 0⟩) = .left := side_left.2 (by norm_num [cross])
    have hm : mirroredGoal (⟨1/2, 1/20000⟩ : Vec2 ℝ) ⟨3, 3/20000⟩ (⟨0, 0⟩, ⟨1, 0⟩) = ⟨3, 3/20000⟩ := by
      unfold mirroredGoal; rw [hs, hg]; rfl
    have ht : intersectionTime (⟨1/2, 1/20000⟩, (⟨3, 3/20000⟩ : Vec2 ℝ)) (⟨0, 0⟩, ⟨1, 0⟩) < 0 := by
      rw [intersectionTime_eq]; norm_num [cross]
    have h1 : 1/2 ≤ dist2 ⟨1/2, 1/20000⟩ ⟨0, 0⟩ := by
      unfold dist2; apply Real.le_sqrt_of_sq_le; norm_num
    have h2 : 3 ≤ dist2 ⟨0, 0⟩ ⟨3, 3/20000⟩ := by
      unfold dist2; apply Real.le_sqrt_of_sq_le; norm_num
    rcases heuristic_cases (⟨1/2, 1/20000⟩ : Vec2 ℝ) ⟨3, 3/20000⟩ ⟨0, 0⟩ ⟨1, 0⟩ with
      ⟨-, h⟩ | ⟨h, -⟩ | ⟨-, -, -, h⟩
    · rw [hm] at h
      rcases h with h | h | h
      · simp at h
      · simp at h
      · linarith [h.1]
    · rw [h, hm]; linarith
    · rw [hm] at h; linarith

/-- Non-vacuity of C38: a root above the unit interval and a goal below it are clear of the band. -/
example : Clear ⟨0, 0⟩ ⟨1, 0⟩ ⟨0, 1⟩ ∧ Clear ⟨0, 0⟩ ⟨1, 0⟩ ⟨3, -2⟩ ∧
    OnSeg ⟨0, 0⟩ ⟨1, 0⟩ (⟨1/2, 0⟩ : Vec2 ℝ) := by
  refine ⟨.inr ?_, .inr ?_, 1/2, by norm_num, by norm_num, ?_⟩
  · norm_num [cross]
  · norm_num [cross]
  · apply Vec2.ext' <;> simp [lerp]

/-! ### C06, C07 -/

/-- How the length of a returned path is put together: the path consists of the bends, at most one more
waypoint, and the destination; the destination polygon is entered through the interval `a b` of the
last edge of the corridor; the reported length is the length of the polyline start-bends plus the
estimate from the last bend (or the start) through the interval. -/
structure LastLeg (m : Mesh ℝ) (blocked : List UInt8) (s e : UInt32) (src dst : Vec2 ℝ) (p : Path ℝ)
    (a b root : Vec2 ℝ) : Prop where
  ex : ∃ bends extra cs c, p.path = bends ++ extra ++ [dst]
    ∧ (src :: bends).getLast (by simp) = root
    ∧ p.length = polyLen (src :: bends) + heuristic root dst (a, b)
    ∧ extra = (turningPoint root dst (a, b)).toList
    ∧ Realises m blocked s e dst p.path cs ∧ cs.getLast? = some c
    ∧ OnCrossing m a c ∧ OnCrossing m b c

theorem foundBy_lastLeg {q : Query ℝ} (hc : q.cfg.detailed = false) (hd : q.dst.2 ≠ u32Max)
    {p : Path ℝ} (h : FoundBy q p) :
    ∃ a b root, LastLeg q.mesh q.blocked q.src.2 q.dst.2 q.src.1 q.dst.1 p a b root := by
  obtain ⟨inst, n, hi, hg, hto, hp⟩ := h
  obtain ⟨cs, hn⟩ := gen_inv hd hg
  obtain ⟨h1, h2, h3⟩ := gen_exact hc hg
  obtain ⟨hsh, hlen, -⟩ := foundPath_shape hp
  obtain ⟨extra, he, hl, hmem⟩ := pathEnd_shape inst n
  obtain ⟨sub, hsub, hf⟩ := hn.bends
  have hext : extra = (turningPoint n.root q.dst.1 (n.interval.1, n.interval.2)).toList := by
    have : (pathEnd inst n).map (·.1) = extra ++ [inst.goal] := by
      rw [he]; simp [Function.comp_def]
    unfold pathEnd at this
    rw [← hi.goal]
    cases ht : turningPoint n.root inst.goal n.interval with
    | none => rw [ht] at this; simpa using this.symm
    | some t =>
      rw [ht] at this
      have h2 : extra ++ [inst.goal] = [t] ++ [inst.goal] := by simpa using this.symm
      simpa using List.append_cancel_right h2
  have hpath : p.path = n.path ++ extra ++ [q.dst.1] := by
    rw [hsh, he]; simp [hi.goal, Function.comp_def]
  refine ⟨n.interval.1, n.interval.2, n.root, n.path, extra, cs ++ [n.crossing], n.crossing, hpath, h2, ?_,
    hext, ⟨?_, n.path, extra, sub, hpath, by simpa using hsub, hf, hl, ?_⟩, by simp, hn.left, hn.right⟩
  · rw [(hlen hc).1, h1, h3]; rfl
  · rw [← hto]; exact hn.corridor.snoc hn.valid rfl
  · intro w hw
    refine ⟨n.crossing, by simp, ?_⟩
    rcases hmem w hw with rfl | rfl
    · exact hn.left
    · exact hn.right

/-- The last leg is regular: the last bend is left of the interval and the destination right of it (at
least one of them outside the tolerance band), and the destination is not inside the tolerance bands
on the outer sides of the two lines from the last bend through the ends of the interval. -/
def RegularLeg (a b root dst : Vec2 ℝ) : Prop :=
  ((1 / 10000 ≤ cross a b root ∧ cross a b dst < 1 / 10000) ∨
    (-(1 / 10000) < cross a b root ∧ cross a b dst ≤ -(1 / 10000))) ∧
  ¬ (-(1 / 10000) < cross root a dst ∧ cross root a dst < 0) ∧
  ¬ (0 < cross root b dst ∧ cross root b dst < 1 / 10000)

theorem leg_unmirrored {a b root dst : Vec2 ℝ}
    (h : (1 / 10000 ≤ cross a b root ∧ cross a b dst < 1 / 10000) ∨
      (-(1 / 10000) < cross a b root ∧ cross a b dst ≤ -(1 / 10000))) :
    mirroredGoal root dst (a, b) = dst ∧ cross a b dst < cross a b root := by
  constructor
  · unfold mirroredGoal
    rw [if_neg]
    intro hs
    rcases h with ⟨h1, h2⟩ | ⟨h1, h2⟩
    · rw [side_left.2 h1, eq_comm, side_left] at hs
      linarith
    · rw [side_right.2 h2, side_right] at hs
      linarith
  · rcases h with ⟨h1, h2⟩ | ⟨h1, h2⟩ <;> linarith

theorem cross_self_mid (r g : Vec2 ℝ) : cross r r g = 0 := by simp [cross]

/-- On a regular leg, the estimate is the length of the polyline root, turning point, destination. -/
theorem heuristic_regular {a b root dst : Vec2 ℝ} (h : RegularLeg a b root dst) :
    heuristic root dst (a, b) =
      polyLen (root :: (turningPoint root dst (a, b)).toList ++ [dst]) := by
  obtain ⟨h1, h2, h3⟩ := h
  obtain ⟨hm, hD⟩ := leg_unmirrored h1
  have hcd := cross_diff root dst a b
  have hD' : 0 < cross a b root - cross a b dst := by linarith
  have hleft : side dst (root, b) = .left ↔ 0 < cross root b dst := by
    rw [side_left]
    constructor
    · intro h; linarith
    · intro h; by_contra hc; exact h3 ⟨h, by linarith⟩
  have hright : side dst (root, a) = .right ↔ cross root a dst < 0 := by
    rw [side_right]
    constructor
    · intro h; linarith
    · intro h; by_contra hc; exact h2 ⟨by linarith, h⟩
  unfold turningPoint
  simp only [hm]
  rcases heuristic_cases root dst a b with ⟨h, hc⟩ | ⟨h, hn, -, ht⟩ | ⟨h, hn, -, ht⟩
  · rw [h, hm]
    rw [hm] at hc
    by_cases hra : root = a
    · have : root.beq a = true := by rw [vbeq]; exact hra
      simp [this, polyLen]
    · have hra' : root.beq a = false := by
        rw [Bool.eq_false_iff, ne_eq, vbeq]; exact hra
      have hno : ¬ cross root a dst < 0 ∧ ¬ 0 < cross root b dst := by
        rcases hc with hc | hc | hc
        · exact absurd hc hra
        · subst hc
          rw [cross_self_mid] at hcd ⊢
          exact ⟨by linarith, lt_irrefl _⟩
        · rw [intersectionTime_eq] at hc
          refine ⟨?_, ?_⟩
          · intro hneg
            have := div_neg_of_neg_of_pos hneg hD'
            linarith [hc.1]
          · intro hpos
            have := hc.2
            rw [div_le_one hD'] at this
            linarith
      rw [← hright, ← hleft] at hno
      simp [hra', hno.1, hno.2, polyLen]
  · rw [hm] at ht h
    have hra' : root.beq a = false := by
      rw [Bool.eq_false_iff, ne_eq, vbeq]; exact hn
    have : cross root a dst < 0 := by
      by_contra hc
      rw [intersectionTime_eq] at ht
      have := div_nonneg (not_lt.1 hc) hD'.le
      linarith
    rw [← hright] at this
    simp [hra', this, polyLen, h]
  · rw [hm] at ht h
    have hra' : root.beq a = false := by
      rw [Bool.eq_false_iff, ne_eq, vbeq]; exact hn
    rw [intersectionTime_eq, lt_div_iff₀ hD'] at ht
    have h0 : 0 < cross root b dst := by linarith
    have h0' : ¬ cross root a dst < 0 := by linarith
    rw [← hleft] at h0
    rw [← hright] at h0'
    simp [hra', h0, h0', polyLen, h]

/-- Without the last two conditions the polyline is at most as long as the estimate. -/
theorem heuristic_unmirrored {a b root dst : Vec2 ℝ}
    (h1 : (1 / 10000 ≤ cross a b root ∧ cross a b dst < 1 / 10000) ∨
      (-(1 / 10000) < cross a b root ∧ cross a b dst ≤ -(1 / 10000))) :
    polyLen (root :: (turningPoint root dst (a, b)).toList ++ [dst]) ≤ heuristic root dst (a, b) := by
  obtain ⟨hm, hD⟩ := leg_unmirrored h1
  have hcd := cross_diff root dst a b
  have hD' : 0 < cross a b root - cross a b dst := by linarith
  have hleft : side dst (root, b) = .left → 0 < cross root b dst := by
    rw [side_left]; intro h; linarith
  have hright : side dst (root, a) = .right → cross root a dst < 0 := by
    rw [side_right]; intro h; linarith
  have hge := heuristic_ge root dst a b
  rw [hm] at hge
  unfold turningPoint
  simp only [hm]
  split
  · simpa [polyLen] using hge
  rename_i hra
  rw [vbeq] at hra
  split
  · rename_i hr
    have hr := hright hr
    rcases heuristic_cases root dst a b with ⟨h, hc⟩ | ⟨h, -⟩ | ⟨h, hn, -, ht⟩
    · exfalso
      rw [hm] at hc
      rcases hc with hc | hc | hc
      · exact hra hc
      · subst hc
        rw [cross_self_mid] at hcd
        linarith
      · rw [intersectionTime_eq] at hc
        have := div_neg_of_neg_of_pos hr hD'
        linarith [hc.1]
    · rw [hm] at h; simp [polyLen, h]
    · exfalso
      rw [hm, intersectionTime_eq, lt_div_iff₀ hD'] at ht
      linarith
  · split
    · rename_i hl
      have hl := hleft hl
      rcases heuristic_cases root dst a b with ⟨h, hc⟩ | ⟨h, hn, -, ht⟩ | ⟨h, -⟩
      · exfalso
        rw [hm] at hc
        rcases hc with hc | hc | hc
        · exact hra hc
        · subst hc
          rw [cross_self_mid] at hl
          linarith
        · rw [intersectionTime_eq] at hc
          have := hc.2
          rw [div_le_one hD'] at this
          linarith
      · exfalso
        rw [hm, intersectionTime_eq] at ht
        have := div_nonneg (show 0 ≤ cross root a dst by linarith) hD'.le
        linarith
      · rw [hm] at h; simp [polyLen, h]
    · simpa [polyLen] using hge

theorem polyLen_glue (src root : Vec2 ℝ) (bends rest : List (Vec2 ℝ))
    (h : (src :: bends).getLast (by simp) = root) :
    polyLen (src :: bends ++ rest) = polyLen (src :: bends) + polyLen (root :: rest) := by
  rcases List.eq_nil_or_concat bends with hp | ⟨l, z, hp⟩
  · subst hp
    simp only [List.getLast_singleton] at h
    simp [polyLen, h]
  · simp only [List.concat_eq_append] at hp
    subst hp
    have hz : z = root := by simpa using h
    subst hz
    have := polyLen_append src z l rest
    simp only [List.cons_append, List.append_assoc, List.singleton_append, List.nil_append] at this ⊢
    exact this

theorem LastLeg.exact {m : Mesh ℝ} {blocked : List UInt8} {s e : UInt32} {src dst : Vec2 ℝ} {p : Path ℝ}
    {a b root : Vec2 ℝ} (h : LastLeg m blocked s e src dst p a b root) :
    (RegularLeg a b root dst → p.length = polyLen (src :: p.path)) ∧
    ((1 / 10000 ≤ cross a b root ∧ cross a b dst < 1 / 10000) ∨
      (-(1 / 10000) < cross a b root ∧ cross a b dst ≤ -(1 / 10000)) →
        polyLen (src :: p.path) ≤ p.length) := by
  obtain ⟨bends, extra, cs, c, hp, hr, hl, he, -⟩ := h
  have key : polyLen (src :: p.path) = polyLen (src :: bends) + polyLen (root :: extra ++ [dst]) := by
    rw [hp, List.append_assoc]
    exact polyLen_glue src root bends (extra ++ [dst]) hr
  rw [key, hl, he]
  exact ⟨fun h => by rw [heuristic_regular h], fun h => by linarith [heuristic_unmirrored h]⟩

/-- The distance to the mirrored destination. -/
theorem dist2_mirror_sq {r g a b : Vec2 ℝ} (hab : a ≠ b) :
    dist2 r (mirror g (a, b)) ^ 2 = dist2 r g ^ 2 + 4 * (cross a b r * cross a b g) / dist2 a b ^ 2 := by
  unfold dist2
  rw [Real.sq_sqrt (by positivity), Real.sq_sqrt (by positivity), Real.sq_sqrt (by positivity)]
  have hk := one_div_mul_cancel (ne_normSq hab)
  rw [mirror_x, mirror_y]
  have e : (a.x - b.x) ^ 2 + (a.y - b.y) ^ 2 =
    (b.x - a.x) * (b.x - a.x) + (b.y - a.y) * (b.y - a.y) := by ring
  rw [e, div_eq_mul_one_div (4 * _)]
  generalize 1 / ((b.x - a.x) * (b.x - a.x) + (b.y - a.y) * (b.y - a.y)) = k at hk
  unfold cross
  generalize b.x - a.x = dx at *
  generalize b.y - a.y = dy at *
  linear_combination (4 * ((g.x - a.x) * dx + (g.y - a.y) * dy) ^ 2 * k
      - 4 * ((g.x - a.x) * (r.x - a.x) + (g.y - a.y) * (r.y - a.y))) * hk

theorem dist2_pos {a b : Vec2 ℝ} (hab : a ≠ b) : 0 < dist2 a b := by
  refine lt_of_le_of_ne (dist2_nonneg a b) ?_
  intro h
  have h2 := ne_normSq hab
  unfold dist2 at h
  rw [eq_comm, Real.sqrt_eq_zero (by positivity)] at h
  exact h2 (by linear_combination h)

/-- The straight line between root and destination against the estimate. -/
theorem heuristic_ge_dist {a b root dst : Vec2 ℝ} (hab : a ≠ b) :
    dist2 root dst - 2 / 10000 / dist2 a b ≤ heuristic root dst (a, b) ∧
    (0 ≤ cross a b root * cross a b dst ∨ 1 / 10000 ≤ |cross a b root| ∨ 1 / 10000 ≤ |cross a b dst| →
      dist2 root dst ≤ heuristic root dst (a, b)) := by
  have hge := heuristic_ge root dst a b
  have hL := dist2_pos hab
  have he : 0 < 2 / 10000 / dist2 a b := by positivity
  have hsq := dist2_mirror_sq (r := root) (g := dst) hab
  have hn1 := dist2_nonneg root dst
  have hn2 := dist2_nonneg root (mirror dst (a, b))
  unfold mirroredGoal at hge
  split at hge
  · rename_i hs
    have hside : 0 ≤ cross a b root * cross a b dst ∨
        (|cross a b root| < 1 / 10000 ∧ |cross a b dst| < 1 / 10000) := by
      cases h1 : side root (a, b) with
      | left =>
        rw [h1, eq_comm] at hs
        rw [side_left] at h1 hs
        exact .inl (mul_nonneg (by linarith) (by linarith))
      | right =>
        rw [h1, eq_comm] at hs
        rw [side_right] at h1 hs
        exact .inl (mul_nonneg_of_nonpos_of_nonpos (by linarith) (by linarith))
      | edge =>
        rw [h1, eq_comm] at hs
        rw [side_edge] at h1 hs
        exact .inr ⟨h1, hs⟩
    constructor
    · refine le_trans ?_ hge
      by_cases hsmall : dist2 root dst ≤ 2 / 10000 / dist2 a b
      · linarith
      push Not at hsmall
      have hlow : -(2 / 10000 / dist2 a b) ^ 2 ≤ 4 * (cross a b root * cross a b dst) / dist2 a b ^ 2 := by
        rw [div_pow, ← neg_div]
        apply div_le_div_of_nonneg_right _ (by positivity)
        rcases hside with h | ⟨h1, h2⟩
        · nlinarith
        · have := abs_mul (cross a b root) (cross a b dst)
          have h3 : |cross a b root| * |cross a b dst| ≤ 1 / 10000 * (1 / 10000) :=
            mul_le_mul h1.le h2.le (abs_nonneg _) (by norm_num)
          have h4 := neg_abs_le (cross a b root * cross a b dst)
          rw [this] at h4
          norm_num at h3 ⊢
          linarith
      have : (dist2 root dst - 2 / 10000 / dist2 a b) ^ 2 ≤ dist2 root (mirror dst (a, b)) ^ 2 := by
        rw [hsq]; nlinarith
      exact (sq_le_sq₀ (by linarith) hn2).1 this
    · intro hcase
      have : 0 ≤ cross a b root * cross a b dst := by
        rcases hside with h | ⟨h1, h2⟩
        · exact h
        · rcases hcase with h | h | h
          · exact h
          · linarith
          · linarith
      exact (dist2_mirror_ge hab this).trans hge
  · exact ⟨by linarith, fun _ => hge⟩

theorem LastLeg.ge {m : Mesh ℝ} {blocked : List UInt8} {s e : UInt32} {src dst : Vec2 ℝ} {p : Path ℝ}
    {a b root : Vec2 ℝ} (h : LastLeg m blocked s e src dst p a b root) (hab : a ≠ b) :
    dist2 src dst - 2 / 10000 / dist2 a b ≤ p.length ∧
    (0 ≤ cross a b root * cross a b dst ∨ 1 / 10000 ≤ |cross a b root| ∨ 1 / 10000 ≤ |cross a b dst| →
      dist2 src dst ≤ p.length) := by
  obtain ⟨bends, extra, cs, c, hp, hr, hl, -⟩ := h
  have h1 := polyLen_ge src bends
  rw [hr] at h1
  have h2 := dist2_triangle src root dst
  obtain ⟨h3, h4⟩ := heuristic_ge_dist (root := root) (dst := dst) hab
  rw [hl]
  exact ⟨by linarith, fun h => by linarith [h4 h]⟩

/-- C06, the provable part: default features, exact arithmetic. Either start and destination are in the
same polygon and the length is exact, or the length is put together as described by `LastLeg`, and it
is the length of the returned polyline provided that the last leg is regular; it is at least that
length if only the interval separates the last bend from the destination. Missing: the last leg of a
path is not always regular, see `C06_C07_false`. -/
theorem C06_length_partial (bvh : Bvh ℝ) (heap : Heap ℝ) (cfg : Cfg) (hc : cfg.detailed = false)
    (m : Mesh ℝ) (hm : m.Sized) (src dst : Coords ℝ) (blocked : List UInt8) (p : Path ℝ)
    (h : m.pathOnLayers bvh heap cfg src dst blocked = .ok (some p)) :
    ∃ s e, Located m bvh src s ∧ Located m bvh dst e ∧
      ((s = e ∧ p.length = polyLen (src.pos :: p.path)) ∨
       (s ≠ e ∧ ∃ a b root, LastLeg m blocked s e src.pos dst.pos p a b root ∧
        (RegularLeg a b root dst.pos → p.length = polyLen (src.pos :: p.path)) ∧
        ((1 / 10000 ≤ cross a b root ∧ cross a b dst.pos < 1 / 10000) ∨
          (-(1 / 10000) < cross a b root ∧ cross a b dst.pos ≤ -(1 / 10000)) →
            polyLen (src.pos :: p.path) ≤ p.length))) := by
  obtain ⟨s, e, hs, he, h⟩ := pathOnLayers_some h
  have hs' := endpointPolygon_located.1 hs
  have he' := endpointPolygon_located.1 he
  refine ⟨s, e, hs', he', ?_⟩
  rcases pathBetween_some h with ⟨rfl, rfl⟩ | ⟨hne, hf⟩
  · exact .inl ⟨rfl, by simp [polyLen, distance_eq]⟩
  · obtain ⟨a, b, root, hl⟩ := foundBy_lastLeg hc (located_ne_max hm he') hf
    exact .inr ⟨hne, a, b, root, hl, hl.exact⟩

/-- C06, the provable part, asynchronous query. -/
theorem C06_future_length_partial (bvh : Bvh ℝ) (heap : Heap ℝ) (cfg : Cfg) (hc : cfg.detailed = false)
    (m : Mesh ℝ) (src dst : Vec2 ℝ) (p : Path ℝ)
    (h : Resolves bvh heap cfg m (Mesh.getPath src dst) (some p)) :
    ∃ s e, m.getPointLocation bvh (Coords.onMesh src) = .ok s ∧
      m.getPointLocation bvh (Coords.onMesh dst) = .ok e ∧
      ((s = e ∧ p.length = polyLen (src :: p.path)) ∨
       (s ≠ e ∧ ∃ a b root, LastLeg m [] s e src dst p a b root ∧
        (RegularLeg a b root dst → p.length = polyLen (src :: p.path)) ∧
        ((1 / 10000 ≤ cross a b root ∧ cross a b dst < 1 / 10000) ∨
          (-(1 / 10000) < cross a b root ∧ cross a b dst ≤ -(1 / 10000)) →
            polyLen (src :: p.path) ≤ p.length))) := by
  obtain ⟨s, e, hs, he, -, he', h⟩ := resolves_found h
  refine ⟨s, e, hs, he, ?_⟩
  rcases h with ⟨rfl, rfl⟩ | ⟨hne, hf⟩
  · exact .inl ⟨rfl, by simp [polyLen, distance_eq, straightPath]⟩
  · obtain ⟨a, b, root, hl⟩ := foundBy_lastLeg hc he' hf
    exact .inr ⟨hne, a, b, root, hl, hl.exact⟩

/-- C07, the provable part: default features, exact arithmetic. The reported length is at least the
straight line from start to destination up to the tolerance of the last edge (2e-4 divided by the width
of the interval through which the destination polygon is entered), and exactly so unless the last bend
and the destination are on different sides of that interval but both inside its tolerance band.
Missing: that exception does occur, see `C06_C07_false`. -/
theorem C07_length_partial (bvh : Bvh ℝ) (heap : Heap ℝ) (cfg : Cfg) (hc : cfg.detailed = false)
    (m : Mesh ℝ) (hm : m.Sized) (src dst : Coords ℝ) (blocked : List UInt8) (p : Path ℝ)
    (h : m.pathOnLayers bvh heap cfg src dst blocked = .ok (some p)) :
    ∃ s e, Located m bvh src s ∧ Located m bvh dst e ∧
      ((s = e ∧ p.length = dist2 src.pos dst.pos) ∨
       (s ≠ e ∧ ∃ a b root, LastLeg m blocked s e src.pos dst.pos p a b root ∧
        (a ≠ b → dist2 src.pos dst.pos - 2 / 10000 / dist2 a b ≤ p.length ∧
          (0 ≤ cross a b root * cross a b dst.pos ∨ 1 / 10000 ≤ |cross a b root| ∨
            1 / 10000 ≤ |cross a b dst.pos| → dist2 src.pos dst.pos ≤ p.length)))) := by
  obtain ⟨s, e, hs, he, h⟩ := pathOnLayers_some h
  have hs' := endpointPolygon_located.1 hs
  have he' := endpointPolygon_located.1 he
  refine ⟨s, e, hs', he', ?_⟩
  rcases pathBetween_some h with ⟨rfl, rfl⟩ | ⟨hne, hf⟩
  · exact .inl ⟨rfl, distance_eq _ _⟩
  · obtain ⟨a, b, root, hl⟩ := foundBy_lastLeg hc (located_ne_max hm he') hf
    exact .inr ⟨hne, a, b, root, hl, hl.ge⟩

/-! ### Counterexamples to C06 and C07 -/

/-- An hourglass: two trapezoids that touch in an edge of width 0.001, each continued by a rectangle. The
start (0,-0.06) and the destination (0,0.04) are inside the tolerance band of the narrow edge, on
different sides of it. -/
def hourVertices : List (Vertex Rat) :=
  [ Vertex.new (v2 (-1/2) (-1)) [0, u32Max], Vertex.new (v2 (1/2) (-1)) [0, u32Max],
    Vertex.new (v2 (1/2) (-2/100)) [0, 1, u32Max], Vertex.new (v2 (-1/2) (-2/100)) [1, 0, u32Max],
    Vertex.new (v2 (1/2000) (-1/100)) [1, 2, u32Max], Vertex.new (v2 (-1/2000) (-1/100)) [2, 1, u32Max],
    Vertex.new (v2 (1/2) 1) [2, u32Max], Vertex.new (v2 (-1/2) 1) [2, u32Max] ]

def hourPolygons : List Polygon :=
  [ Polygon.new [0, 1, 2, 3] false, Polygon.new [3, 2, 4, 5] false, Polygon.new [5, 4, 6, 7] false ]

def hourMesh : Mesh Rat := Mesh.ofLayers [Layer.mk' hourVertices hourPolygons]

/-- C06 and C07 are false without the conditions: on the hourglass, the path from (0,-0.06) straight up to
(0,0.04) is found, its only waypoint is the destination, and its reported length is 0 although the
points are 0.1 apart. -/
theorem C06_C07_false : ∃ p,
    hourMesh.path allBvh ratHeap ⟨false⟩ (Coords.onMesh (v2 0 (-6/100))) (Coords.onMesh (v2 0 (4/100)))
      = .ok (some p) ∧ p.path = [v2 0 (4/100)] ∧ p.length = 0 := by
  have h : resIs (hourMesh.path allBvh ratHeap ⟨false⟩ (Coords.onMesh (v2 0 (-6/100)))
      (Coords.onMesh (v2 0 (4/100)))) (fun r => match r with
        | some p => decide (p.path = [v2 0 (4/100)] ∧ p.length = 0)
        | none => false) = true := by decide +kernel
  obtain ⟨r, h1, h2⟩ := of_resIs h
  cases r with
  | none => simp at h2
  | some p => exact ⟨p, h1, (of_decide_eq_true h2).1, (of_decide_eq_true h2).2⟩

/-- Non-vacuity: a regular last leg, with a bend at the right end of the interval. -/
example : RegularLeg ⟨0, 0⟩ ⟨1, 0⟩ ⟨-1, 1⟩ ⟨-3, -1⟩ ∧
    turningPoint (⟨-1, 1⟩ : Vec2 ℝ) ⟨-3, -1⟩ (⟨0, 0⟩, ⟨1, 0⟩) = some ⟨0, 0⟩ := by
  have hr : RegularLeg ⟨0, 0⟩ ⟨1, 0⟩ ⟨-1, 1⟩ ⟨-3, -1⟩ := by
    refine ⟨.inl ?_, ?_, ?_⟩ <;> norm_num [cross]
  refine ⟨hr, ?_⟩
  have hs : side (⟨-3, -1⟩ : Vec2 ℝ) (⟨-1, 1⟩, ⟨0, 0⟩) = .right := side_right.2 (by norm_num [cross])
  have hb : (⟨-1, 1⟩ : Vec2 ℝ).beq ⟨0, 0⟩ = false := by
    rw [Bool.eq_false_iff, ne_eq, vbeq]
    intro h
    have := congrArg Vec2.x h
    norm_num at this
  unfold turningPoint
  simp only [(leg_unmirrored hr.1).1, hb, hs]
  rfl

end Polyanya
