import Verif.Proofs.Bend
/-
Shortest walks go straight on at vertices that are not flagged as corners.
-/

namespace Polyanya

variable {m : Mesh (Ext ℝ)}

/-- The edge that is crossed is an edge of the polygon that is left. -/
theorem Conforming.left (hc : Conforming m) {c : Crossing} (hv : c.Valid m) {A B : Vec2 ℝ} (hat : c.At m A B) :
    ∃ ps, Ring m c.src ps ∧ Consecutive ps A B := by
  obtain ⟨l, p, va, vb, hp, he, h0, h1, -⟩ := id hv
  obtain ⟨l', hl', ⟨va', hva, hva'⟩, ⟨vb', hvb, hvb'⟩⟩ := id hat
  obtain rfl : l' = l := Option.some.inj (hl'.symm.trans hp.1)
  obtain ⟨ps, hring, -⟩ := hc.convex _ _ _ hp
  refine ⟨ps, hring, ?_⟩
  obtain ⟨l3, p3, hp3, hf⟩ := id hring
  obtain rfl : l3 = l' := Option.some.inj (hp3.1.symm.trans hp.1)
  obtain rfl : p3 = p := Option.some.inj (hp3.2.symm.trans hp.2)
  obtain ⟨i, hi, hia, hib⟩ := he
  obtain ⟨A1, hA1, hA2⟩ := forall₂_getElem hf hia
  obtain ⟨B1, hB1, hB2⟩ := forall₂_getElem hf hib
  obtain rfl : A1 = A := hA2.unique ⟨va', hva, hva'⟩
  obtain rfl : B1 = B := hB2.unique ⟨vb', hvb, hvb'⟩
  exact ⟨i, by rw [← hf.length_eq]; exact hi, hA1, by rw [← hf.length_eq]; exact hB1⟩

theorem Conforming.leaves (hc : Conforming m) {c : Crossing} (hv : c.Valid m) {A B y : Vec2 ℝ} (hat : c.At m A B)
    (hy : Between A B y) : InPolygon m c.src y := by
  obtain ⟨ps, hr, hcon⟩ := hc.left hv hat
  have h := hc.ring_convex hr
  exact ⟨ps, hr, (h.mem_inside hcon.mem.1).between (h.mem_inside hcon.mem.2) hy⟩

theorem Conforming.at_ne (hc : Conforming m) {c : Crossing} (hv : c.Valid m) {A B : Vec2 ℝ} (hat : c.At m A B) :
    A ≠ B := by
  obtain ⟨ps, hr, hcon⟩ := hc.left hv hat
  exact (hc.ring_convex hr).edge_ne hcon

/-- The last polygon of a straight walk in which it does more than touch the end. -/
theorem Straight.before (hc : Conforming m) {s e : UInt32} {p v : Vec2 ℝ} (h : Straight m s p e v) (hne : p ≠ v) :
    ∃ P p', Straight m s p P p' ∧ InPolygon m P v ∧ p' ≠ v ∧ Between p v p' := by
  induction h with
  | stay h1 h2 => exact ⟨_, _, .stay h1 h1, h2, hne, Between.left _ _⟩
  | @cross c e p y q A B hp hv hat hb hpq hrest ih =>
    by_cases hy : y = q
    · subst hy
      exact ⟨_, p, .stay hp hp, hc.leaves hv hat hb, hne, Between.left _ _⟩
    · obtain ⟨P, p', h1, h2, h3, h4⟩ := ih hy
      obtain ⟨w, w0, w1, rfl⟩ := hpq
      obtain ⟨u, u0, u1, rfl⟩ := h4
      have e : along (along p q w) q u = along p q (w + u * (1 - w)) := by
        have := along_along p q w 1 u
        rwa [along_one] at this
      have hm := mul_nonneg u0 (show 0 ≤ 1 - w by linarith)
      have hm1 := mul_le_of_le_one_left (show 0 ≤ 1 - w by linarith) u1
      refine ⟨P, _, .cross hp hv hat hb ?_ h1, h2, h3, ?_⟩
      · rw [e]
        rcases eq_or_lt_of_le (show 0 ≤ w + u * (1 - w) by linarith) with h0 | h0
        · have : w = 0 := by linarith
          rw [this, along_zero]
          exact Between.left _ _
        · refine ⟨w / (w + u * (1 - w)), by positivity, (div_le_one h0).2 (by linarith), ?_⟩
          have hd := div_mul_cancel₀ w h0.ne'
          generalize w / (w + u * (1 - w)) = k at hd
          simp only [along, Vec2.ext_iff']
          constructor
          · linear_combination (-(q.x - p.x)) * hd
          · linear_combination (-(q.y - p.y)) * hd
      · exact ⟨_, by linarith, by linarith, e⟩

/-- The first polygon of a route in which it does more than touch its start. -/
theorem Route.after (hc : Conforming m) {e : UInt32} {v goal : Vec2 ℝ} :
    ∀ {rs : List (Crossing × Vec2 ℝ)} {s : UInt32}, Route m s v e goal rs →
    ∃ Q ws, InPolygon m Q v ∧ InPolygon m Q (ahead v goal rs) ∧ Walk m Q (ahead v goal rs) e goal ws
      ∧ dist2 v (ahead v goal rs) + polyLen (ahead v goal rs :: ws) ≤ routeLen v goal rs := by
  intro rs
  induction rs with
  | nil =>
    intro s h
    obtain rfl := h.nil_eq
    exact ⟨_, [], h.src_in, h.dst_in, .nil h.dst_in, by simp [polyLen, ahead, routeLen]⟩
  | cons cz rs ih =>
    obtain ⟨c, z⟩ := cz
    intro s h
    obtain ⟨rfl, hin, hv, ⟨A, B, hat, hb⟩, hrest⟩ := h.uncons
    by_cases hz : z = v
    · subst hz
      obtain ⟨Q, ws, h1, h2, h3, h4⟩ := ih hrest
      simp only [ahead, if_true, routeLen, dist2_self, zero_add]
      exact ⟨Q, ws, h1, h2, h3, h4⟩
    · obtain ⟨w1, w2⟩ := hrest.walk hc
      simp only [ahead, if_neg hz, routeLen]
      refine ⟨c.src, z :: (rs.map (·.2) ++ [goal]), hin, hc.leaves hv hat hb, .cons (.cross (hc.leaves hv hat hb) hv hat hb
        (Between.left _ _) (.stay hrest.src_in hrest.src_in)) w1, ?_⟩
      rw [polyLen, w2, dist2_self, zero_add]

variable {q : Query (Ext ℝ)} {start goal : Vec2 ℝ} {opt : ℝ}

theorem ahead_neq {y goal : Vec2 ℝ} (h : goal ≠ y) : ∀ rs : List (Crossing × Vec2 ℝ), ahead y goal rs ≠ y
  | [] => h
  | (c, z) :: rs => by
    by_cases hz : z = y
    · simp only [ahead, if_pos hz]; exact ahead_neq h rs
    · simp only [ahead, if_neg hz]; exact hz

/-- A point on a shortest route is flagged or surrounded. -/
theorem Setting.good (hs : Setting q start goal) (hl : Least q start goal opt) {ws : List (Vec2 ℝ)} {id : UInt32}
    {v : Vec2 ℝ} {rs : List (Crossing × Vec2 ℝ)} (hw : Walk q.mesh q.src.2 start id v ws)
    (hr : Route q.mesh id v q.dst.2 goal rs) (hcost : polyLen (start :: ws) + routeLen v goal rs ≤ opt) :
    Flagged q.mesh v ∨ (Surrounded q.mesh v ∧ v ≠ start ∧ v ≠ goal) := by
  obtain ⟨w1, w2⟩ := hr.walk hs.conforming
  obtain ⟨w3, w4⟩ := hw.append (Walk.cons (.stay hr.src_in hr.src_in) w1)
  refine hs.nav.corners _ ⟨w3, fun ws' hw' => ?_⟩ v (by simp)
  have := hl _ hw'
  rw [w4, polyLen, dist2_self, zero_add, w2]
  linarith

theorem Setting.straightOn (hs : Setting q start goal) (hl : Least q start goal opt) : StraightOn q start goal opt := by
  intro ws pr p id v rs hw hst hr hcost
  have hc := hs.conforming
  obtain ⟨w1, w2⟩ := hw.append (Walk.cons hst (.nil hst.dst_in))
  rcases hs.good hl w1 hr (by rw [w2]; simp only [polyLen]; linarith) with h | ⟨hsur, -, hgoal⟩
  · exact .inl h
  right
  by_contra hcon
  have hpv : p ≠ v := by
    rintro rfl
    exact hcon (Between.left _ _)
  obtain ⟨P, p', h1, h2, h3, h4⟩ := hst.before hc hpv
  obtain ⟨Q, ws', g1, g2, g3, g4⟩ := hr.after hc
  have hf := ahead_neq hgoal.symm rs
  generalize hfe : ahead v goal rs = f at *
  have hcon' : ¬ Between p' f v := by
    intro hb
    obtain ⟨w, w0, w1, rfl⟩ := h4
    have hw1 : w ≠ 1 := by rintro rfl; exact h3 (along_one _ _)
    have e : along p v w = along v p (1 - w) := by
      simp only [along, Vec2.ext_iff']; constructor <;> ring
    rw [e] at hb
    refine hcon (between_scale (s := 1 - w) (t := 1) (lt_of_le_of_ne (by linarith) (fun h => hw1 (by linarith))) one_pos ?_)
    rwa [along_one]
  obtain ⟨s, t, Q', s0, s1, t0, t1, k1, k2⟩ := cut_bend hc hsur h1.dst_in h2 g2 g1 hf hcon'
  have b1 : Between p' v (along v p' s) := Between.symm ⟨s, s0.le, s1, rfl⟩
  have b2 : Between v f (along v f t) := ⟨t, t0.le, t1, rfl⟩
  obtain ⟨x1, y1⟩ := hw.append (Walk.cons h1 (Walk.cons (.stay h1.dst_in k1.src_in) (Walk.cons k1 (Walk.cons k2
    (Walk.cons (.stay k2.dst_in g2) g3)))))
  have hopt := hl _ x1
  rw [y1] at hopt
  simp only [polyLen, dist2_self] at hopt
  have d1 := dist2_between h4
  have d2 := dist2_between b1
  have d3 := dist2_between b2
  have tri1 := dist2_triangle (along v p' s) v (along v f t)
  have hq : dist2 (along v p' s) v + dist2 v (along v f t) = dist2 (along v p' s) (along v f t) := by linarith
  exact hcon' (between_scale s0 t0 (between_of_dist hq))

end Polyanya
