import Verif.Proofs.Sees
import Verif.Proofs.Estimate
import Verif.Proofs.Unscaled
/-
Lengths in exact arithmetic with the non-finite values: the known length and the heuristic of the nodes of a
query are the numbers they would be over the reals.
-/

namespace Polyanya

theorem fin_distance (p q : Vec2 ℝ) : p.fin.distance q.fin = Ext.fin (dist2 p q) := by
  have h : p.fin.distance q.fin
      = Ext.sqrt (Ext.fin (((p.x -. q.x) *. (p.x -. q.x)) +. ((p.y -. q.y) *. (p.y -. q.y)))) := rfl
  have h0 : ¬ (((p.x -. q.x) *. (p.x -. q.x) +. (p.y -. q.y) *. (p.y -. q.y)) <. Scalar.lit 0 0) = true := by
    rw [ExactField.lt, not_lt]
    simp only [real_add, real_sub, real_mul, real_lit, Int.cast_zero, zero_div]
    exact add_nonneg (mul_self_nonneg _) (mul_self_nonneg _)
  rw [h]
  unfold Ext.sqrt
  simp only
  rw [if_neg h0]
  congr 1
  rw [← distance_eq]
  rfl

theorem ext_div {x y : ℝ} (h : y ≠ 0) : (Ext.fin x /. Ext.fin y : Ext ℝ) = Ext.fin (x / y) := by
  change (if (y ==. Scalar.lit 0 0) = true then _ else Ext.fin (x /. y)) = _
  rw [if_neg, ExactField.div]
  rw [ExactField.eq, ExactField.lit]
  simpa using h

theorem fin_side' (p a b : Vec2 ℝ) : side p.fin (a.fin, b.fin) = side p (a, b) := rfl

theorem fin_mirror {a b g : Vec2 ℝ} (hab : a ≠ b) :
    mirror g.fin (a.fin, b.fin) = (mirror g (a, b)).fin := by
  have hne := sq_ne_zero hab
  have hd : (Scalar.lit 1 0 /. (b.fin - a.fin).dot (b.fin - a.fin) : Ext ℝ)
      = Ext.fin (Scalar.lit 1 0 /. (b - a).dot (b - a)) := by
    change (Ext.fin (Scalar.lit 1 0) /. Ext.fin ((b - a).dot (b - a)) : Ext ℝ) = _
    rw [ext_div (by simpa [Vec2.dot] using hne)]
    rfl
  unfold mirror Vec2.projectOnto
  simp only
  rw [hd]
  rfl

theorem fin_mirroredGoal {a b : Vec2 ℝ} (hab : a ≠ b) (r g : Vec2 ℝ) :
    mirroredGoal r.fin g.fin (a.fin, b.fin) = (mirroredGoal r g (a, b)).fin := by
  unfold mirroredGoal
  rw [fin_side', fin_side']
  split
  · exact fin_mirror hab
  · rfl

/-- The heuristic is the number it would be over the reals, when root and goal are on opposite sides of the line
of the interval (or on the line). -/
theorem fin_heuristic {r g a b : Vec2 ℝ} (hab : a ≠ b) (hr : Clear a b r) (hg : Clear a b g) :
    heuristic r.fin g.fin (a.fin, b.fin) = Ext.fin (heuristic r g (a, b)) := by
  have hop := mirroredGoal_opposite hr hg
  unfold heuristic
  simp only
  rw [fin_mirroredGoal hab]
  generalize mirroredGoal r g (a, b) = g' at hop
  have e1 : r.fin.beq a.fin = r.beq a := rfl
  have e2 : r.fin.beq b.fin = r.beq b := rfl
  rw [e1, e2, fin_distance, fin_distance, fin_distance, fin_distance, fin_distance]
  rw [distance_eq, distance_eq, distance_eq, distance_eq, distance_eq]
  by_cases hb : (r.beq a || r.beq b) = true
  · rw [if_pos hb, if_pos hb]
  rw [if_neg hb, if_neg hb]
  have hadd : ∀ x y : ℝ, (Ext.fin x +. Ext.fin y : Ext ℝ) = Ext.fin (x +. y) := fun _ _ => rfl
  have hit : intersectionTime (r.fin, g'.fin) (a.fin, b.fin)
      = (Ext.fin ((r - a).perpDot (r - g')) /. Ext.fin ((r - g').perpDot (a - b)) : Ext ℝ) := rfl
  have hit' : intersectionTime (r, g') (a, b) = ((r - a).perpDot (r - g')) / ((r - g').perpDot (a - b)) := rfl
  have hden : (r - g').perpDot (a - b) = cross a b r - cross a b g' := by
    simp only [vperp, vsub_x, vsub_y, cross]; ring
  by_cases h0 : (r - g').perpDot (a - b) = 0
  · -- root and goal on the line
    have heq : cross a b r = cross a b g' := by rw [hden] at h0; linarith
    have hr0 : cross a b r = 0 := by
      rw [← heq] at hop
      exact mul_self_eq_zero.1 (le_antisymm hop (mul_self_nonneg _))
    have hnum : (r - a).perpDot (r - g') = 0 := by
      obtain ⟨k, rfl⟩ := on_line hab (show tri a b r = 0 from hr0)
      obtain ⟨k', rfl⟩ := on_line hab (show tri a b g' = 0 from heq.symm.trans hr0)
      simp only [vperp, vsub_x, vsub_y, along]; ring
    rw [hit, hit', h0, hnum]
    have hnan : (Ext.fin (0 : ℝ) /. Ext.fin 0 : Ext ℝ) = Ext.nan := by
      change (if ((0 : ℝ) ==. Scalar.lit 0 0) = true then
        (if ((0 : ℝ) ==. Scalar.lit 0 0) = true then Ext.nan else _) else _) = _
      have : ((0 : ℝ) ==. Scalar.lit 0 0) = true := by rw [ExactField.eq, ExactField.lit]; simp
      rw [if_pos this, if_pos this]
    rw [hnan]
    have n1 : ((Ext.nan : Ext ℝ) <. Scalar.lit 0 0) = false := rfl
    have n2 : ((Scalar.lit 1 0 : Ext ℝ) <. Ext.nan) = false := rfl
    rw [n1, n2, zero_div]
    have z1 : ¬ ((0 : ℝ) <. Scalar.lit 0 0) = true := by rw [ExactField.lt, ExactField.lit]; simp
    have z2 : ¬ ((Scalar.lit 1 0 : ℝ) <. 0) = true := by rw [ExactField.lt, ExactField.lit]; norm_num
    rw [if_neg z1, if_neg z2]
    simp
  · rw [hit, ext_div h0, ← hit']
    have l1 : (Ext.fin (intersectionTime (r, g') (a, b)) <. (Scalar.lit 0 0 : Ext ℝ))
        = (intersectionTime (r, g') (a, b) <. Scalar.lit 0 0) := rfl
    have l2 : ((Scalar.lit 1 0 : Ext ℝ) <. Ext.fin (intersectionTime (r, g') (a, b)))
        = (Scalar.lit 1 0 <. intersectionTime (r, g') (a, b)) := rfl
    rw [l1, l2, hadd, hadd]
    split
    · rfl
    · split <;> rfl

theorem gen_heuristic {q : Query (Ext ℝ)} (hd : q.cfg.detailed = true → q.mesh.Unscaled) {n : SearchNode (Ext ℝ)}
    (h : Gen q n) : n.heuristic = heuristic n.root q.dst.1 n.interval := by
  have key : ∀ {root other start stop node n}, Added q root other start stop node n →
      n.heuristic = heuristic n.root q.dst.1 n.interval := by
    intro root other start stop node n hA
    obtain ⟨newF, hh, -, h2, -, -, rfl⟩ := hA
    replace h2 := newHeuristic_plain hd h2
    unfold newHeuristic at h2
    simp only [Bool.false_eq_true, if_false, Except.ok.injEq] at h2
    simp only [mkNode]
    exact h2.symm
  cases h with
  | setup hs =>
    obtain ⟨layer, poly, edges, edge, vs, ve, -, -, -, -, -, -, -, -, hA⟩ := hs
    exact key hA
  | child hn hch =>
    obtain ⟨layer, succs, su, vs, ve, root, -, -, -, -, -, -, -, -, -, -, -, -, hA⟩ := hch
    exact key hA

/-- The known length of a node is the length of its path. -/
theorem gen_length {q : Query (Ext ℝ)} {start goal : Vec2 ℝ} (hc : Conforming q.mesh)
    (hm : NoNearMiss q.mesh start goal) (hd : q.dst.2 ≠ u32Max) (hsrc : q.src.1 = start.fin)
    (hin : InPolygon q.mesh q.src.2 start) (hdet : q.cfg.detailed = true → q.mesh.Unscaled) {n : SearchNode (Ext ℝ)}
    (h : Gen q n) :
    ∃ ws : List (Vec2 ℝ), n.path = ws.map Vec2.fin ∧ n.root = ((start :: ws).getLast (by simp)).fin
      ∧ n.distanceStartToRoot = Ext.fin (polyLen (start :: ws)) := by
  induction h with
  | @setup n hs =>
    obtain ⟨layer, poly, edges, edge, vs, ve, -, -, -, -, -, -, -, -, hA⟩ := hs
    obtain ⟨newF, hh, h1, -, -, -, rfl⟩ := hA
    have hb : q.src.1.beq (emptyNode q.src).root = true := by
      change q.src.1.beq q.src.1 = true
      rw [hsrc]; exact (fin_beq start start).2 rfl
    unfold newDistance at h1
    rw [if_pos hb] at h1
    simp only [Except.ok.injEq] at h1
    refine ⟨[], ?_, ?_, ?_⟩
    · simp only [mkNode]; rw [if_pos hb]; rfl
    · simp only [mkNode]; exact hsrc
    · simp only [mkNode]
      rw [← h1]
      simp only [polyLen]
      exact ext_zero
  | @child node n hn hch ih =>
    obtain ⟨ws, hp, hr, hl⟩ := ih
    obtain ⟨r', a', b', A', B', s', t', hg'⟩ := gen_geo hc hm hd hsrc hin (Gen.child hn hch)
    obtain ⟨layer, succs, su, vs, ve, root, -, -, -, -, -, -, -, -, -, -, -, -, hA⟩ := hch
    obtain ⟨-, -, -, -, -, hroot⟩ := added_fields hA
    rw [hg'.root] at hroot
    obtain ⟨newF, hh, h1, -, -, -, rfl⟩ := hA
    replace h1 := newDistance_plain hdet h1
    unfold newDistance at h1
    by_cases hb : root.beq node.root = true
    · rw [if_pos hb] at h1
      simp only [Except.ok.injEq] at h1
      refine ⟨ws, ?_, ?_, ?_⟩
      · simp only [mkNode]; rw [if_pos hb]; exact hp
      · simp only [mkNode]
        rw [← hr, ← hroot]
        rw [← hroot, hr, fin_beq] at hb
        rw [hb, hr]
      · simp only [mkNode]; rw [← h1]; exact hl
    · rw [if_neg hb] at h1
      simp only [Bool.false_eq_true, if_false, Except.ok.injEq] at h1
      refine ⟨ws ++ [r'], ?_, ?_, ?_⟩
      · simp only [mkNode]; rw [if_neg hb, hp, ← hroot]; simp
      · simp only [mkNode]; rw [← hroot]; simp
      · simp only [mkNode]
        rw [← h1, hl, hr, ← hroot, fin_distance, ← List.cons_append, polyLen_snoc]
        rfl

end Polyanya
