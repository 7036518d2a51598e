import Verif.Spec.Walk
import Mathlib.Tactic.Linarith
import Mathlib.Tactic.LinearCombination
import Mathlib.Tactic.FieldSimp
/-
The operations of the model on finite coordinates, in exact arithmetic.
-/

namespace Polyanya

variable {F : Type} [Field F] [LinearOrder F] [Scalar F] [ExactField F]

omit [Field F] [LinearOrder F] [Scalar F] [ExactField F] in
theorem Vec2.ext_iff' {p q : Vec2 F} : p = q ↔ p.x = q.x ∧ p.y = q.y := by
  cases p; cases q; simp

theorem fin_sub (p q : Vec2 F) : p.fin - q.fin = (⟨p.x - q.x, p.y - q.y⟩ : Vec2 F).fin := by
  change (⟨Ext.fin (p.x -. q.x), Ext.fin (p.y -. q.y)⟩ : Vec2 (Ext F)) = _
  rw [ExactField.sub, ExactField.sub]; rfl

theorem fin_add (p q : Vec2 F) : p.fin + q.fin = (⟨p.x + q.x, p.y + q.y⟩ : Vec2 F).fin := by
  change (⟨Ext.fin (p.x +. q.x), Ext.fin (p.y +. q.y)⟩ : Vec2 (Ext F)) = _
  rw [ExactField.add, ExactField.add]; rfl

theorem fin_perpDot (p q : Vec2 F) : p.fin.perpDot q.fin = Ext.fin (p.x * q.y - p.y * q.x) := by
  change Ext.fin ((p.x *. q.y) -. (p.y *. q.x)) = _
  rw [ExactField.sub, ExactField.mul, ExactField.mul]

theorem fin_distanceSquared (p q : Vec2 F) : p.fin.distanceSquared q.fin = Ext.fin (sqDist p q) := by
  unfold Vec2.distanceSquared
  rw [fin_sub]
  change Ext.fin (((p.x - q.x) *. (p.x - q.x)) +. ((p.y - q.y) *. (p.y - q.y))) = _
  rw [ExactField.add, ExactField.mul, ExactField.mul]; rfl

theorem fin_beq (p q : Vec2 F) : p.fin.beq q.fin = true ↔ p = q := by
  change ((p.x ==. q.x) && (p.y ==. q.y)) = true ↔ _
  rw [Bool.and_eq_true, ExactField.eq, ExactField.eq, Vec2.ext_iff']

theorem ext_lt (a b : F) : (Ext.fin a <. Ext.fin b) = true ↔ a < b := ExactField.lt a b

theorem ext_le (a b : F) : (Ext.fin a <=. Ext.fin b) = true ↔ a ≤ b := ExactField.le a b

theorem ext_lit (m : Int) (e : Nat) : (Scalar.lit m e : Ext F) = Ext.fin ((m : F) / 10 ^ e) := by
  change Ext.fin (Scalar.lit m e) = _
  rw [ExactField.lit]

variable [IsStrictOrderedRing F]

theorem ext_eps : (epsilon : Ext F) = Ext.fin (1 / 10000 : F) := by
  unfold epsilon; rw [ext_lit]; norm_num

theorem ext_zero : (Scalar.lit 0 0 : Ext F) = Ext.fin (0 : F) := by rw [ext_lit]; norm_num

theorem ext_one : (Scalar.lit 1 0 : Ext F) = Ext.fin (1 : F) := by rw [ext_lit]; norm_num

theorem ext_tol6 : (tol6 : Ext F) = Ext.fin (1 / 1000000 : F) := by
  unfold tol6; rw [ext_lit]; norm_num

theorem ext_tol10 : (tol10 : Ext F) = Ext.fin (1 / 10000000000 : F) := by
  unfold tol10; rw [ext_lit]; norm_num

theorem fin_side (p a b : Vec2 F) : side p.fin (a.fin, b.fin) =
    if |tri a b p| < 1 / 10000 then .edge else if 0 < tri a b p then .left else .right := by
  unfold side
  simp only [fin_sub, fin_perpDot, ext_eps, ext_zero]
  have hx : (b.x - a.x) * (p.y - a.y) - (b.y - a.y) * (p.x - a.x) = tri a b p := rfl
  have habs : Scalar.abs (Ext.fin (tri a b p)) = Ext.fin |tri a b p| := by
    change Ext.fin (Scalar.abs (tri a b p)) = _
    rw [ExactField.abs]
  rw [hx, habs]
  simp only [ext_lt]

theorem fin_side_right {p a b : Vec2 F} (h : |tri a b p| < 1 / 10000 → tri a b p = 0) :
    side p.fin (a.fin, b.fin) = .right ↔ tri a b p < 0 := by
  rw [fin_side]
  split
  · rename_i h1; simp [h h1]
  · split
    · rename_i h2; simp [h2.le]
    · rename_i h1 h2
      simp only [true_iff]
      refine lt_of_le_of_ne (not_lt.1 h2) ?_
      intro h0; rw [h0] at h1; norm_num at h1

theorem fin_side_left {p a b : Vec2 F} (h : |tri a b p| < 1 / 10000 → tri a b p = 0) :
    side p.fin (a.fin, b.fin) = .left ↔ 0 < tri a b p := by
  rw [fin_side]
  split
  · rename_i h1; simp [h h1]
  · split
    · rename_i h2; simp [h2]
    · rename_i h1 h2; simp [h2]

theorem fin_side_edge {p a b : Vec2 F} (h : |tri a b p| < 1 / 10000 → tri a b p = 0) :
    side p.fin (a.fin, b.fin) = .edge ↔ tri a b p = 0 := by
  rw [fin_side]
  split
  · rename_i h1; simp [h h1]
  · rename_i h1
    have : tri a b p ≠ 0 := by intro h0; rw [h0] at h1; norm_num at h1
    split <;> simp [this]

theorem fin_along (c d : Vec2 F) (t : F) :
    c.fin + Vec2.lsmul (Ext.fin t) (d.fin - c.fin) = (along c d t).fin := by
  rw [fin_sub]
  have : Vec2.lsmul (Ext.fin t) (⟨d.x - c.x, d.y - c.y⟩ : Vec2 F).fin
      = (⟨t * (d.x - c.x), t * (d.y - c.y)⟩ : Vec2 F).fin := by
    change (⟨Ext.fin (t *. (d.x - c.x)), Ext.fin (t *. (d.y - c.y))⟩ : Vec2 (Ext F)) = _
    rw [ExactField.mul, ExactField.mul]; rfl
  rw [this, fin_add]; rfl

/-- The intersection of the line through `r` and `a` with the segment from `c` to `d`. -/
theorem fin_intersect (r a c d : Vec2 F) (x : Vec2 (Ext F)) :
    lineIntersectSegment (r.fin, a.fin) (c.fin, d.fin) = some x ↔
      tri r a c ≠ tri r a d ∧ ∃ t, t * (tri r a c - tri r a d) = tri r a c ∧ -(1 / 10000) ≤ t
        ∧ t ≤ 1 + 1 / 10000 ∧ x = (along c d t).fin := by
  unfold lineIntersectSegment intersectionTime
  simp only [fin_sub, fin_perpDot]
  have h1 : (r.x - c.x) * (r.y - a.y) - (r.y - c.y) * (r.x - a.x) = -tri r a c := by
    unfold tri; ring
  have h2 : (r.x - a.x) * (c.y - d.y) - (r.y - a.y) * (c.x - d.x) = -(tri r a c - tri r a d) := by
    unfold tri; ring
  rw [h1, h2]
  have hlo : Scalar.neg (epsilon : Ext F) = Ext.fin (-(1 / 10000)) := by
    rw [ext_eps]
    change Ext.fin (Scalar.neg _) = _
    rw [ExactField.neg]
  have hhi : (Scalar.lit 1 0 : Ext F) +. epsilon = Ext.fin (1 + 1 / 10000) := by
    rw [ext_eps, ext_one]
    change Ext.fin (_ +. _) = _
    rw [ExactField.add]
  rw [hlo, hhi]
  by_cases hd : tri r a c = tri r a d
  · have hz : (-(tri r a c - tri r a d) ==. (Scalar.lit 0 0 : F)) = true := by
      rw [ExactField.eq, ExactField.lit, hd]; norm_num
    have hdiv : Ext.fin (-tri r a c) /. Ext.fin (-(tri r a c - tri r a d))
        = if (-tri r a c ==. (Scalar.lit 0 0 : F)) = true then Ext.nan
          else Ext.inf (-tri r a c <. (Scalar.lit 0 0 : F)) := by
      change (if (-(tri r a c - tri r a d) ==. (Scalar.lit 0 0 : F)) = true then _ else _) = _
      rw [if_pos hz]
    rw [hdiv]
    have : ¬ (tri r a c ≠ tri r a d) := fun h => h hd
    simp only [this, false_and, iff_false]
    have hX : ∀ X : Ext F, (X = .nan ∨ ∃ b, X = .inf b) →
        (!(inRange (Ext.fin (-(1 / 10000))) (Ext.fin (1 + 1 / 10000)) X) || Scalar.isNan X) = true := by
      rintro X (rfl | ⟨b, rfl⟩)
      · exact Bool.or_true _
      · cases b
        · change (!((true && false)) || false) = true; rfl
        · change (!((false && true)) || false) = true; rfl
    rw [if_pos (hX _ (by split; exacts [.inl rfl, .inr ⟨_, rfl⟩]))]
    simp
  · have hne : -(tri r a c - tri r a d) ≠ 0 := fun h => hd (by linarith)
    have hz : ¬ (-(tri r a c - tri r a d) ==. (Scalar.lit 0 0 : F)) = true := by
      rw [ExactField.eq, ExactField.lit]
      intro h; apply hne; rw [h]; norm_num
    have hdiv : Ext.fin (-tri r a c) /. Ext.fin (-(tri r a c - tri r a d))
        = Ext.fin (tri r a c / (tri r a c - tri r a d)) := by
      change (if (-(tri r a c - tri r a d) ==. (Scalar.lit 0 0 : F)) = true then _ else _) = _
      rw [if_neg hz, ExactField.div, neg_div_neg_eq]
    rw [hdiv]
    have hne' : tri r a c - tri r a d ≠ 0 := fun h => hd (by linarith)
    have hnan : Scalar.isNan (Ext.fin (tri r a c / (tri r a c - tri r a d))) = false := rfl
    rw [hnan, ← fin_sub, fin_along]
    simp only [inRange, Bool.or_false, Bool.not_eq_true', Bool.and_eq_false_iff, ne_eq, hd,
      not_false_eq_true, true_and]
    constructor
    · intro h
      split at h
      · simp at h
      · rename_i hr
        simp only [not_or, Bool.not_eq_false, ext_le] at hr
        exact ⟨_, div_mul_cancel₀ _ hne', hr.1, hr.2, (Option.some.inj h).symm⟩
    · rintro ⟨t, ht, h0, h3, rfl⟩
      have : tri r a c / (tri r a c - tri r a d) = t := (div_eq_iff hne').2 ht.symm
      rw [this, if_neg]
      simp only [not_or, Bool.not_eq_false, ext_le]
      exact ⟨h0, h3⟩

end Polyanya
