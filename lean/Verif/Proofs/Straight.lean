import Verif.Proofs.Between
import Verif.Spec.Shortest
/-
Straight walks and the geometric invariant of search nodes, in exact arithmetic without near misses.
-/

namespace Polyanya

variable {F : Type} [Field F] [LinearOrder F] [Scalar F]

theorem Straight.src_in {m : Mesh (Ext F)} {s e : UInt32} {p q : Vec2 F} (h : Straight m s p e q) :
    InPolygon m s p := by
  cases h <;> assumption

theorem Straight.dst_in {m : Mesh (Ext F)} {s e : UInt32} {p q : Vec2 F} (h : Straight m s p e q) :
    InPolygon m e q := by
  induction h with
  | stay _ hq => exact hq
  | cross _ _ _ _ _ _ ih => exact ih

theorem Walk.snoc {m : Mesh (Ext F)} {s e e' : UInt32} {p q w : Vec2 F} {ws : List (Vec2 F)}
    (h : Walk m s p e q ws) (h2 : Straight m e q e' w) : Walk m s p e' w (ws ++ [w]) := by
  induction h with
  | nil _ => exact .cons h2 (.nil h2.dst_in)
  | cons h1 _ ih => exact .cons h1 (ih h2)

variable [ExactField F] [IsStrictOrderedRing F]

/-- A straight walk goes on in the last polygon. -/
theorem Straight.extend {m : Mesh (Ext F)} {s e : UInt32} {p q q' : Vec2 F} (h : Straight m s p e q)
    (hb : Between p q' q) (hq : InPolygon m e q') : Straight m s p e q' := by
  induction h with
  | stay hp _ => exact .stay hp hq
  | cross hp hv hat hAB hpq _ ih =>
    obtain ⟨h1, h2⟩ := hpq.trans_left hb
    exact .cross hp hv hat hAB h1 (ih h2 hq)

/-- A straight walk that ends on a shared edge ends in the polygon on the other side. -/
theorem Straight.snoc {m : Mesh (Ext F)} {s e : UInt32} {c : Crossing} {p q A B : Vec2 F}
    (h : Straight m s p e q) (he : c.src = e) (hv : c.Valid m) (hat : c.At m A B) (hAB : Between A B q)
    (hq : InPolygon m c.dst q) : Straight m s p c.dst q := by
  induction h with
  | stay hp _ =>
    subst he
    exact .cross hp hv hat hAB (Between.right _ _) (.stay hq hq)
  | cross hp hv' hat' hAB' hpq _ ih => exact .cross hp hv' hat' hAB' hpq (ih he hAB hq)

/-! ### Lines -/

omit [Scalar F] [ExactField F] in
theorem sq_ne_zero {p q : Vec2 F} (h : p ≠ q) :
    (q.x - p.x) * (q.x - p.x) + (q.y - p.y) * (q.y - p.y) ≠ 0 := by
  intro h0
  apply h
  have hx := mul_self_nonneg (q.x - p.x)
  have hy := mul_self_nonneg (q.y - p.y)
  have ex : q.x - p.x = 0 := mul_self_eq_zero.1 (by linarith)
  have ey : q.y - p.y = 0 := mul_self_eq_zero.1 (by linarith)
  rw [Vec2.ext_iff']
  constructor <;> linarith

omit [Scalar F] [ExactField F] in
/-- Points of a line. -/
theorem on_line {p q x : Vec2 F} (h : p ≠ q) (h0 : tri p q x = 0) : ∃ k, x = along p q k := by
  have hne := sq_ne_zero h
  refine ⟨((x.x - p.x) * (q.x - p.x) + (x.y - p.y) * (q.y - p.y)) /
    ((q.x - p.x) * (q.x - p.x) + (q.y - p.y) * (q.y - p.y)), ?_⟩
  have hk := div_mul_cancel₀ ((x.x - p.x) * (q.x - p.x) + (x.y - p.y) * (q.y - p.y)) hne
  generalize ((x.x - p.x) * (q.x - p.x) + (x.y - p.y) * (q.y - p.y)) /
    ((q.x - p.x) * (q.x - p.x) + (q.y - p.y) * (q.y - p.y)) = k at hk
  rw [Vec2.ext_iff']
  simp only [tri] at h0
  simp only [along]
  constructor
  · apply mul_right_cancel₀ hne
    linear_combination -(q.x - p.x) * hk - (q.y - p.y) * h0
  · apply mul_right_cancel₀ hne
    linear_combination -(q.y - p.y) * hk + (q.x - p.x) * h0

omit [Scalar F] [ExactField F] in
/-- Two lines meet once. -/
theorem same_point {r a C D p q : Vec2 F} (hne : tri r a C ≠ tri r a D) (hp : tri C D p = 0)
    (hq : tri C D q = 0) (hp' : tri r a p = 0) (hq' : tri r a q = 0) : p = q := by
  have hCD : C ≠ D := by rintro rfl; exact hne rfl
  obtain ⟨k, rfl⟩ := on_line hCD hp
  obtain ⟨l, rfl⟩ := on_line hCD hq
  rw [tri_along] at hp' hq'
  have : (k - l) * (tri r a C - tri r a D) = 0 := by linear_combination hq' - hp'
  rcases mul_eq_zero.1 this with h | h
  · rw [sub_eq_zero.1 h]
  · exact absurd (sub_eq_zero.1 h) hne

/-! ### Eyes and sight lines -/

omit [ExactField F] in
/-- The line of sight goes on behind the interval. -/
theorem Sight.behind {m : Mesh (Ext F)} {start r A B a C D i : Vec2 F} (h : Sight m start r A B a)
    (hE : IsEdgeAt m C D) (hv : ∀ x, x = A ∨ x = B → IsVertex m x)
    (hne : tri r a C ≠ tri r a D) (h0 : tri r a i = 0) (h1 : tri C D i = 0) : Sight m start r C D i := by
  refine ⟨hE, .inr (.inr ?_)⟩
  have hra : r ≠ a := by rintro rfl; simp at hne
  obtain ⟨-, h | h | ⟨w, hw, hwne, hw0, -⟩⟩ := h
  · exact ⟨a, .inr (hv a (.inl h)), hne, h0, h1⟩
  · exact ⟨a, .inr (hv a (.inr h)), hne, h0, h1⟩
  · have hrw : r ≠ w := by rintro rfl; simp at hwne
    obtain ⟨k, hk⟩ := on_line hrw hw0
    have hs : ∀ X, tri r a X = k * tri r w X := by
      intro X; rw [hk]; simp only [tri, along]; ring
    have hk0 : k ≠ 0 := by
      rintro rfl
      rw [along_zero] at hk
      exact hra hk.symm
    refine ⟨w, hw, ?_, ?_, h1⟩
    · intro heq
      apply hne
      rw [hs, hs, heq]
    · rw [hs] at h0
      exact (mul_eq_zero.1 h0).resolve_left hk0

/-- What is known of a search node. -/
structure NodeGeo (m : Mesh (Ext F)) (src : UInt32) (start : Vec2 F) (n : SearchNode (Ext F))
    (r a b A B : Vec2 F) (s t : F) : Prop where
  root : n.root = r.fin
  interval : n.interval = (a.fin, b.fin)
  at_ : n.crossing.At m A B
  ha : a = along A B s
  hb : b = along A B t
  s0 : 0 ≤ s
  st : s < t
  t1 : t ≤ 1
  hr : 0 ≤ tri A B r
  flat : tri A B r = 0 → s = 0 ∧ t = 1
  eye : Eye m start r
  sightA : Sight m start r A B a
  sightB : Sight m start r A B b
  walk : ∃ ws pr, n.path = ws.map Vec2.fin ∧ Walk m src start pr r ws
    ∧ (∀ x, Between a b x → Straight m pr r n.polygonTo x)
    ∧ Touches m src start pr r
    ∧ ∀ x, (x = a ∧ a ≠ A) ∨ (x = b ∧ b ≠ B) →
      ∃ p, Between r x p ∧ p ≠ x ∧ Straight m pr r n.polygonFrom p

omit [ExactField F] [IsStrictOrderedRing F] in
theorem Ring.isVertex {m : Mesh (Ext F)} {id : UInt32} {ps : List (Vec2 F)} (h : Ring m id ps)
    {v : Vec2 F} (hv : v ∈ ps) : IsVertex m v := by
  obtain ⟨l, p, hp, hf⟩ := h
  obtain ⟨i, hi⟩ := List.mem_iff_getElem?.1 hv
  obtain ⟨x, -, hx⟩ := forall₂_getElem' hf hi
  exact ⟨l, List.mem_of_getElem? hp.1, x, hx⟩

omit [ExactField F] [IsStrictOrderedRing F] in
theorem Consecutive.mem {ps : List (Vec2 F)} {a b : Vec2 F} (h : Consecutive ps a b) :
    a ∈ ps ∧ b ∈ ps := by
  obtain ⟨i, -, h1, h2⟩ := h
  exact ⟨List.mem_of_getElem? h1, List.mem_of_getElem? h2⟩

omit [ExactField F] [IsStrictOrderedRing F] in
theorem IsEdgeAt.isVertex {m : Mesh (Ext F)} {A B : Vec2 F} (h : IsEdgeAt m A B) :
    ∀ x, x = A ∨ x = B → IsVertex m x := by
  obtain ⟨id, ps, hr, hc⟩ := h
  rintro x (rfl | rfl)
  · exact hr.isVertex hc.mem.1
  · exact hr.isVertex hc.mem.2

omit [Scalar F] [ExactField F] [IsStrictOrderedRing F] in
theorem consecutive_of_succ {ws : List (Vec2 F)} {k : Nat} {C D : Vec2 F} (hC : ws[k]? = some C)
    (hD : ws[k + 1]? = some D) : Consecutive ws C D := by
  have hk : k + 1 < ws.length := (List.getElem?_eq_some_iff.1 hD).1
  exact ⟨k, by omega, hC, by rw [Nat.mod_eq_of_lt hk]; exact hD⟩

omit [ExactField F] in
/-- Without near misses, what is known of a node gives a view into its polygon. -/
theorem NodeGeo.view {m : Mesh (Ext F)} {src : UInt32} {start goal : Vec2 F} {n : SearchNode (Ext F)}
    {r a b A B : Vec2 F} {s t : F} (h : NodeGeo m src start n r a b A B s t)
    (hm : NoNearMiss m start goal) {id : UInt32} {ps : List (Vec2 F)} (hring : Ring m id ps) {k : Nat}
    (hfan : Fan (ps.rotate k) A B) : View (ps.rotate k) A B r a b s t := by
  have hvert : ∀ (j : Nat) (v : Vec2 F), (ps.rotate k)[j]? = some v → IsVertex m v := fun j v hv =>
    hring.isVertex (List.mem_rotate.1 (List.mem_of_getElem? hv))
  have hedge : ∀ (j : Nat) (C D : Vec2 F), (ps.rotate k)[j]? = some C → (ps.rotate k)[j + 1]? = some D →
      IsEdgeAt m C D := fun j C D hC hD =>
    ⟨id, ps, hring, (consecutive_rotate k).1 (consecutive_of_succ hC hD)⟩
  have hAB := h.sightA.1.isVertex
  refine { fan := hfan, ha := h.ha, hb := h.hb, s0 := h.s0, st := h.st, t1 := h.t1, hr := h.hr,
           sideA := ?_, sideB := ?_, hitA := ?_, hitB := ?_, endA := ?_, endB := ?_ }
  · exact fun j v hv => hm.sides r A B a v h.eye h.sightA (.inl (hvert j v hv))
  · exact fun j v hv => hm.sides r A B b v h.eye h.sightB (.inl (hvert j v hv))
  · exact fun j C D u hC hD => hm.hits r A B a C D u h.eye h.sightA (hedge j C D hC hD)
  · exact fun j C D u hC hD => hm.hits r A B b C D u h.eye h.sightB (hedge j C D hC hD)
  · intro j C D i v hC hD h0 h1 hne hv
    exact hm.ends r C D i v h.eye (h.sightA.behind (hedge j C D hC hD) hAB hne h0 h1) hv
  · intro j C D i v hC hD h0 h1 hne hv
    exact hm.ends r C D i v h.eye (h.sightB.behind (hedge j C D hC hD) hAB hne h0 h1) hv

end Polyanya
