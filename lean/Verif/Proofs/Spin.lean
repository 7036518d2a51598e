import Verif.Proofs.Cover
import Verif.Proofs.SameRoot
/-
Turning around a vertex that is surrounded by polygons.
-/

namespace Polyanya

/-! ### Corners of convex polygons -/

theorem StrictlyConvex.edge_pos {ps : List (Vec2 ℝ)} (h : StrictlyConvex ps) {C D x : Vec2 ℝ}
    (hCD : Consecutive ps C D) (hx : x ∈ ps) (hC : x ≠ C) (hD : x ≠ D) : 0 < tri C D x := by
  obtain ⟨i, hi, h1, h2⟩ := hCD
  have hf := fan_of_consecutive h hi h1 h2
  have hx' : x ∈ ps.rotate (i + 1) := List.mem_rotate.2 hx
  obtain ⟨k, hk⟩ := List.mem_iff_getElem?.1 hx'
  have hlen := hf.len
  have hk' : k < (ps.rotate (i + 1)).length := (List.getElem?_eq_some_iff.1 hk).1
  have k0 : k ≠ 0 := by
    rintro rfl
    exact hD (Option.some.inj (hk.symm.trans hf.first))
  have k1 : k ≠ (ps.rotate (i + 1)).length - 1 := by
    rintro rfl
    exact hC (Option.some.inj (hk.symm.trans hf.last))
  have := hf.inner_neg hk (by omega) (by omega)
  rw [tri_swap] at this
  linarith

theorem StrictlyConvex.edge_ne {ps : List (Vec2 ℝ)} (h : StrictlyConvex ps) {C D : Vec2 ℝ}
    (hCD : Consecutive ps C D) : C ≠ D := by
  obtain ⟨i, hi, h1, h2⟩ := hCD
  rintro rfl
  have := h.injective h1 h2
  have hlen := h.1
  rcases Nat.lt_or_ge (i + 1) ps.length with h3 | h3
  · rw [Nat.mod_eq_of_lt h3] at this; omega
  · have h4 : i + 1 = ps.length := by omega
    rw [h4, Nat.mod_self] at this
    omega

theorem StrictlyConvex.mem_inside {ps : List (Vec2 ℝ)} (h : StrictlyConvex ps) {x : Vec2 ℝ} (hx : x ∈ ps) :
    Inside ps x := by
  intro a b hab
  by_cases h1 : x = a
  · subst h1; simp
  by_cases h2 : x = b
  · subst h2; simp [tri]; ring_nf; exact le_rfl
  · exact (h.edge_pos hab hx h1 h2).le

theorem exists_next {ps : List (Vec2 ℝ)} {v : Vec2 ℝ} (h : v ∈ ps) : ∃ b, Consecutive ps v b := by
  obtain ⟨i, hi⟩ := List.mem_iff_getElem?.1 h
  have hi' : i < ps.length := (List.getElem?_eq_some_iff.1 hi).1
  exact ⟨_, i, hi', hi, List.getElem?_eq_getElem (Nat.mod_lt _ (by omega))⟩

theorem exists_prev {ps : List (Vec2 ℝ)} {v : Vec2 ℝ} (h : v ∈ ps) : ∃ a, Consecutive ps a v := by
  obtain ⟨i, hi⟩ := List.mem_iff_getElem?.1 h
  have hi' : i < ps.length := (List.getElem?_eq_some_iff.1 hi).1
  rcases Nat.eq_zero_or_pos i with rfl | h0
  · refine ⟨_, ps.length - 1, by omega, List.getElem?_eq_getElem (by omega), ?_⟩
    rw [Nat.sub_add_cancel (by omega), Nat.mod_self]
    exact hi
  · refine ⟨_, i - 1, by omega, List.getElem?_eq_getElem (by omega), ?_⟩
    rw [Nat.sub_add_cancel (by omega), Nat.mod_eq_of_lt hi']
    exact hi

theorem StrictlyConvex.two_steps {ps : List (Vec2 ℝ)} (h : StrictlyConvex ps) {a v b : Vec2 ℝ}
    (h1 : Consecutive ps a v) (h2 : Consecutive ps v b) : a ≠ b := by
  have hlen := h.1
  obtain ⟨i, hi, i1, i2⟩ := h1
  obtain ⟨j, hj, j1, j2⟩ := h2
  rintro rfl
  have e1 := h.injective i2 j1
  have e2 := h.injective i1 j2
  rcases Nat.lt_or_ge (i + 1) ps.length with h3 | h3
  · rw [Nat.mod_eq_of_lt h3] at e1
    rcases Nat.lt_or_ge (j + 1) ps.length with h4 | h4
    · rw [Nat.mod_eq_of_lt h4] at e2; omega
    · have h5 : j + 1 = ps.length := by omega
      rw [h5, Nat.mod_self] at e2; omega
  · have h5 : i + 1 = ps.length := by omega
    rw [h5, Nat.mod_self] at e1
    rw [Nat.mod_eq_of_lt (by omega)] at e2; omega

theorem StrictlyConvex.next_unique {ps : List (Vec2 ℝ)} (h : StrictlyConvex ps) {v b b' : Vec2 ℝ}
    (h1 : Consecutive ps v b) (h2 : Consecutive ps v b') : b = b' := by
  obtain ⟨i, hi, i1, i2⟩ := h1
  obtain ⟨j, hj, j1, j2⟩ := h2
  obtain rfl := h.injective i1 j1
  exact Option.some.inj (i2.symm.trans j2)

theorem StrictlyConvex.prev_unique {ps : List (Vec2 ℝ)} (h : StrictlyConvex ps) {v a a' : Vec2 ℝ}
    (h1 : Consecutive ps a v) (h2 : Consecutive ps a' v) : a = a' := by
  by_contra hne
  have h3 := h.edge_pos h2 h1.mem.1 hne (h.edge_ne h1)
  have h4 := h.edge_pos h1 h2.mem.1 (Ne.symm hne) (h.edge_ne h2)
  rw [← tri_cyc, tri_swap'] at h3
  rw [← tri_cyc] at h4
  have : tri v a a' = - tri v a' a := tri_swap' ..
  linarith

/-- The neighbour of the corner `v` on the one side or the other. -/
def Arm (σ : ℝ) (ps : List (Vec2 ℝ)) (v b : Vec2 ℝ) : Prop :=
  (σ = 1 ∧ Consecutive ps v b) ∨ (σ = -1 ∧ Consecutive ps b v)

/-- The corner `v` of the polygon, between `b` and `a`. -/
structure Corner (ps : List (Vec2 ℝ)) (v : Vec2 ℝ) (σ : ℝ) (b a : Vec2 ℝ) : Prop where
  convex : StrictlyConvex ps
  first : Arm σ ps v b
  last : Arm (-σ) ps v a

theorem corner_exists {ps : List (Vec2 ℝ)} (h : StrictlyConvex ps) {v : Vec2 ℝ} (hv : v ∈ ps) {σ : ℝ}
    (hσ : σ = 1 ∨ σ = -1) : ∃ b a, Corner ps v σ b a := by
  obtain ⟨b, hb⟩ := exists_next hv
  obtain ⟨a, ha⟩ := exists_prev hv
  rcases hσ with rfl | rfl
  · exact ⟨b, a, h, .inl ⟨rfl, hb⟩, .inr ⟨rfl, ha⟩⟩
  · exact ⟨a, b, h, .inr ⟨rfl, ha⟩, .inl ⟨by norm_num, hb⟩⟩

namespace Corner

variable {ps : List (Vec2 ℝ)} {v b a x : Vec2 ℝ} {σ : ℝ}

theorem cases (h : Corner ps v σ b a) : (σ = 1 ∧ Consecutive ps v b ∧ Consecutive ps a v) ∨
    (σ = -1 ∧ Consecutive ps b v ∧ Consecutive ps v a) := by
  rcases h.first with ⟨rfl, h1⟩ | ⟨rfl, h1⟩
  · rcases h.last with ⟨h2, -⟩ | ⟨-, h2⟩
    · norm_num at h2
    · exact .inl ⟨rfl, h1, h2⟩
  · rcases h.last with ⟨-, h2⟩ | ⟨h2, -⟩
    · exact .inr ⟨rfl, h1, h2⟩
    · norm_num at h2

theorem sign (h : Corner ps v σ b a) : σ = 1 ∨ σ = -1 := by
  rcases h.cases with ⟨h, -⟩ | ⟨h, -⟩
  · exact .inl h
  · exact .inr h

theorem flip (h : Corner ps v σ b a) : Corner ps v (-σ) a b :=
  ⟨h.convex, h.last, by rw [neg_neg]; exact h.first⟩

theorem pos (h : Corner ps v σ b a) : 0 < σ * tri v b a := by
  rcases h.cases with ⟨rfl, h1, h2⟩ | ⟨rfl, h1, h2⟩
  · rw [one_mul]
    exact h.convex.edge_pos h1 h2.mem.1 (h.convex.edge_ne h2) (h.convex.two_steps h2 h1)
  · have := h.convex.edge_pos h2 h1.mem.1 (h.convex.edge_ne h1) (h.convex.two_steps h1 h2)
    rw [tri_swap']
    linarith

theorem cone (h : Corner ps v σ b a) (hx : Inside ps x) : 0 ≤ σ * tri v b x ∧ 0 ≤ σ * tri v x a := by
  rcases h.cases with ⟨rfl, h1, h2⟩ | ⟨rfl, h1, h2⟩
  · refine ⟨by rw [one_mul]; exact hx _ _ h1, ?_⟩
    have := hx _ _ h2
    rw [← tri_cyc] at this
    linarith
  · have := hx _ _ h1
    have h3 := hx _ _ h2
    rw [← tri_cyc, tri_swap'] at this
    rw [tri_swap'] at h3
    constructor <;> linarith

theorem mem (h : Corner ps v σ b a) : v ∈ ps ∧ b ∈ ps ∧ a ∈ ps := by
  rcases h.cases with ⟨-, h1, h2⟩ | ⟨-, h1, h2⟩
  · exact ⟨h1.mem.1, h1.mem.2, h2.mem.1⟩
  · exact ⟨h2.mem.1, h1.mem.1, h2.mem.2⟩

theorem ne (h : Corner ps v σ b a) : b ≠ v ∧ a ≠ v := by
  have := h.pos
  constructor
  · rintro rfl; simp [tri] at this
  · rintro rfl; simp [tri] at this

/-- Near the corner, what is in the cone is inside. -/
theorem inner (h : Corner ps v σ b a) (h1 : 0 < σ * tri v b x) (h2 : 0 < σ * tri v x a) :
    ∃ t0, 0 < t0 ∧ ∀ t, 0 < t → t ≤ t0 → StrictInside ps (along v x t) := by
  have key : ∀ C D, Consecutive ps C D → ∃ t0, 0 < t0 ∧ ∀ t, 0 < t → t ≤ t0 → 0 < tri C D (along v x t) := by
    intro C D hCD
    by_cases hC : v = C
    · subst hC
      refine ⟨1, one_pos, fun t t0 _ => ?_⟩
      rw [tri_along, tri_left, mul_zero, zero_add]
      refine mul_pos t0 ?_
      rcases h.cases with ⟨rfl, h3, h4⟩ | ⟨rfl, h3, h4⟩
      · rw [h.convex.next_unique hCD h3]; linarith
      · rw [h.convex.next_unique hCD h4, tri_swap']; linarith
    by_cases hD : v = D
    · subst hD
      refine ⟨1, one_pos, fun t t0 _ => ?_⟩
      rw [tri_along, show tri C v v = 0 by simp only [tri]; ring, mul_zero, zero_add]
      refine mul_pos t0 ?_
      rcases h.cases with ⟨rfl, h3, h4⟩ | ⟨rfl, h3, h4⟩
      · rw [h.convex.prev_unique hCD h4, ← tri_cyc]; linarith
      · rw [h.convex.prev_unique hCD h3, ← tri_cyc, tri_swap']; linarith
    · have h3 := h.convex.edge_pos hCD h.mem.1 hC hD
      rcases le_or_gt 0 (tri C D x) with h4 | h4
      · refine ⟨1 / 2, by norm_num, fun t t0 t1 => ?_⟩
        rw [tri_along]
        have := mul_nonneg t0.le h4
        have := mul_pos (show 0 < 1 - t by linarith) h3
        linarith
      · have hd : 0 < tri C D v - tri C D x := by linarith
        refine ⟨tri C D v / (tri C D v - tri C D x) / 2, by positivity, fun t t0 t1 => ?_⟩
        rw [tri_along]
        have h5 := div_mul_cancel₀ (tri C D v) hd.ne'
        have h6 : 0 < tri C D v / (tri C D v - tri C D x) := by positivity
        have h7 := mul_lt_mul_of_pos_right (show t < tri C D v / (tri C D v - tri C D x) by linarith) hd
        linarith
  have all : ∀ es : List (Vec2 ℝ × Vec2 ℝ), ∃ t0, 0 < t0 ∧ ∀ e ∈ es, Consecutive ps e.1 e.2 → ∀ t, 0 < t → t ≤ t0 →
      0 < tri e.1 e.2 (along v x t) := by
    intro es
    induction es with
    | nil => exact ⟨1, one_pos, by simp⟩
    | cons e es ih =>
      obtain ⟨t0, p0, hes⟩ := ih
      by_cases he : Consecutive ps e.1 e.2
      · obtain ⟨t1, p1, he1⟩ := key _ _ he
        refine ⟨min t0 t1, lt_min p0 p1, ?_⟩
        intro e' he' hc t ht ht'
        rcases List.mem_cons.1 he' with rfl | he'
        · exact he1 t ht (ht'.trans (min_le_right _ _))
        · exact hes e' he' hc t ht (ht'.trans (min_le_left _ _))
      · refine ⟨t0, p0, ?_⟩
        intro e' he' hc t ht ht'
        rcases List.mem_cons.1 he' with rfl | he'
        · exact absurd hc he
        · exact hes e' he' hc t ht ht'
  obtain ⟨t0, p0, hall⟩ := all (ps ×ˢ ps)
  refine ⟨t0, p0, fun t ht ht' C D hCD => ?_⟩
  exact hall (C, D) (by simp [List.mem_product, hCD.mem.1, hCD.mem.2]) hCD t ht ht'

end Corner

/-! ### Polygons that share a direction are the same -/

theorem small_mix {α β : ℝ} (h : 0 < α ∨ (α = 0 ∧ 0 < β)) :
    ∃ e0, 0 < e0 ∧ ∀ ε, 0 < ε → ε ≤ e0 → 0 < (1 - ε) * α + ε * β := by
  rcases h with h | ⟨rfl, h⟩
  · rcases le_or_gt 0 β with h4 | h4
    · refine ⟨1 / 2, by norm_num, fun t t0 t1 => ?_⟩
      have := mul_nonneg t0.le h4
      have := mul_pos (show 0 < 1 - t by linarith) h
      linarith
    · have hd : 0 < α - β := by linarith
      refine ⟨α / (α - β) / 2, by positivity, fun t t0 t1 => ?_⟩
      have h5 := div_mul_cancel₀ α hd.ne'
      have h6 : 0 < α / (α - β) := by positivity
      have h7 := mul_lt_mul_of_pos_right (show t < α / (α - β) by linarith) hd
      linarith
  · refine ⟨1, one_pos, fun t t0 _ => ?_⟩
    have := mul_pos t0 h
    linarith

theorem tri_pluck (v q a b z : Vec2 ℝ) :
    tri v q a * tri v b z = tri v b a * tri v q z + tri v z a * tri v b q := by
  simp only [tri]; ring

variable {m : Mesh (Ext ℝ)} {v : Vec2 ℝ} {σ : ℝ}

theorem overlap_point (hsur : Surrounded m v) {T Q : UInt32} {ps ps' : List (Vec2 ℝ)} (hT : Ring m T ps)
    (hQ : Ring m Q ps') {b a b' a' x : Vec2 ℝ} (cT : Corner ps v σ b a) (cQ : Corner ps' v σ b' a')
    (h1 : 0 < σ * tri v b x) (h2 : 0 < σ * tri v x a) (h3 : 0 < σ * tri v b' x) (h4 : 0 < σ * tri v x a') : T = Q := by
  obtain ⟨t1, p1, k1⟩ := cT.inner h1 h2
  obtain ⟨t2, p2, k2⟩ := cQ.inner h3 h4
  have hp := lt_min p1 p2
  exact hsur.apart T Q ps ps' _ hT hQ cT.mem.1 cQ.mem.1 (k1 _ hp (min_le_left _ _)) (k2 _ hp (min_le_right _ _))

/-- The polygon `T` reaches from the direction of `z` to that of `q` or beyond, and `Q` contains `q` and points on the
same side as `z`: then they are the same. -/
theorem overlap (hsur : Surrounded m v) {T Q : UInt32} {ps ps' : List (Vec2 ℝ)} (hT : Ring m T ps)
    (hQ : Ring m Q ps') {b a b' a' z q : Vec2 ℝ} (cT : Corner ps v σ b a) (cQ : Corner ps' v σ b' a')
    (hz : 0 ≤ σ * tri v b z ∧ 0 ≤ σ * tri v z a) (hq : 0 ≤ σ * tri v b' q) (hqz : 0 < σ * tri v q z)
    (hqb : σ * tri v q b ≤ 0) (hqa : 0 < σ * tri v q a') : T = Q := by
  have e1 : σ * tri v b q = - (σ * tri v q b) := by rw [tri_swap']; ring
  have hba := cT.pos
  have pl : (σ * tri v q a) * (σ * tri v b z) = (σ * tri v b a) * (σ * tri v q z) + (σ * tri v z a) * (σ * tri v b q) := by
    have := tri_pluck v q a b z
    linear_combination σ ^ 2 * this
  have hpos : 0 < (σ * tri v q a) * (σ * tri v b z) := by
    rw [pl]
    have := mul_pos hba hqz
    have := mul_nonneg hz.2 (show 0 ≤ σ * tri v b q by linarith)
    linarith
  have hbz : 0 < σ * tri v b z := lt_of_le_of_ne hz.1 (fun h => by rw [← h] at hpos; simp at hpos)
  have hqa2 : 0 < σ * tri v q a := by
    by_contra hcon
    push Not at hcon
    have := mul_nonpos_of_nonpos_of_nonneg hcon hbz.le
    linarith
  obtain ⟨t1, p1, k1⟩ := small_mix (α := σ * tri v b q) (β := σ * tri v b z) (by
    rcases eq_or_lt_of_le (show 0 ≤ σ * tri v b q by linarith) with h | h
    · exact .inr ⟨h.symm, hbz⟩
    · exact .inl h)
  obtain ⟨t2, p2, k2⟩ := small_mix (α := σ * tri v q a) (β := σ * tri v z a) (.inl hqa2)
  obtain ⟨t3, p3, k3⟩ := small_mix (α := σ * tri v b' q) (β := σ * tri v b' z) (by
    rcases eq_or_lt_of_le hq with h | h
    · right
      refine ⟨h.symm, ?_⟩
      have hba' := cQ.pos
      have pl' : (σ * tri v q a') * (σ * tri v b' z)
          = (σ * tri v b' a') * (σ * tri v q z) + (σ * tri v z a') * (σ * tri v b' q) := by
        have := tri_pluck v q a' b' z
        linear_combination σ ^ 2 * this
      rw [← h, mul_zero, add_zero] at pl'
      have h5 : 0 < (σ * tri v q a') * (σ * tri v b' z) := by rw [pl']; exact mul_pos hba' hqz
      by_contra hcon
      push Not at hcon
      have := mul_nonpos_of_nonneg_of_nonpos hqa.le hcon
      linarith
    · exact .inl h)
  obtain ⟨t4, p4, k4⟩ := small_mix (α := σ * tri v q a') (β := σ * tri v z a') (.inl hqa)
  have hp := lt_min (lt_min p1 p2) (lt_min p3 p4)
  refine overlap_point (x := along q z (min (min t1 t2) (min t3 t4))) hsur hT hQ cT cQ ?_ ?_ ?_ ?_
  · have := k1 _ hp ((min_le_left _ _).trans (min_le_left _ _))
    rw [tri_along]
    linarith
  · have := k2 _ hp ((min_le_left _ _).trans (min_le_right _ _))
    rw [tri_swap', tri_along, tri_swap' v q a, tri_swap' v z a]
    linarith
  · have := k3 _ hp ((min_le_right _ _).trans (min_le_left _ _))
    rw [tri_along]
    linarith
  · have := k4 _ hp ((min_le_right _ _).trans (min_le_right _ _))
    rw [tri_swap', tri_along, tri_swap' v q a', tri_swap' v z a']
    linarith

/-! ### Crossing the edges at the vertex one after the other -/

/-- The edge from `v` to `b` is crossed, with `v` on the right (`σ = 1`) or on the left (`σ = -1`). -/
def EndAt (m : Mesh (Ext ℝ)) (σ : ℝ) (e : Crossing) (v b : Vec2 ℝ) : Prop :=
  (σ = 1 ∧ e.At m v b) ∨ (σ = -1 ∧ e.At m b v)

/-- Crossing the edge from the corner to its neighbour. -/
theorem spin_step (hc : Conforming m) (hsur : Surrounded m v) {T : UInt32} {ps : List (Vec2 ℝ)} (hT : Ring m T ps)
    {b a : Vec2 ℝ} (cT : Corner ps v σ b a) :
    ∃ e : Crossing, e.src = T ∧ e.Valid m ∧ EndAt m σ e v b ∧ ∃ ps' b', Ring m e.dst ps' ∧ Corner ps' v σ b' b := by
  have conv : ∀ e : Crossing, ∀ ps', Ring m e.dst ps' → StrictlyConvex ps' := by
    intro e ps' h
    obtain ⟨l, p, hp, -⟩ := id h
    obtain ⟨qs, hq, hqc⟩ := hc.convex _ _ _ hp
    exact hq.unique h ▸ hqc
  rcases cT.cases with ⟨rfl, h1, h2⟩ | ⟨rfl, h1, h2⟩
  · obtain ⟨e, hv, he, hat⟩ := hsur.linked T ps v b hT h1 (.inl rfl)
    obtain ⟨ps', hr, hcon⟩ := hc.shared e hv _ _ hat
    obtain ⟨b', hb'⟩ := exists_next hcon.mem.2
    exact ⟨e, he, hv, .inl ⟨rfl, hat⟩, ps', b', hr, conv e ps' hr, .inl ⟨rfl, hb'⟩, .inr ⟨rfl, hcon⟩⟩
  · obtain ⟨e, hv, he, hat⟩ := hsur.linked T ps b v hT h1 (.inr rfl)
    obtain ⟨ps', hr, hcon⟩ := hc.shared e hv _ _ hat
    obtain ⟨b', hb'⟩ := exists_prev hcon.mem.1
    exact ⟨e, he, hv, .inr ⟨rfl, hat⟩, ps', b', hr, conv e ps' hr, .inr ⟨rfl, hb'⟩, .inl ⟨by norm_num, hcon⟩⟩

/-- Turning around `v` from the direction of `z` in polygon `T` towards that of `q` in polygon `Q`, by crossing the
edges from `v` to the given points. -/
def Spins (m : Mesh (Ext ℝ)) (σ : ℝ) (v q : Vec2 ℝ) : Vec2 ℝ → UInt32 → UInt32 → List (Crossing × Vec2 ℝ) → Prop
  | _, T, Q, [] => T = Q
  | z, T, Q, (e, b) :: es => e.src = T ∧ e.Valid m ∧ EndAt m σ e v b ∧ 0 < σ * tri v q b ∧ 0 ≤ σ * tri v b z
      ∧ Spins m σ v q b e.dst Q es

theorem finite_vertices (m : Mesh (Ext ℝ)) : {x : Vec2 ℝ | IsVertex m x}.Finite := by
  have h : {x : Vec2 (Ext ℝ) | ∃ l ∈ m.layers, ∃ u ∈ l.vertices, x = u.coords + l.offset}.Finite := by
    have : {x : Vec2 (Ext ℝ) | ∃ l ∈ m.layers, ∃ u ∈ l.vertices, x = u.coords + l.offset}
        = ⋃ l ∈ {l | l ∈ m.layers}, ⋃ u ∈ {u | u ∈ l.vertices}, {u.coords + l.offset} := by
      ext x
      simp
    rw [this]
    refine Set.Finite.biUnion (List.finite_toSet _) (fun l _ => ?_)
    exact Set.Finite.biUnion (List.finite_toSet _) (fun u _ => Set.finite_singleton _)
  refine (h.preimage (f := Vec2.fin) (fun _ _ _ _ h => Vec2.fin_injective h)).subset ?_
  rintro x ⟨l, hl, i, u, hu, hx⟩
  exact ⟨l, hl, u, List.mem_of_getElem? hu, hx.symm⟩

/-- The vertices that are still ahead. -/
def Rest (m : Mesh (Ext ℝ)) (σ : ℝ) (v q b : Vec2 ℝ) : Set (Vec2 ℝ) :=
  {x | IsVertex m x ∧ 0 < σ * tri v q b ∧ 0 < σ * tri v q x ∧ 0 ≤ σ * tri v x b}

theorem spin (hc : Conforming m) (hsur : Surrounded m v) {Q : UInt32} {ps' : List (Vec2 ℝ)} (hQ : Ring m Q ps')
    {b' a' q : Vec2 ℝ} (cQ : Corner ps' v σ b' a') (hq : 0 ≤ σ * tri v b' q) (hqa : 0 < σ * tri v q a') :
    ∀ (n : Nat) {T : UInt32} {ps : List (Vec2 ℝ)} {b a z : Vec2 ℝ}, (Rest m σ v q b).ncard ≤ n → Ring m T ps →
      Corner ps v σ b a → 0 ≤ σ * tri v b z ∧ 0 ≤ σ * tri v z a → 0 < σ * tri v q z → ∃ es, Spins m σ v q z T Q es := by
  intro n
  induction n with
  | zero =>
    intro T ps b a z hn hT cT hz hqz
    by_cases hqb : σ * tri v q b ≤ 0
    · exact ⟨[], overlap hsur hT hQ cT cQ hz hq hqz hqb hqa⟩
    · exfalso
      push Not at hqb
      have hfin : (Rest m σ v q b).Finite := (finite_vertices m).subset (fun x hx => hx.1)
      have : Rest m σ v q b = ∅ := (Set.ncard_eq_zero hfin).1 (Nat.le_zero.1 hn)
      have hb : b ∈ Rest m σ v q b := ⟨hT.isVertex cT.mem.2.1, hqb, hqb, by simp⟩
      rw [this] at hb
      exact hb
  | succ n ih =>
    intro T ps b a z hn hT cT hz hqz
    by_cases hqb : σ * tri v q b ≤ 0
    · exact ⟨[], overlap hsur hT hQ cT cQ hz hq hqz hqb hqa⟩
    push Not at hqb
    obtain ⟨e, he, hv, hat, ps2, b2, hr2, c2⟩ := spin_step hc hsur hT cT
    have hfin : (Rest m σ v q b).Finite := (finite_vertices m).subset (fun x hx => hx.1)
    have hbb := c2.pos
    have hlt : (Rest m σ v q b2).ncard < (Rest m σ v q b).ncard := by
      refine Set.ncard_lt_ncard ⟨?_, ?_⟩ hfin
      · rintro x ⟨x1, x2, x3, x4⟩
        refine ⟨x1, hqb, x3, ?_⟩
        have key : (σ * tri v q b2) * (σ * tri v x b) = (σ * tri v x b2) * (σ * tri v q b)
            + (σ * tri v b2 b) * (σ * tri v q x) := by
          simp only [tri]; ring
        have h1 : 0 ≤ (σ * tri v q b2) * (σ * tri v x b) := by
          rw [key]
          exact add_nonneg (mul_nonneg x4 hqb.le) (mul_nonneg hbb.le x3.le)
        by_contra hcon
        push Not at hcon
        have := mul_neg_of_pos_of_neg x2 hcon
        linarith
      · intro hsub
        obtain ⟨-, -, -, h4⟩ := hsub (⟨hT.isVertex cT.mem.2.1, hqb, hqb, by simp⟩ : b ∈ Rest m σ v q b)
        rw [tri_swap'] at h4
        linarith
    obtain ⟨es, hes⟩ := ih (z := b) (by omega) hr2 c2 ⟨hbb.le, by simp⟩ hqb
    exact ⟨(e, b) :: es, he, hv, hat, hqb, hz.1, hes⟩

end Polyanya
