import Verif.Proofs.Convex
import Verif.Proofs.ExtOps
/-
The view of an eye `r` through an interval `[a, b]` into a convex polygon: what one iteration of
`edges_between` computes, in exact arithmetic without near misses.
-/

namespace Polyanya

variable {F : Type} [Field F] [LinearOrder F] [Scalar F] [ExactField F] [IsStrictOrderedRing F]

/-- The eye `r` looks through the interval from `a` to `b` of the edge `A B` into the polygon `ws` (listed
from `A` to `B`), and no test made along the edges of the polygon is a near miss. -/
structure View (ws : List (Vec2 F)) (A B r a b : Vec2 F) (s t : F) : Prop where
  fan : Fan ws A B
  ha : a = along A B s
  hb : b = along A B t
  s0 : 0 ≤ s
  st : s < t
  t1 : t ≤ 1
  hr : 0 ≤ tri A B r
  sideA : ∀ (k : Nat) (v : Vec2 F), ws[k]? = some v → |tri r a v| < 1 / 10000 → tri r a v = 0
  sideB : ∀ (k : Nat) (v : Vec2 F), ws[k]? = some v → |tri r b v| < 1 / 10000 → tri r b v = 0
  hitA : ∀ (k : Nat) (C D : Vec2 F) (u : F), ws[k]? = some C → ws[k + 1]? = some D → tri r a C ≠ tri r a D →
    u * (tri r a C - tri r a D) = tri r a C → -(1 / 10000) ≤ u → u ≤ 1 + 1 / 10000 → 0 ≤ u ∧ u ≤ 1
  hitB : ∀ (k : Nat) (C D : Vec2 F) (u : F), ws[k]? = some C → ws[k + 1]? = some D → tri r b C ≠ tri r b D →
    u * (tri r b C - tri r b D) = tri r b C → -(1 / 10000) ≤ u → u ≤ 1 + 1 / 10000 → 0 ≤ u ∧ u ≤ 1
  endA : ∀ (k : Nat) (C D i v : Vec2 F), ws[k]? = some C → ws[k + 1]? = some D → tri r a i = 0 → tri C D i = 0 →
    tri r a C ≠ tri r a D → v = C ∨ v = D → sqDist i v ≤ 1 / 1000000 → i = v
  endB : ∀ (k : Nat) (C D i v : Vec2 F), ws[k]? = some C → ws[k + 1]? = some D → tri r b i = 0 → tri C D i = 0 →
    tri r b C ≠ tri r b D → v = C ∨ v = D → sqDist i v ≤ 1 / 1000000 → i = v

namespace View

variable {ws : List (Vec2 F)} {A B r a b : Vec2 F} {s t : F}

theorem aA (h : View ws A B r a b s t) : tri r a A ≤ 0 := by
  have e : tri r a A = -(s * tri A B r) := by rw [h.ha]; simp only [tri, along]; ring
  rw [e]
  have := mul_nonneg h.s0 h.hr
  linarith

theorem aB (h : View ws A B r a b s t) : 0 ≤ tri r a B := by
  have e : tri r a B = (1 - s) * tri A B r := by rw [h.ha]; simp only [tri, along]; ring
  rw [e]
  exact mul_nonneg (by linarith [h.st, h.t1]) h.hr

theorem bA (h : View ws A B r a b s t) : tri r b A ≤ 0 := by
  have e : tri r b A = -(t * tri A B r) := by rw [h.hb]; simp only [tri, along]; ring
  rw [e]
  have := mul_nonneg (show 0 ≤ t by linarith [h.s0, h.st]) h.hr
  linarith

theorem bB (h : View ws A B r a b s t) : 0 ≤ tri r b B := by
  have e : tri r b B = (1 - t) * tri A B r := by rw [h.hb]; simp only [tri, along]; ring
  rw [e]
  exact mul_nonneg (by linarith [h.t1]) h.hr

/-- In the polygon, who is left of the left limit is left of the right limit. -/
theorem le (h : View ws A B r a b s t) {v : Vec2 F} (hv : Inside ws v) : tri r b v ≤ tri r a v := by
  have e := tri_diff r a b v
  have e2 : tri a b r - tri a b v = (t - s) * (tri A B r - tri A B v) := by
    rw [h.ha, h.hb, tri_along₂, tri_along₂]; ring
  have := h.fan.base_nonpos hv
  have := mul_nonneg (show 0 ≤ t - s by linarith [h.st]) (show 0 ≤ tri A B r - tri A B v by linarith [h.hr])
  linarith

/-- What is known at vertex number `k`, before the edge that starts there is treated. -/
def State (r a b : Vec2 F) (k : Nat) (v : Vec2 F) : SuccTy → Prop
  | .rightNonObservable => tri r a v ≤ 0
  | .observable => 1 ≤ k ∧ 0 ≤ tri r a v ∧ tri r b v ≤ 0
  | .leftNonObservable => 1 ≤ k ∧ 0 ≤ tri r a v ∧ 0 ≤ tri r b v

/-- What the successors found on the edge `C D` are. -/
structure Good (r a b C D : Vec2 F) (e : UInt32 × UInt32) (su : Successor (Ext F)) (i1 i2 : Vec2 F)
    (u1 u2 : F) : Prop where
  edge : su.edge = e
  interval : su.interval = (i1.fin, i2.fin)
  e1 : i1 = along C D u1
  e2 : i2 = along C D u2
  u0 : 0 ≤ u1
  u12 : u1 ≤ u2
  u3 : u2 ≤ 1
  right : su.ty = .rightNonObservable →
    u1 = 0 ∧ (u2 = 1 ∨ (tri r a i2 = 0 ∧ tri r a C < 0 ∧ 0 < tri r a D))
  left : su.ty = .leftNonObservable →
    (u1 = 0 ∨ (tri r b i1 = 0 ∧ tri r b C ≠ tri r b D ∧ 0 < tri r b D))
    ∧ (u2 = 1 ∨ (tri r b i2 = 0 ∧ tri r b C ≠ tri r b D ∧ 0 < tri r b D))
  observable : su.ty = .observable →
    0 ≤ tri r a i1 ∧ 0 ≤ tri r a i2 ∧ tri r b i1 ≤ 0 ∧ tri r b i2 ≤ 0
    ∧ (u1 = 0 ∨ (tri r a i1 = 0 ∧ tri r a C < 0 ∧ 0 < tri r a D))
    ∧ (u2 = 1 ∨ (tri r b i2 = 0 ∧ tri r b C ≠ tri r b D ∧ 0 < tri r b D))

/-- The result of the first part of the loop body. -/
inductive StartResult (r a b C D : Vec2 F) (k : Nat) (e : UInt32 × UInt32) :
    List (Successor (Ext F)) × Vec2 (Ext F) × SuccTy → Prop where
  | split {u : F} {i : Vec2 F} : i = along C D u → 0 < u → u < 1 → tri r a i = 0 → tri r a C < 0 →
      0 < tri r a D →
      StartResult r a b C D k e ([⟨(C.fin, i.fin), e, .rightNonObservable⟩], i.fin, .observable)
  | right : tri r a C ≤ 0 → tri r a D ≤ 0 → (tri r a C = 0 → tri r a D < 0) →
      StartResult r a b C D k e ([], C.fin, .rightNonObservable)
  | observable : 0 ≤ tri r a C → 0 ≤ tri r a D → tri r b C ≤ 0 →
      StartResult r a b C D k e ([], C.fin, .observable)
  | left : 0 ≤ tri r a C → 0 ≤ tri r a D → 0 ≤ tri r b C → 0 ≤ tri r b D → 1 ≤ k →
      StartResult r a b C D k e ([], C.fin, .leftNonObservable)

omit [Scalar F] [ExactField F] in
theorem split_param {c d : F} (hc : c < 0) (hd : 0 < d) :
    ∃ u, u * (c - d) = c ∧ 0 < u ∧ u < 1 := by
  have hne : c - d < 0 := by linarith
  refine ⟨c / (c - d), div_mul_cancel₀ _ hne.ne, div_pos_of_neg_of_neg hc hne, ?_⟩
  rw [div_lt_one_of_neg hne]; linarith

theorem start_step (h : View ws A B r a b s t) {k : Nat} {C D : Vec2 F} (hC : ws[k]? = some C)
    (hD : ws[k + 1]? = some D) {ty : SuccTy} (hst : State r a b k C ty) (e : UInt32 × UInt32) :
    StartResult r a b C D k e (edgeStartStep r.fin a.fin C.fin D.fin e ty) := by
  have sC := h.sideA k C hC
  have sD := h.sideA (k + 1) D hD
  have keep : 1 ≤ k → 0 ≤ tri r a C → 0 ≤ tri r a D := fun hk hc =>
    h.fan.keep h.aA h.aB hC hD hk (by omega) hc
  rcases lt_trichotomy (tri r a C) 0 with hc | hc | hc
  · -- right of the right limit
    have hty : ty = .rightNonObservable := by
      cases ty with
      | rightNonObservable => rfl
      | observable => exact absurd hst.2.1 (not_le.2 hc)
      | leftNonObservable => exact absurd hst.2.1 (not_le.2 hc)
    subst hty
    unfold edgeStartStep
    rw [(fin_side_right sC).2 hc]
    simp only
    by_cases hd : 0 < tri r a D
    · obtain ⟨u, hu, u0, u1⟩ := split_param hc hd
      have hit : lineIntersectSegment (r.fin, a.fin) (C.fin, D.fin) = some (along C D u).fin :=
        (fin_intersect ..).2 ⟨(by linarith : tri r a C < tri r a D).ne, u, hu, by linarith, by linarith, rfl⟩
      have hzero : tri r a (along C D u) = 0 := by rw [tri_along]; linear_combination -hu
      have hline : tri C D (along C D u) = 0 := by rw [tri_along]; simp
      have hne : tri r a C ≠ tri r a D := (by linarith : tri r a C < tri r a D).ne
      have f1 : (tol6 <. (along C D u).fin.distanceSquared C.fin) = true := by
        rw [fin_distanceSquared, ext_tol6, ext_lt]
        by_contra hcon
        have := h.endA k C D _ C hC hD hzero hline hne (.inl rfl) (not_lt.1 hcon)
        rw [this] at hzero
        exact hc.ne hzero
      have f2 : (tol6 <. (along C D u).fin.distanceSquared D.fin) = true := by
        rw [fin_distanceSquared, ext_tol6, ext_lt]
        by_contra hcon
        have := h.endA k C D _ D hC hD hzero hline hne (.inr rfl) (not_lt.1 hcon)
        rw [this] at hzero
        exact hd.ne' hzero
      rw [hit]
      simp only [f1, f2, Bool.and_self, if_true]
      exact .split rfl u0 u1 hzero hc hd
    · push Not at hd
      have : edgeStartStep r.fin a.fin C.fin D.fin e .rightNonObservable =
          ([], C.fin, .rightNonObservable) := by
        unfold edgeStartStep
        rw [(fin_side_right sC).2 hc]
        simp only
        cases hit : lineIntersectSegment (r.fin, a.fin) (C.fin, D.fin) with
        | none => rfl
        | some x =>
          obtain ⟨hne, u, hu, hlo, hhi, rfl⟩ := (fin_intersect ..).1 hit
          obtain ⟨u0, u1⟩ := h.hitA k C D u hC hD hne hu hlo hhi
          have hzero : (1 - u) * tri r a C + u * tri r a D = 0 := by linear_combination -hu
          have h1 := mul_nonpos_of_nonneg_of_nonpos (show 0 ≤ 1 - u by linarith) hc.le
          have h2 := mul_nonpos_of_nonneg_of_nonpos u0 hd
          have h3 : (1 - u) * tri r a C = 0 := by linarith
          have h4 : u = 1 := by
            rcases mul_eq_zero.1 h3 with h5 | h5
            · linarith
            · exact absurd h5 hc.ne
          subst h4
          rw [along_one]
          have : (tol6 <. D.fin.distanceSquared D.fin) = false := by
            rw [Bool.eq_false_iff, Ne, fin_distanceSquared, ext_tol6, ext_lt, sqDist]
            norm_num
          simp [this]
      have hres := StartResult.right (b := b) (k := k) (e := e) hc.le hd (fun h => absurd h hc.ne)
      rw [← this] at hres
      unfold edgeStartStep at hres
      rw [(fin_side_right sC).2 hc] at hres
      exact hres
  · -- on the right limit
    unfold edgeStartStep
    rw [(fin_side_edge sC).2 hc]
    simp only
    have hb0 : tri r b C ≤ 0 := by rw [← hc]; exact h.le (h.fan.inside hC)
    rcases lt_trichotomy (tri r a D) 0 with hd | hd | hd
    · rw [(fin_side_right sD).2 hd]
      cases ty with
      | rightNonObservable => exact .right hc.le hd.le (fun _ => hd)
      | observable => exact absurd (keep hst.1 hc.ge) (not_le.2 hd)
      | leftNonObservable => exact absurd (keep hst.1 hc.ge) (not_le.2 hd)
    · rw [(fin_side_edge sD).2 hd]
      exact .observable hc.ge hd.ge hb0
    · rw [(fin_side_left sD).2 hd]
      exact .observable hc.ge hd.le hb0
  · unfold edgeStartStep
    rw [(fin_side_left sC).2 hc]
    simp only
    cases ty with
    | rightNonObservable => exact absurd hst (not_le.2 hc)
    | observable => exact .observable hc.le (keep hst.1 hc.le) hst.2.2
    | leftNonObservable =>
      exact .left hc.le (keep hst.1 hc.le) hst.2.2 (h.fan.keep h.bA h.bB hC hD hst.1 (by omega) hst.2.2) hst.1

/-- The result of the second part of the loop body, for a start point at parameter `u0` of the edge. -/
structure EndResult (r a b C D : Vec2 F) (k : Nat) (e : UInt32 × UInt32)
    (res : List (Successor (Ext F)) × SuccTy) : Prop where
  good : ∀ su ∈ res.1, ∃ i1 i2 u1 u2, Good r a b C D e su i1 i2 u1 u2
  state : State r a b (k + 1) D res.2

/-- Second part, when the limit is not passed. -/
theorem end_not_left {r a b D : Vec2 F} {sp : Vec2 (Ext F)} {ty : SuccTy} {e : UInt32 × UInt32}
    (sA : |tri r a D| < 1 / 10000 → tri r a D = 0) (sB : |tri r b D| < 1 / 10000 → tri r b D = 0)
    (hd : tri r b D ≤ 0) :
    edgeEndStep r.fin a.fin b.fin sp D.fin e ty = ([⟨(sp, D.fin), e, ty⟩],
      if tri r b D = 0 ∧ 0 ≤ tri r a D then .leftNonObservable else ty) := by
  unfold edgeEndStep
  rcases hd.lt_or_eq with hd | hd
  · rw [(fin_side_right sB).2 hd]
    simp [hd.ne]
  · rw [(fin_side_edge sB).2 hd]
    simp only [reduceCtorEq, if_false, Option.filter_none, Option.getD_none, hd, true_and]
    rcases lt_trichotomy (tri r a D) 0 with hc | hc | hc
    · rw [(fin_side_right sA).2 hc]; simp [hc.not_ge]
    · rw [(fin_side_edge sA).2 hc]; simp [hc]
    · rw [(fin_side_left sA).2 hc]; simp [hc.le]

/-- Second part, when the limit is passed. -/
theorem end_left {r a b D : Vec2 F} {sp : Vec2 (Ext F)} {ty : SuccTy} {e : UInt32 × UInt32}
    (sB : |tri r b D| < 1 / 10000 → tri r b D = 0) (hd : 0 < tri r b D) :
    (lineIntersectSegment (r.fin, b.fin) (sp, D.fin) = none ∧
      edgeEndStep r.fin a.fin b.fin sp D.fin e ty = ([⟨(sp, D.fin), e, ty⟩], ty)) ∨
    (∃ it, lineIntersectSegment (r.fin, b.fin) (sp, D.fin) = some it ∧
      ((tol6 <. it.distanceSquared D.fin) = true →
      edgeEndStep r.fin a.fin b.fin sp D.fin e ty
        = ([⟨(sp, it), e, ty⟩, ⟨(it, D.fin), e, .leftNonObservable⟩], .leftNonObservable))) := by
  unfold edgeEndStep
  rw [(fin_side_left sB).2 hd]
  simp only [if_true]
  cases hit : lineIntersectSegment (r.fin, b.fin) (sp, D.fin) with
  | none => left; simp
  | some it =>
    right
    refine ⟨it, rfl, fun hf => ?_⟩
    have : Option.filter (fun it => tol6 <. it.distanceSquared D.fin) (some it) = some it := by
      rw [Option.filter_some, if_pos hf]
    rw [this]
    simp

theorem end_step (h : View ws A B r a b s t) {k : Nat} {C D : Vec2 F} (hC : ws[k]? = some C)
    (hD : ws[k + 1]? = some D) {e : UInt32 × UInt32} {ty : SuccTy} {i : Vec2 F} {u : F}
    (hi : i = along C D u) (u0 : 0 ≤ u) (u1 : u < 1)
    (hright : ty = .rightNonObservable → u = 0 ∧ tri r a D ≤ 0)
    (hleft : ty = .leftNonObservable → u = 0 ∧ 0 ≤ tri r a D ∧ 0 ≤ tri r b D)
    (hobs : ty = .observable → 0 ≤ tri r a i ∧ 0 ≤ tri r a D ∧ tri r b i ≤ 0
      ∧ (u = 0 ∨ (tri r a i = 0 ∧ tri r a C < 0 ∧ 0 < tri r a D))) :
    EndResult r a b C D k e (edgeEndStep r.fin a.fin b.fin i.fin D.fin e ty) := by
  have sA := h.sideA (k + 1) D hD
  have sB := h.sideB (k + 1) D hD
  have hle := h.le (h.fan.inside hD)
  by_cases hd : tri r b D ≤ 0
  · rw [end_not_left sA sB hd]
    refine ⟨?_, ?_⟩
    · intro su hsu
      simp only [List.mem_singleton] at hsu
      subst hsu
      refine ⟨i, D, u, 1, rfl, rfl, hi, (along_one C D).symm, u0, u1.le, le_rfl, ?_, ?_, ?_⟩
      · intro hty; exact ⟨(hright hty).1, .inl rfl⟩
      · intro hty; exact ⟨.inl (hleft hty).1, .inl rfl⟩
      · intro hty
        obtain ⟨o1, o2, o3, o4⟩ := hobs hty
        exact ⟨o1, o2, o3, hd, o4, .inl rfl⟩
    · simp only
      split
      · rename_i h0
        exact ⟨by omega, h0.2, h0.1.ge⟩
      · rename_i h0
        cases ty with
        | rightNonObservable => exact (hright rfl).2
        | observable => exact ⟨by omega, (hobs rfl).2.1, hd⟩
        | leftNonObservable => exact ⟨by omega, (hleft rfl).2.1, (hleft rfl).2.2⟩
  · push Not at hd
    have hty : ty ≠ .rightNonObservable := by
      intro hty
      have := (hright hty).2
      linarith
    have hfar : ∀ w, tri r b (along i D w) = 0 → tri r b C ≠ tri r b D →
        (tol6 <. (along i D w).fin.distanceSquared D.fin) = true := by
      intro w hz hne
      rw [fin_distanceSquared, ext_tol6, ext_lt]
      by_contra hcon
      have hline : tri C D (along i D w) = 0 := by
        rw [tri_along, hi, tri_along]; simp
      have := h.endB k C D _ D hC hD hz hline hne (.inr rfl) (not_lt.1 hcon)
      rw [this] at hz
      exact hd.ne' hz
    have hcomp : ∀ w, along i D w = along C D (u + w * (1 - u)) := by
      intro w
      rw [hi]
      simp only [along, Vec2.mk.injEq]
      constructor <;> ring
    have hbi : tri r b i = (1 - u) * tri r b C + u * tri r b D := by rw [hi, tri_along]
    cases ty with
    | rightNonObservable => exact absurd rfl hty
    | observable =>
      obtain ⟨o1, o2, o3, o4⟩ := hobs rfl
      -- the limit hits the edge beyond `i`
      have hlt : tri r b i - tri r b D < 0 := by linarith
      have hw : tri r b i / (tri r b i - tri r b D) * (tri r b i - tri r b D) = tri r b i :=
        div_mul_cancel₀ _ hlt.ne
      have w0 : 0 ≤ tri r b i / (tri r b i - tri r b D) := div_nonneg_of_nonpos o3 hlt.le
      have w1 : tri r b i / (tri r b i - tri r b D) < 1 := by
        rw [div_lt_one_of_neg hlt]; linarith
      generalize tri r b i / (tri r b i - tri r b D) = w at hw w0 w1
      have hit : lineIntersectSegment (r.fin, b.fin) (i.fin, D.fin) = some (along i D w).fin :=
        (fin_intersect ..).2 ⟨by linarith, w, hw, by linarith, by linarith, rfl⟩
      have hz : tri r b (along i D w) = 0 := by rw [tri_along]; linear_combination -hw
      have hne : tri r b C ≠ tri r b D := by
        intro heq
        rw [heq] at hbi
        have : tri r b i = tri r b D := by rw [hbi]; ring
        linarith
      rcases end_left (a := a) (sp := i.fin) (ty := .observable) (e := e) sB hd with ⟨hn, -⟩ | ⟨it, hs, hr⟩
      · rw [hit] at hn; exact absurd hn (by simp)
      · rw [hit] at hs
        cases hs
        rw [hr (hfar w hz hne)]
        have ha0 : 0 ≤ tri r a (along i D w) := by
          rw [tri_along]
          have := mul_nonneg (show 0 ≤ 1 - w by linarith) o1
          have := mul_nonneg w0 o2
          linarith
        have huw : u ≤ u + w * (1 - u) := by
          have := mul_nonneg w0 (show 0 ≤ 1 - u by linarith); linarith
        have huw1 : u + w * (1 - u) ≤ 1 := by
          have := mul_le_of_le_one_left (show 0 ≤ 1 - u by linarith) w1.le; linarith
        refine ⟨?_, by omega, by linarith, by linarith⟩
        intro su hsu
        simp only [List.mem_cons, List.not_mem_nil, or_false] at hsu
        rcases hsu with rfl | rfl
        · refine ⟨i, along i D w, u, u + w * (1 - u), rfl, rfl, hi, hcomp w, u0, huw, huw1,
            by simp, by simp, fun _ => ⟨o1, ha0, o3, hz.le, o4, .inr ⟨hz, hne, hd⟩⟩⟩
        · refine ⟨along i D w, D, u + w * (1 - u), 1, rfl, rfl, hcomp w, (along_one C D).symm,
            u0.trans huw, huw1, le_rfl, by simp, fun _ => ⟨.inr ⟨hz, hne, hd⟩, .inl rfl⟩, by simp⟩
    | leftNonObservable =>
      obtain ⟨rfl, o2, o2'⟩ := hleft rfl
      rw [along_zero] at hi
      subst hi
      rcases end_left (a := a) (sp := i.fin) (ty := .leftNonObservable) (e := e) sB hd with
        ⟨-, hr⟩ | ⟨it, hs, hr⟩
      · rw [hr]
        refine ⟨?_, by omega, o2, o2'⟩
        intro su hsu
        simp only [List.mem_singleton] at hsu
        subst hsu
        exact ⟨i, D, 0, 1, rfl, rfl, (along_zero _ _).symm, (along_one _ _).symm, le_rfl, zero_le_one, le_rfl,
          by simp, fun _ => ⟨.inl rfl, .inl rfl⟩, by simp⟩
      · obtain ⟨hne, w, hw, hlo, hhi, rfl⟩ := (fin_intersect ..).1 hs
        obtain ⟨w0, w1⟩ := h.hitB k i D w hC hD hne hw hlo hhi
        have hz : tri r b (along i D w) = 0 := by rw [tri_along]; linear_combination -hw
        rw [hr (hfar w hz hne)]
        refine ⟨?_, by omega, o2, o2'⟩
        intro su hsu
        simp only [List.mem_cons, List.not_mem_nil, or_false] at hsu
        rcases hsu with rfl | rfl
        · exact ⟨i, along i D w, 0, w, rfl, rfl, (along_zero _ _).symm, rfl, le_rfl, w0, w1,
            by simp, fun _ => ⟨.inl rfl, .inr ⟨hz, hne, hd⟩⟩, by simp⟩
        · exact ⟨along i D w, D, w, 1, rfl, rfl, rfl, (along_one _ _).symm, w0, w1, le_rfl,
            by simp, fun _ => ⟨.inr ⟨hz, hne, hd⟩, .inl rfl⟩, by simp⟩

/-- One iteration of the loop of `edges_between`. -/
theorem body_step (h : View ws A B r a b s t) {k : Nat} {C D : Vec2 F} (hC : ws[k]? = some C)
    (hD : ws[k + 1]? = some D) {ty : SuccTy} (hst : State r a b k C ty) (e : UInt32 × UInt32) :
    let st := edgeStartStep r.fin a.fin C.fin D.fin e ty
    let en := edgeEndStep r.fin a.fin b.fin st.2.1 D.fin e st.2.2
    (∀ su ∈ st.1 ++ en.1, ∃ i1 i2 u1 u2, Good r a b C D e su i1 i2 u1 u2)
      ∧ State r a b (k + 1) D en.2 := by
  have hs := h.start_step hC hD hst e
  generalize edgeStartStep r.fin a.fin C.fin D.fin e ty = st at hs
  cases hs with
  | @split u i hi u0 u1 hz hc hd =>
    have hin : Inside ws i := (h.fan.inside hC).between (h.fan.inside hD) ⟨u, u0.le, u1.le, hi⟩
    have he := h.end_step hC hD (e := e) (ty := .observable) hi u0.le u1 (by simp) (by simp)
      (fun _ => ⟨hz.ge, hd.le, (h.le hin).trans hz.le, .inr ⟨hz, hc, hd⟩⟩)
    refine ⟨?_, he.state⟩
    intro su hsu
    rcases List.mem_append.1 hsu with hsu | hsu
    · simp only [List.mem_singleton] at hsu
      subst hsu
      exact ⟨C, i, 0, u, rfl, rfl, (along_zero _ _).symm, hi, le_rfl, u0.le, u1.le,
        fun _ => ⟨rfl, .inr ⟨hz, hc, hd⟩⟩, by simp, by simp⟩
    · exact he.good su hsu
  | right hc hd hcd =>
    have he := h.end_step hC hD (e := e) (ty := .rightNonObservable) (along_zero C D).symm le_rfl
      zero_lt_one (fun _ => ⟨rfl, hd⟩) (by simp) (by simp)
    exact ⟨by simpa using he.good, he.state⟩
  | observable hc hd hb =>
    have he := h.end_step hC hD (e := e) (ty := .observable) (along_zero C D).symm le_rfl
      zero_lt_one (by simp) (by simp) (fun _ => ⟨hc, hd, hb, .inl rfl⟩)
    exact ⟨by simpa using he.good, he.state⟩
  | left hc hd hbC hbD hk =>
    have he := h.end_step hC hD (e := e) (ty := .leftNonObservable) (along_zero C D).symm le_rfl
      zero_lt_one (by simp) (fun _ => ⟨rfl, hd, hbD⟩) (by simp)
    exact ⟨by simpa using he.good, he.state⟩

end View

end Polyanya
