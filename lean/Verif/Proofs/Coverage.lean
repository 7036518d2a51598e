import Verif.Proofs.Straight
/-
`edges_between` in exact arithmetic without near misses: the successors cover every point of the edges of the
polygon.
-/

namespace Polyanya

variable {F : Type} [Field F] [LinearOrder F] [Scalar F] [ExactField F] [IsStrictOrderedRing F]

/-- The successors found on the edge `C D`. -/
inductive Out (r a b C D : Vec2 F) (e : UInt32 × UInt32) (k : Nat) : List (Successor (Ext F)) → Prop where
  | right : tri r a C ≤ 0 → tri r a D ≤ 0 → (tri r a C = 0 → tri r a D < 0) →
      Out r a b C D e k [⟨(C.fin, D.fin), e, .rightNonObservable⟩]
  | obs : Out r a b C D e k [⟨(C.fin, D.fin), e, .observable⟩]
  | obsLeft {w : F} : 0 ≤ w → w < 1 → tri r b (along C D w) = 0 → 0 < tri r b D →
      Out r a b C D e k [⟨(C.fin, (along C D w).fin), e, .observable⟩,
        ⟨((along C D w).fin, D.fin), e, .leftNonObservable⟩]
  | rightObs {u : F} : 0 < u → u < 1 → tri r a (along C D u) = 0 → tri r a C < 0 → 0 < tri r a D →
      Out r a b C D e k [⟨(C.fin, (along C D u).fin), e, .rightNonObservable⟩,
        ⟨((along C D u).fin, D.fin), e, .observable⟩]
  | rightObsLeft {u w : F} : 0 < u → u < 1 → tri r a (along C D u) = 0 → tri r a C < 0 → 0 < tri r a D →
      u ≤ w → w < 1 → tri r b (along C D w) = 0 → 0 < tri r b D →
      Out r a b C D e k [⟨(C.fin, (along C D u).fin), e, .rightNonObservable⟩,
        ⟨((along C D u).fin, (along C D w).fin), e, .observable⟩,
        ⟨((along C D w).fin, D.fin), e, .leftNonObservable⟩]
  | left {l : List (Successor (Ext F))} : 1 ≤ k → 0 ≤ tri r b C → 0 ≤ tri r b D →
      ⟨(C.fin, D.fin), e, .leftNonObservable⟩ ∈ l → Out r a b C D e k l

namespace View

variable {ws : List (Vec2 F)} {A B r a b : Vec2 F} {s t : F}

theorem obs_end (h : View ws A B r a b s t) {k : Nat} {C D : Vec2 F} (hC : ws[k]? = some C)
    (hD : ws[k + 1]? = some D) (e : UInt32 × UInt32) {u : F} (u0 : 0 ≤ u) (u1 : u < 1)
    (hb : tri r b (along C D u) ≤ 0) :
    (edgeEndStep r.fin a.fin b.fin (along C D u).fin D.fin e .observable).1
        = [⟨((along C D u).fin, D.fin), e, .observable⟩] ∨
    ∃ w, u ≤ w ∧ w < 1 ∧ tri r b (along C D w) = 0 ∧ 0 < tri r b D ∧
      (edgeEndStep r.fin a.fin b.fin (along C D u).fin D.fin e .observable).1
        = [⟨((along C D u).fin, (along C D w).fin), e, .observable⟩,
            ⟨((along C D w).fin, D.fin), e, .leftNonObservable⟩] := by
  have sA := h.sideA (k + 1) D hD
  have sB := h.sideB (k + 1) D hD
  by_cases hd : tri r b D ≤ 0
  · left
    rw [end_not_left sA sB hd]
  · right
    push Not at hd
    have hcomp : ∀ w, along (along C D u) D w = along C D (u + w * (1 - u)) := by
      intro w
      simp only [along, Vec2.mk.injEq]
      constructor <;> ring
    have hbi : tri r b (along C D u) = (1 - u) * tri r b C + u * tri r b D := by rw [tri_along]
    have hlt : tri r b (along C D u) - tri r b D < 0 := by linarith
    have hw : tri r b (along C D u) / (tri r b (along C D u) - tri r b D)
        * (tri r b (along C D u) - tri r b D) = tri r b (along C D u) :=
      div_mul_cancel₀ _ hlt.ne
    have w0 : 0 ≤ tri r b (along C D u) / (tri r b (along C D u) - tri r b D) :=
      div_nonneg_of_nonpos hb hlt.le
    have w1 : tri r b (along C D u) / (tri r b (along C D u) - tri r b D) < 1 := by
      rw [div_lt_one_of_neg hlt]; linarith
    generalize tri r b (along C D u) / (tri r b (along C D u) - tri r b D) = w at hw w0 w1
    have hit : lineIntersectSegment (r.fin, b.fin) ((along C D u).fin, D.fin)
        = some (along (along C D u) D w).fin :=
      (fin_intersect ..).2 ⟨by linarith, w, hw, by linarith, by linarith, rfl⟩
    have hz : tri r b (along (along C D u) D w) = 0 := by rw [tri_along]; linear_combination -hw
    have hne : tri r b C ≠ tri r b D := by
      intro heq
      rw [heq] at hbi
      have : tri r b (along C D u) = tri r b D := by rw [hbi]; ring
      linarith
    have hfar : (tol6 <. (along (along C D u) D w).fin.distanceSquared D.fin) = true := by
      rw [fin_distanceSquared, ext_tol6, ext_lt]
      by_contra hcon
      have hline : tri C D (along (along C D u) D w) = 0 := by
        rw [tri_along, tri_along]; simp
      have := h.endB k C D _ D hC hD hz hline hne (.inr rfl) (not_lt.1 hcon)
      rw [this] at hz
      exact hd.ne' hz
    rcases end_left (a := a) (sp := (along C D u).fin) (ty := .observable) (e := e) sB hd with
      ⟨hn, -⟩ | ⟨it, hs, hr⟩
    · rw [hit] at hn; exact absurd hn (by simp)
    · rw [hit] at hs
      cases hs
      rw [hcomp] at hz hr hfar
      have huw : u ≤ u + w * (1 - u) := by
        have := mul_nonneg w0 (show 0 ≤ 1 - u by linarith); linarith
      have huw1 : u + w * (1 - u) < 1 := by
        have := mul_lt_of_lt_one_left (show 0 < 1 - u by linarith) w1; linarith
      refine ⟨_, huw, huw1, hz, hd, ?_⟩
      rw [hr hfar]

/-- The successors found by one iteration of the loop of `edges_between`. -/
theorem body_out (h : View ws A B r a b s t) {k : Nat} {C D : Vec2 F} (hC : ws[k]? = some C)
    (hD : ws[k + 1]? = some D) {ty : SuccTy} (hst : State r a b k C ty) (e : UInt32 × UInt32) :
    let st := edgeStartStep r.fin a.fin C.fin D.fin e ty
    let en := edgeEndStep r.fin a.fin b.fin st.2.1 D.fin e st.2.2
    Out r a b C D e k (st.1 ++ en.1) := by
  have hs := h.start_step hC hD hst e
  have sA := h.sideA (k + 1) D hD
  have sB := h.sideB (k + 1) D hD
  have hle := h.le (h.fan.inside hD)
  generalize edgeStartStep r.fin a.fin C.fin D.fin e ty = st at hs
  cases hs with
  | @split u i hi u0 u1 hz hc hd =>
    subst hi
    have hin : Inside ws (along C D u) := (h.fan.inside hC).between (h.fan.inside hD) ⟨u, u0.le, u1.le, rfl⟩
    simp only
    rcases h.obs_end hC hD e u0.le u1 ((h.le hin).trans hz.le) with he | ⟨w, hw1, hw2, hw3, hw4, he⟩
    · rw [he]; exact .rightObs u0 u1 hz hc hd
    · rw [he]; exact .rightObsLeft u0 u1 hz hc hd hw1 hw2 hw3 hw4
  | right hc hd hcd =>
    simp only
    rw [end_not_left sA sB (hle.trans hd)]
    exact .right hc hd hcd
  | observable hc hd hb =>
    have := h.obs_end hC hD e le_rfl zero_lt_one (by rwa [along_zero])
    rw [along_zero] at this
    simp only
    rcases this with he | ⟨w, hw1, hw2, hw3, hw4, he⟩
    · rw [he]; exact .obs
    · rw [he]; exact .obsLeft hw1 hw2 hw3 hw4
  | left hc hd hbC hbD hk =>
    simp only
    refine .left hk hbC hbD ?_
    rcases hbD.lt_or_eq with hbD | hbD
    · rcases end_left (a := a) (sp := C.fin) (ty := .leftNonObservable) (e := e) sB hbD with
        ⟨-, hr⟩ | ⟨it, hs, hr⟩
      · rw [hr]; simp
      · obtain ⟨hne, w, hw, hlo, hhi, rfl⟩ := (fin_intersect ..).1 hs
        obtain ⟨w0, w1⟩ := h.hitB k C D w hC hD hne hw hlo hhi
        have hz : (1 - w) * tri r b C + w * tri r b D = 0 := by linear_combination -hw
        have g1 := mul_nonneg (show 0 ≤ 1 - w by linarith) hbC
        have g2 := mul_nonneg w0 hbD.le
        have g3 : w = 0 := (mul_eq_zero.1 (show w * tri r b D = 0 by linarith)).resolve_right hbD.ne'
        subst g3
        rw [along_zero] at hr hs
        rw [hr]
        · simp
        · rw [fin_distanceSquared, ext_tol6, ext_lt]
          by_contra hcon
          have := h.endB k C D C D hC hD (by linarith) (by simp) hne (.inr rfl) (not_lt.1 hcon)
          rw [this] at hne
          exact hne rfl
    · rw [end_not_left sA sB hbD.ge]; simp

/-- Beyond the base, the limits differ. -/
theorem lt (h : View ws A B r a b s t) {v : Vec2 F} (hv : tri A B v < 0) : tri r b v < tri r a v := by
  have e := tri_diff r a b v
  have e2 : tri a b r - tri a b v = (t - s) * (tri A B r - tri A B v) := by
    rw [h.ha, h.hb, tri_along₂, tri_along₂]; ring
  have := mul_pos (show 0 < t - s by linarith [h.st]) (show 0 < tri A B r - tri A B v by linarith [h.hr])
  linarith

end View

/-- How the point at parameter `u` of the edge `C D` is covered by successors. -/
inductive Covered (A B r a b C D : Vec2 F) (s t : F) (e : UInt32 × UInt32) (l : List (Successor (Ext F)))
    (u : F) : Prop where
  | obs {u1 u2 : F} : ⟨((along C D u1).fin, (along C D u2).fin), e, .observable⟩ ∈ l → u1 < u2 → 0 ≤ u1 →
      u2 ≤ 1 → u1 ≤ u → u ≤ u2 →
      (u1 < u ∨ u1 = 0 ∨ (0 < u ∧ tri r a (along C D u) = 0 ∧ 0 < tri A B r ∧
        ⟨(C.fin, (along C D u).fin), e, .rightNonObservable⟩ ∈ l)) →
      (u < u2 ∨ u2 = 1 ∨ (u < 1 ∧ tri r b (along C D u) = 0 ∧ 0 < tri A B r ∧
        ⟨((along C D u).fin, D.fin), e, .leftNonObservable⟩ ∈ l)) →
      Covered A B r a b C D s t e l u
  | right {u2 : F} : ⟨(C.fin, (along C D u2).fin), e, .rightNonObservable⟩ ∈ l → 0 < u2 → u2 ≤ 1 → u ≤ u2 →
      (u2 = 1 ∨ u < u2) → tri r a (along C D u) ≤ 0 →
      ((s = 0 ∧ C = A ∧ tri r a D ≤ 0) ∨ tri r a (along C D u) < 0 ∨ u = 1) →
      (0 < tri A B r ∨ ∃ ρ, ρ ≤ 0 ∧ r = along A B ρ) → Covered A B r a b C D s t e l u
  | left {u1 : F} : ⟨((along C D u1).fin, D.fin), e, .leftNonObservable⟩ ∈ l → 0 ≤ u1 → u1 < 1 → u1 ≤ u →
      (u1 = 0 ∨ u1 < u) → 0 ≤ tri r b (along C D u) →
      ((t = 1 ∧ (r = B ∨ (D = B ∧ 0 ≤ tri r b C))) ∨ 0 < tri r b (along C D u) ∨ u = 0) →
      (0 < tri A B r ∨ ∃ ρ, 1 ≤ ρ ∧ r = along A B ρ) → Covered A B r a b C D s t e l u

theorem View.covered {ws : List (Vec2 F)} {A B r a b : Vec2 F} {s t : F} (h : View ws A B r a b s t)
    (hflat : tri A B r = 0 → s = 0 ∧ t = 1) {k : Nat} {C D : Vec2 F} (hC : ws[k]? = some C)
    (hD : ws[k + 1]? = some D) {e : UInt32 × UInt32} {l : List (Successor (Ext F))}
    (ho : Out r a b C D e k l) {u : F} (u0 : 0 ≤ u) (u1 : u ≤ 1) : Covered A B r a b C D s t e l u := by
  have hlen := h.fan.len
  have hk : k + 1 < ws.length := (List.getElem?_eq_some_iff.1 hD).1
  have hC0 := h.fan.base_nonpos (h.fan.inside hC)
  have hD0 := h.fan.base_nonpos (h.fan.inside hD)
  have hAB : A ≠ B := by
    rintro rfl
    have := h.fan.convex.injective h.fan.first h.fan.last
    omega
  -- the root on the line of the base
  have flatA : tri A B r = 0 → ∃ ρ, r = along A B ρ ∧ (∀ v, tri r a v = -ρ * tri A B v)
      ∧ ∀ v, tri r b v = (1 - ρ) * tri A B v := by
    intro h0
    obtain ⟨ρ, hρ⟩ := on_line hAB h0
    obtain ⟨rfl, rfl⟩ := hflat h0
    refine ⟨ρ, hρ, fun v => ?_, fun v => ?_⟩
    · rw [h.ha, hρ, tri_along₂]; ring
    · rw [h.hb, hρ, tri_along₂]
  have hinner : tri A B C < 0 ∨ tri A B D < 0 := by
    by_cases hk0 : k = 0
    · exact .inr (h.fan.inner_neg hD (by omega) (by omega))
    · exact .inl (h.fan.inner_neg hC (by omega) (by omega))
  have front : (∃ v, tri A B v < 0 ∧ tri r a v < 0) → 0 < tri A B r ∨ ∃ ρ, ρ ≤ 0 ∧ r = along A B ρ := by
    rintro ⟨v, hv, hv'⟩
    rcases h.hr.lt_or_eq with h0 | h0
    · exact .inl h0
    · obtain ⟨ρ, hρ, ha, -⟩ := flatA h0.symm
      refine .inr ⟨ρ, ?_, hρ⟩
      rw [ha] at hv'
      by_contra hcon
      push Not at hcon
      have := mul_pos_of_neg_of_neg (show -ρ < 0 by linarith) hv
      linarith
  have frontB : (∃ v, tri A B v < 0 ∧ 0 ≤ tri r b v) → 0 < tri A B r ∨ ∃ ρ, 1 ≤ ρ ∧ r = along A B ρ := by
    rintro ⟨v, hv, hv'⟩
    rcases h.hr.lt_or_eq with h0 | h0
    · exact .inl h0
    · obtain ⟨ρ, hρ, -, hb⟩ := flatA h0.symm
      refine .inr ⟨ρ, ?_, hρ⟩
      rw [hb] at hv'
      by_contra hcon
      push Not at hcon
      have := mul_neg_of_pos_of_neg (show 0 < 1 - ρ by linarith) hv
      linarith
  have notflatA : tri r a C < 0 → 0 < tri r a D → 0 < tri A B r := by
    intro h1 h2
    refine lt_of_le_of_ne h.hr fun h0 => ?_
    obtain ⟨ρ, hρ, ha, -⟩ := flatA h0.symm
    rw [ha] at h1 h2
    rcases le_or_gt 0 ρ with hc | hc
    · have := mul_nonneg_of_nonpos_of_nonpos (show -ρ ≤ 0 by linarith) hC0
      linarith
    · have := mul_nonpos_of_nonneg_of_nonpos (show 0 ≤ -ρ by linarith) hD0
      linarith
  have mid : ∀ w, 0 < w → w < 1 → tri A B (along C D w) < 0 := fun w => h.fan.edge_inner hC hD
  have strict : ∀ p q w u : F, (1 - w) * p + w * q = 0 → p < 0 → 0 < q → u < w → u ≤ 1 →
      (1 - u) * p + u * q < 0 := by
    intro p q w u h1 h2 h3 h4 h5
    have : (1 - u) * p + u * q = (w - u) * (p - q) := by linear_combination h1
    rw [this]
    exact mul_neg_of_pos_of_neg (by linarith) (by linarith)
  have strict' : ∀ p q w u : F, (1 - w) * p + w * q = 0 → 0 < q → w < u → w < 1 → w * 0 = 0 →
      p ≤ 0 → 0 < (1 - u) * p + u * q := by
    intro p q w u h1 h3 h4 h5 _ h6
    have : (1 - u) * p + u * q = (u - w) * (q - p) := by linear_combination h1
    rw [this]
    exact mul_pos (by linarith) (by linarith)
  have nonposC : ∀ w, 0 ≤ w → w < 1 → tri r b (along C D w) = 0 → 0 < tri r b D → tri r b C ≤ 0 := by
    intro w w0 w1 hz hd
    rw [tri_along] at hz
    have g1 := mul_nonneg w0 hd.le
    by_contra hcon
    push Not at hcon
    have := mul_pos (show 0 < 1 - w by linarith) hcon
    linarith
  have leftPart : ∀ w, 0 ≤ w → w < 1 → tri r b (along C D w) = 0 → 0 < tri r b D → w ≤ u →
      (w = 0 ∨ w < u) → ⟨((along C D w).fin, D.fin), e, .leftNonObservable⟩ ∈ l →
      Covered A B r a b C D s t e l u := by
    intro w w0 w1 hz hd hwu hcase hmem
    have hp := nonposC w w0 w1 hz hd
    have hpos : w < u → 0 < tri r b (along C D u) := by
      intro hlt
      rw [tri_along] at hz ⊢
      exact strict' _ _ w u hz hd hlt w1 (by simp) hp
    have hge : 0 ≤ tri r b (along C D u) := by
      rcases hwu.lt_or_eq with hlt | heq
      · exact (hpos hlt).le
      · rw [← heq, hz]
    refine .left hmem w0 w1 hwu hcase hge ?_ ?_
    · rcases hwu.lt_or_eq with hlt | heq
      · exact .inr (.inl (hpos hlt))
      · rcases hcase with h1 | h1
        · exact .inr (.inr (by rw [← heq, h1]))
        · exact .inr (.inl (hpos h1))
    · have : 0 < tri r b (along C D ((w + 1) / 2)) := by
        rw [tri_along] at hz ⊢
        exact strict' _ _ w _ hz hd (by linarith) w1 (by simp) hp
      exact frontB ⟨_, mid _ (by linarith) (by linarith), this.le⟩
  have notflatB : ∀ w, 0 < w → w < 1 → tri r b (along C D w) = 0 → 0 < tri r b D → 0 < tri A B r := by
    intro w w0 w1 hz hd
    refine lt_of_le_of_ne h.hr fun h0 => ?_
    obtain ⟨ρ, hρ, -, hb⟩ := flatA h0.symm
    rw [hb] at hz hd
    have hρ1 := (mul_eq_zero.1 hz).resolve_right (mid w w0 w1).ne
    rw [hρ1] at hd
    simp at hd
  cases ho with
  | right hc hd hcd =>
    refine .right (u2 := 1) (by rw [along_one]; simp) zero_lt_one le_rfl u1 (.inl rfl) ?_ ?_ ?_
    · rw [tri_along]
      have := mul_nonpos_of_nonneg_of_nonpos (show 0 ≤ 1 - u by linarith) hc
      have := mul_nonpos_of_nonneg_of_nonpos u0 hd
      linarith
    · rw [tri_along]
      rcases hc.lt_or_eq with hc | hc
      · rcases u1.lt_or_eq with h1 | h1
        · right; left
          have := mul_neg_of_pos_of_neg (show 0 < 1 - u by linarith) hc
          have := mul_nonpos_of_nonneg_of_nonpos u0 hd
          linarith
        · exact .inr (.inr h1)
      · have hd := hcd hc
        left
        by_cases hk0 : k = 0
        · subst hk0
          have : A = C := Option.some.inj (h.fan.first.symm.trans hC)
          subst this
          have e : tri r a A = -(s * tri A B r) := by rw [h.ha]; simp only [tri, along]; ring
          rw [e] at hc
          refine ⟨?_, rfl, hd.le⟩
          rcases mul_eq_zero.1 (neg_eq_zero.1 hc) with h1 | h1
          · exact h1
          · exact (hflat h1).1
        · exact absurd (h.fan.keep h.aA h.aB hC hD (by omega) (by omega) hc.ge) (not_le.2 hd)
    · apply front
      by_cases hk0 : tri A B C < 0 ∧ tri r a C < 0
      · exact ⟨C, hk0⟩
      · refine ⟨along C D (1 / 2), mid _ (by norm_num) (by norm_num), ?_⟩
        rw [tri_along]
        rcases hc.lt_or_eq with hc | hc
        · linarith
        · have := hcd hc
          linarith
  | obs =>
    exact .obs (u1 := 0) (u2 := 1) (by rw [along_zero, along_one]; simp) zero_lt_one le_rfl le_rfl u0 u1
      (.inr (.inl rfl)) (.inr (.inl rfl))
  | @obsLeft w w0 w1 hz hd =>
    by_cases hwu : w < u
    · exact leftPart w w0 w1 hz hd hwu.le (.inr hwu) (by simp)
    · push Not at hwu
      rcases w0.lt_or_eq with w0 | w0
      · refine .obs (u1 := 0) (u2 := w) (by rw [along_zero]; simp) w0 le_rfl w1.le u0 hwu (.inr (.inl rfl)) ?_
        rcases hwu.lt_or_eq with h1 | h1
        · exact .inl h1
        · subst h1
          exact .inr (.inr ⟨w1, hz, notflatB u w0 w1 hz hd, by simp⟩)
      · exact leftPart w w0.le w1 hz hd (by linarith) (.inl w0.symm) (by simp)
  | @rightObs w w0 w1 hz hc hd =>
    have hr := notflatA hc hd
    by_cases hwu : w ≤ u
    · refine .obs (u1 := w) (u2 := 1) (by rw [along_one]; simp) w1 w0.le le_rfl hwu u1 ?_ (.inr (.inl rfl))
      rcases hwu.lt_or_eq with h1 | h1
      · exact .inl h1
      · subst h1
        exact .inr (.inr ⟨w0, hz, hr, by simp⟩)
    · push Not at hwu
      have : tri r a (along C D u) < 0 := by
        rw [tri_along] at hz ⊢
        exact strict _ _ w u hz hc hd hwu u1
      exact .right (u2 := w) (by simp) w0 w1.le hwu.le (.inr hwu) this.le (.inr (.inl this)) (.inl hr)
  | @rightObsLeft w w' w0 w1 hz hc hd hww w1' hz' hd' =>
    have hr := notflatA hc hd
    have hlt : w < w' := by
      refine lt_of_le_of_ne hww ?_
      rintro rfl
      have := h.lt (mid w w0 w1)
      linarith
    by_cases hwu : w ≤ u
    · by_cases hwu' : w' < u
      · exact leftPart w' (by linarith) w1' hz' hd' hwu'.le (.inr hwu') (by simp)
      · push Not at hwu'
        refine .obs (u1 := w) (u2 := w') (by simp) hlt w0.le w1'.le hwu hwu' ?_ ?_
        · rcases hwu.lt_or_eq with h1 | h1
          · exact .inl h1
          · subst h1
            exact .inr (.inr ⟨w0, hz, hr, by simp⟩)
        · rcases hwu'.lt_or_eq with h1 | h1
          · exact .inl h1
          · subst h1
            exact .inr (.inr ⟨w1', hz', hr, by simp⟩)
    · push Not at hwu
      have : tri r a (along C D u) < 0 := by
        rw [tri_along] at hz ⊢
        exact strict _ _ w u hz hc hd hwu u1
      exact .right (u2 := w) (by simp) w0 w1.le hwu.le (.inr hwu) this.le (.inr (.inl this)) (.inl hr)
  | left hk1 hbC hbD hmem =>
    have hCi : tri A B C < 0 := h.fan.inner_neg hC (by omega) (by omega)
    refine .left (u1 := 0) (by rw [along_zero]; exact hmem) le_rfl zero_lt_one u0 (.inl rfl) ?_ ?_
      (frontB ⟨C, hCi, hbC⟩)
    · rw [tri_along]
      have := mul_nonneg (show 0 ≤ 1 - u by linarith) hbC
      have := mul_nonneg u0 hbD
      linarith
    · rcases u0.lt_or_eq with u0 | u0
      swap
      · exact .inr (.inr u0.symm)
      by_cases hz : tri r b (along C D u) = 0
      swap
      · right; left
        refine lt_of_le_of_ne ?_ (Ne.symm hz)
        rw [tri_along]
        have := mul_nonneg (show 0 ≤ 1 - u by linarith) hbC
        have := mul_nonneg u0.le hbD
        linarith
      left
      rw [tri_along] at hz
      have g1 := mul_nonneg (show 0 ≤ 1 - u by linarith) hbC
      have g2 := mul_nonneg u0.le hbD
      have hD1 : tri r b D = 0 := (mul_eq_zero.1 (show u * tri r b D = 0 by linarith)).resolve_left u0.ne'
      by_cases ht : t = 1
      · refine ⟨ht, ?_⟩
        by_cases hrB : r = B
        · exact .inl hrB
        refine .inr ⟨?_, hbC⟩
        by_contra hDB
        have hkl : k + 1 ≠ ws.length - 1 := by
          intro hkl
          rw [hkl, h.fan.last] at hD
          cases hD
          exact hDB rfl
        have hbB : b = B := by rw [h.hb, ht, along_one]
        have e4 := tri_four r b A C D B
        have c1 := h.fan.convex.2 k (k + 1) (ws.length - 1) C D B (by omega) (by omega) hC hD h.fan.last
        have c3 := h.fan.convex.2 0 (k + 1) (ws.length - 1) A D B (by omega) (by omega) h.fan.first hD h.fan.last
        have d1 := mul_nonpos_of_nonneg_of_nonpos c1.le h.bA
        have d2 := mul_nonneg c3.le hbC
        have d3 : tri r b B = 0 := by rw [hbB]; simp
        rw [hD1, d3] at e4
        have hA0 : tri r b A = 0 :=
          (mul_eq_zero.1 (show tri C D B * tri r b A = 0 by linarith)).resolve_left c1.ne'
        have hr0 : tri A B r = 0 := by
          rw [hbB, tri_cyc r B A |>.symm, tri_swap] at hA0
          linarith
        obtain ⟨ρ, hρ, -, hb⟩ := flatA hr0
        rw [hb] at hD1
        have hDi : tri A B D < 0 := h.fan.inner_neg hD (by omega) (by omega)
        have := (mul_eq_zero.1 hD1).resolve_right hDi.ne
        apply hrB
        rw [hρ, show ρ = 1 by linarith, along_one]
      exfalso
      have ht1 : t < 1 := lt_of_le_of_ne h.t1 ht
      have hr : 0 < tri A B r := lt_of_le_of_ne h.hr fun h0 => ht (hflat h0.symm).2
      have hbB : 0 < tri r b B := by
        have e : tri r b B = (1 - t) * tri A B r := by rw [h.hb]; simp only [tri, along]; ring
        rw [e]; exact mul_pos (by linarith) hr
      have hkl : k + 1 ≠ ws.length - 1 := by
        intro hkl
        rw [hkl, h.fan.last] at hD
        cases hD
        exact hbB.ne' hD1
      have e4 := tri_four r b A C D B
      have c1 := h.fan.convex.2 k (k + 1) (ws.length - 1) C D B (by omega) (by omega) hC hD h.fan.last
      have c3 := h.fan.convex.2 0 (k + 1) (ws.length - 1) A D B (by omega) (by omega) h.fan.first hD h.fan.last
      have c4 := h.fan.convex.2 0 k (k + 1) A C D (by omega) (by omega) h.fan.first hC hD
      have d1 := mul_nonpos_of_nonneg_of_nonpos c1.le h.bA
      have d2 := mul_nonneg c3.le hbC
      have d3 := mul_pos c4 hbB
      rw [hD1] at e4
      linarith

theorem Covered.mono {A B r a b C D : Vec2 F} {s t : F} {e : UInt32 × UInt32}
    {l l' : List (Successor (Ext F))} {u : F} (h : Covered A B r a b C D s t e l u) (hl : l ⊆ l') :
    Covered A B r a b C D s t e l' u := by
  cases h with
  | obs h1 h2 h3 h4 h5 h6 h7 h8 =>
    refine .obs (hl h1) h2 h3 h4 h5 h6 (h7.imp id (Or.imp id ?_)) (h8.imp id (Or.imp id ?_))
    · rintro ⟨g1, g2, g3, g4⟩; exact ⟨g1, g2, g3, hl g4⟩
    · rintro ⟨g1, g2, g3, g4⟩; exact ⟨g1, g2, g3, hl g4⟩
  | right h1 h2 h3 h4 h5 h6 h7 h8 => exact .right (hl h1) h2 h3 h4 h5 h6 h7 h8
  | left h1 h2 h3 h4 h5 h6 h7 h8 => exact .left (hl h1) h2 h3 h4 h5 h6 h7 h8

/-- `edges_between` covers every other edge of the polygon. -/
theorem edgesBetween_cover {m : Mesh (Ext F)} {node : SearchNode (Ext F)} {succs : List (Successor (Ext F))}
    (he : edgesBetween m node = .ok succs) {prev : Layer (Ext F)} {r a b A B : Vec2 F} {s t : F}
    (hprev : m.layers[node.previousPolygonLayer.toNat]? = some prev)
    (hB : VertexAt prev node.edge.2 B) (hroot : node.root = r.fin)
    (hint : node.interval = (a.fin, b.fin)) {ps : List (Vec2 F)} (hring : Ring m node.polygonTo ps)
    (hconv : StrictlyConvex ps) (hcons : Consecutive ps B A)
    (hap : ∀ v ∈ ps, sqDist v B < 1 / 1000 → v = B)
    (hview : ∀ n, Fan (ps.rotate n) A B → View (ps.rotate n) A B r a b s t)
    (hflat : tri A B r = 0 → s = 0 ∧ t = 1) :
    ∃ l p n, HasPolygon m node.polygonTo l p ∧ View (ps.rotate n) A B r a b s t ∧
      ∀ x y C D, IsEdge p.vertices x y → VertexAt l x C → VertexAt l y D → (C = B ∧ D = A) ∨
        ∃ k : Nat, (ps.rotate n)[k]? = some C ∧ (ps.rotate n)[k + 1]? = some D ∧
          ∀ u, 0 ≤ u → u ≤ 1 → Covered A B r a b C D s t (x, y) succs u := by
  obtain ⟨l, p, hp, hps⟩ := hring
  unfold edgesBetween at he
  simp only [bind_eq_ok, idx_eq_ok] at he
  obtain ⟨layer, hl, poly, hpoly, prev', hpv, ev, hev, ri, hri, edges, hc, res, hf, he⟩ := he
  simp only [Except.ok.injEq] at he
  subst he
  rw [layerOf_toNat, hp.1] at hl
  cases hl
  rw [polygonOf_toNat, hp.2] at hpoly
  cases hpoly
  rw [hprev] at hpv
  cases hpv
  obtain ⟨ev', hev', hevB⟩ := hB
  rw [hev] at hev'
  cases hev'
  rw [hevB] at hri
  obtain ⟨i, hi, hiB, hiA⟩ := hcons
  have hriB := rightIndex_exact hps hiB hap hri
  have : ri = i := hconv.injective hriB hiB
  subst this
  have hlen : p.vertices.length = ps.length := hps.length_eq
  have hfan := fan_of_consecutive hconv hi hiB hiA
  have hv := hview _ hfan
  refine ⟨l, p, ri + 1, hp, hv, ?_⟩
  have h3 := hconv.1
  obtain ⟨helen, hedges⟩ := circularEdges_getElem (by omega) (by omega) hc
  have hrot : ∀ k e, edges[k]? = some e → ∀ C D, VertexAt l e.1 C → VertexAt l e.2 D →
      (ps.rotate (ri + 1))[k]? = some C ∧ (ps.rotate (ri + 1))[k + 1]? = some D := by
    intro k e hk C D hCv hDv
    obtain ⟨hk1, hea, heb⟩ := hedges k e hk
    obtain ⟨C', hC, hCv'⟩ := forall₂_getElem hps hea
    obtain ⟨D', hD, hDv'⟩ := forall₂_getElem hps heb
    rw [hCv.unique hCv', hDv.unique hDv']
    rw [List.getElem?_rotate (by omega), List.getElem?_rotate (by omega), ← hlen]
    exact ⟨hC, hD⟩
  have hfinal := foldlM_inv_idx (fun (k : Nat) (st : List (Successor (Ext F)) × SuccTy) =>
    (∀ j, j < k → ∀ e, edges[j]? = some e → ∀ C D, VertexAt l e.1 C → VertexAt l e.2 D →
      ∃ l', Out r a b C D e j l' ∧ l' ⊆ st.1)
    ∧ ∃ v, (ps.rotate (ri + 1))[k]? = some v ∧ View.State r a b k v st.2) ?_ ?_ hf
  · intro x y C D hxy hC hD
    obtain ⟨i, hi', hix, hiy⟩ := hxy
    by_cases hir : i = ri
    · left
      subst hir
      obtain ⟨C', hC1, hC2⟩ := forall₂_getElem hps hix
      obtain ⟨D', hD1, hD2⟩ := forall₂_getElem hps hiy
      rw [hlen] at hD1
      rw [hC1] at hiB
      rw [hD1] at hiA
      cases hiB
      cases hiA
      exact ⟨hC.unique hC2, hD.unique hD2⟩
    · right
      have hk : ∃ k, k < edges.length ∧ (k + (ri + 1)) % p.vertices.length = i
          ∧ (k + 1 + (ri + 1)) % p.vertices.length = (i + 1) % p.vertices.length := by
        by_cases hlt : i < ri
        · refine ⟨i + p.vertices.length - (ri + 1), by omega, ?_, ?_⟩
          · have : i + p.vertices.length - (ri + 1) + (ri + 1) = i + p.vertices.length := by omega
            rw [this, Nat.add_mod_right, Nat.mod_eq_of_lt hi']
          · have : i + p.vertices.length - (ri + 1) + 1 + (ri + 1) = i + 1 + p.vertices.length := by omega
            rw [this, Nat.add_mod_right]
        · refine ⟨i - (ri + 1), by omega, ?_, ?_⟩
          · have : i - (ri + 1) + (ri + 1) = i := by omega
            rw [this, Nat.mod_eq_of_lt hi']
          · have : i - (ri + 1) + 1 + (ri + 1) = i + 1 := by omega
            rw [this]
      obtain ⟨k, hk, hk1, hk2⟩ := hk
      obtain ⟨-, he1, he2⟩ := hedges k _ (List.getElem?_eq_getElem hk)
      rw [hk1, hix] at he1
      rw [hk2, hiy] at he2
      have hke : edges[k]? = some (x, y) := by
        rw [List.getElem?_eq_getElem hk]
        congr 1
        exact Prod.ext (Option.some.inj he1).symm (Option.some.inj he2).symm
      obtain ⟨hCw, hDw⟩ := hrot k _ hke C D hC hD
      refine ⟨k, hCw, hDw, ?_⟩
      obtain ⟨l', hout, hsub⟩ := hfinal.1 k hk _ hke C D hC hD
      intro u u0 u1
      exact (hv.covered hflat hCw hDw hout u0 u1).mono hsub
  · exact ⟨by simp, A, hfan.first, hv.aA⟩
  · intro k st e st' hk hst hstep
    obtain ⟨hk1, hea, heb⟩ := hedges k e hk
    obtain ⟨C, hC, hCv⟩ := forall₂_getElem hps hea
    obtain ⟨D, hD, hDv⟩ := forall₂_getElem hps heb
    obtain ⟨hCw, hDw⟩ := hrot k e hk C D hCv hDv
    obtain ⟨hold, v, hvk, hstate⟩ := hst
    rw [hCw] at hvk
    cases hvk
    unfold edgesBetweenStep at hstep
    obtain ⟨vC, hvC, hvC'⟩ := id hCv
    obtain ⟨vD, hvD, hvD'⟩ := id hDv
    have g1 : e.1.toNat < l.vertices.length := (List.getElem?_eq_some_iff.1 hvC).1
    have g2 : e.2.toNat < l.vertices.length := (List.getElem?_eq_some_iff.1 hvD).1
    rw [if_neg (by
      change ¬ l.vertices.length < (if e.1 ≤ e.2 then e.2 else e.1).toNat
      split <;> omega)] at hstep
    rw [idxUnchecked_eq_ok.2 hvC, idxUnchecked_eq_ok.2 hvD] at hstep
    simp only [res_bind_ok, Except.ok.injEq] at hstep
    rw [hvC', hvD', hroot, hint] at hstep
    obtain ⟨-, hb2⟩ := hv.body_step hCw hDw hstate e
    have hout := hv.body_out hCw hDw hstate e
    subst hstep
    refine ⟨?_, D, hDw, hb2⟩
    intro j hj e' he' C' D' hC' hD'
    rcases Nat.lt_succ_iff_lt_or_eq.1 hj with hj | rfl
    · obtain ⟨l', h1, h2⟩ := hold j hj e' he' C' D' hC' hD'
      refine ⟨l', h1, fun x hx => ?_⟩
      rw [List.append_assoc]
      exact List.mem_append_left _ (h2 hx)
    · rw [hk] at he'
      cases he'
      rw [hC'.unique hCv, hD'.unique hDv]
      refine ⟨_, hout, fun x hx => ?_⟩
      rw [List.append_assoc]
      exact List.mem_append_right _ hx

end Polyanya
