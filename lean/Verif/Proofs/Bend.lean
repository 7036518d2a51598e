import Verif.Proofs.Spin
/-
At a vertex that is surrounded by polygons, a bend can be cut short.
-/

namespace Polyanya

variable {m : Mesh (Ext ℝ)} {v : Vec2 ℝ} {σ : ℝ}

theorem Conforming.ring_convex (hc : Conforming m) {T : UInt32} {ps : List (Vec2 ℝ)} (h : Ring m T ps) :
    StrictlyConvex ps := by
  obtain ⟨l, p, hp, -⟩ := id h
  obtain ⟨qs, hq, hqc⟩ := hc.convex _ _ _ hp
  exact hq.unique h ▸ hqc

theorem StrictlyConvex.on_edge {ps : List (Vec2 ℝ)} (h : StrictlyConvex ps) {C D x : Vec2 ℝ}
    (hCD : Consecutive ps C D) (hx : Inside ps x) (h0 : tri C D x = 0) : Between C D x := by
  obtain ⟨i, hi, hC, hD⟩ := hCD
  have hf := fan_of_consecutive h hi hC hD
  refine (hf.on_base ((inside_rotate _).2 hx) ?_).symm
  rw [tri_swap, h0, neg_zero]

namespace Corner

variable {ps : List (Vec2 ℝ)} {b a x : Vec2 ℝ}

/-- A point of the polygon on the line of an edge at the corner is on the edge. -/
theorem on_first (h : Corner ps v σ b a) (hx : Inside ps x) (h0 : σ * tri v b x = 0) : Between v b x := by
  rcases h.cases with ⟨rfl, h1, -⟩ | ⟨rfl, h1, -⟩
  · exact h.convex.on_edge h1 hx (by linarith)
  · refine (h.convex.on_edge h1 hx ?_).symm
    rw [← tri_cyc, tri_swap']
    rw [← tri_cyc, tri_swap', tri_cyc] at *
    linarith

theorem not_both (h : Corner ps v σ b a) (hx : x ≠ v) (h1 : σ * tri v x a = 0) (h2 : σ * tri v b x = 0) : False := by
  have hs : σ ≠ 0 := by rcases h.sign with rfl | rfl <;> norm_num
  have h1' := (mul_eq_zero.1 h1).resolve_left hs
  have h2' := (mul_eq_zero.1 h2).resolve_left hs
  have hp : tri v b a ≠ 0 := by
    intro h0
    have := h.pos
    rw [h0, mul_zero] at this
    exact lt_irrefl _ this
  apply hx
  rw [Vec2.ext_iff']
  constructor
  · have : (x.x - v.x) * tri v b a = (b.x - v.x) * tri v x a + (a.x - v.x) * tri v b x := by
      simp only [tri]; ring
    rw [h1', h2', mul_zero, mul_zero, add_zero] at this
    linarith [(mul_eq_zero.1 this).resolve_right hp]
  · have : (x.y - v.y) * tri v b a = (b.y - v.y) * tri v x a + (a.y - v.y) * tri v b x := by
      simp only [tri]; ring
    rw [h1', h2', mul_zero, mul_zero, add_zero] at this
    linarith [(mul_eq_zero.1 this).resolve_right hp]

end Corner

theorem EndAt.between {e : Crossing} {b y : Vec2 ℝ} (h : EndAt m σ e v b) (hy : Between v b y) :
    ∃ A B, e.At m A B ∧ Between A B y := by
  rcases h with ⟨-, h⟩ | ⟨-, h⟩
  · exact ⟨_, _, h, hy⟩
  · exact ⟨_, _, h, hy.symm⟩

theorem EndAt.entered (hc : Conforming m) {e : Crossing} (hv : e.Valid m) {b y : Vec2 ℝ} (h : EndAt m σ e v b)
    (hy : Between v b y) : InPolygon m e.dst y := by
  obtain ⟨A, B, hat, hb⟩ := h.between hy
  exact hc.entered hv hat hb

theorem same_direction (hsur : Surrounded m v) {P Q : UInt32} {ps ps' : List (Vec2 ℝ)} (hP : Ring m P ps)
    (hQ : Ring m Q ps') {b a b' a' x : Vec2 ℝ} (cP : Corner ps v σ b a) (cQ : Corner ps' v σ b' a')
    (hx : Inside ps x) (hx' : Inside ps' x) (h1 : 0 < σ * tri v x a) (h2 : 0 < σ * tri v x a') : P = Q := by
  refine overlap hsur hP hQ cP cQ (z := a) (q := x) ⟨cP.pos.le, by simp⟩ (cQ.cone hx').1 h1 ?_ h2
  have := (cP.cone hx).1
  rw [tri_swap']
  linarith

theorem same_ray_aux (hc : Conforming m) (hsur : Surrounded m v) {P Q : UInt32} {ps ps' : List (Vec2 ℝ)} (hP : Ring m P ps)
    (hQ : Ring m Q ps') {b a b' a' x : Vec2 ℝ} (cP : Corner ps v σ b a) (cQ : Corner ps' v σ b' a')
    (hx : Inside ps x) (hx' : Inside ps' x) (hne : x ≠ v) (h1 : σ * tri v b x = 0) (h2 : σ * tri v x a' = 0) :
    Straight m P x Q x := by
  obtain ⟨e, rfl, hv, hat, ps2, b2, hr2, c2⟩ := spin_step hc hsur hP cP
  have hb := cP.on_first hx h1
  have hin := hat.entered hc hv hb
  obtain ⟨A, B, hAB, hy⟩ := hat.between hb
  obtain ⟨ps3, hr3, hx3⟩ := id hin
  obtain rfl := hr2.unique hr3
  have g1 : 0 < σ * tri v b2 x := by
    refine lt_of_le_of_ne (c2.cone hx3).1 (fun h => c2.not_both hne ?_ h.symm)
    rw [tri_swap']
    linarith
  have g2 : 0 < σ * tri v b' x := lt_of_le_of_ne (cQ.cone hx').1 (fun h => cQ.not_both hne h2 h.symm)
  have : e.dst = Q := by
    refine same_direction hsur hr2 hQ c2.flip cQ.flip hx3 hx' ?_ ?_
    · rw [tri_swap']; linarith
    · rw [tri_swap']; linarith
  refine .cross ⟨ps, hP, hx⟩ hv hAB hy (Between.left _ _) ?_
  rw [this] at hin ⊢
  exact .stay hin hin

/-- Two polygons with a corner at `v` that share another point are linked there. -/
theorem same_ray (hc : Conforming m) (hsur : Surrounded m v) {P Q : UInt32} {ps ps' : List (Vec2 ℝ)} (hP : Ring m P ps)
    (hQ : Ring m Q ps') (hv : v ∈ ps) (hv' : v ∈ ps') {x : Vec2 ℝ} (hx : Inside ps x) (hx' : Inside ps' x)
    (hne : x ≠ v) : Straight m P x Q x := by
  obtain ⟨b, a, cP⟩ := corner_exists (hc.ring_convex hP) hv (σ := 1) (.inl rfl)
  obtain ⟨b', a', cQ⟩ := corner_exists (hc.ring_convex hQ) hv' (σ := 1) (.inl rfl)
  have same : P = Q → Straight m P x Q x := by
    rintro rfl
    exact .stay ⟨_, hP, hx⟩ ⟨_, hP, hx⟩
  obtain ⟨k1, k2⟩ := cP.cone hx
  obtain ⟨k3, k4⟩ := cQ.cone hx'
  rcases eq_or_lt_of_le k2 with h2 | h2
  · rcases eq_or_lt_of_le k3 with h3 | h3
    · refine same_ray_aux hc hsur hP hQ cP.flip cQ.flip hx hx' hne ?_ ?_
      · rw [tri_swap']; linarith
      · rw [tri_swap']; linarith
    · rcases eq_or_lt_of_le k1 with h1 | h1
      · exact (cP.not_both hne h2.symm h1.symm).elim
      · refine same (same_direction hsur hP hQ cP.flip cQ.flip hx hx' ?_ ?_)
        · rw [tri_swap']; linarith
        · rw [tri_swap']; linarith
  · rcases eq_or_lt_of_le k4 with h4 | h4
    · rcases eq_or_lt_of_le k1 with h1 | h1
      · exact same_ray_aux hc hsur hP hQ cP cQ hx hx' hne h1.symm h4.symm
      · rcases eq_or_lt_of_le k3 with h3 | h3
        · exact (cQ.not_both hne h4.symm h3.symm).elim
        · refine same (same_direction hsur hP hQ cP.flip cQ.flip hx hx' ?_ ?_)
          · rw [tri_swap']; linarith
          · rw [tri_swap']; linarith
    · exact same (same_direction hsur hP hQ cP cQ hx hx' h2 h4)

theorem spins_straight (hc : Conforming m) {p q : Vec2 ℝ} {δ : ℝ} (hδ : 0 < δ) (hD : 0 < σ * tri v q p) {Q : UInt32}
    (hY : InPolygon m Q (along v q δ)) : ∀ (es : List (Crossing × Vec2 ℝ)) {z x : Vec2 ℝ} {T : UInt32} {κ : ℝ},
    Spins m σ v q z T Q es → (∀ eb ∈ es, δ * (σ * tri v q p) ≤ σ * tri v eb.2 p + σ * tri v q eb.2) →
    0 < κ → x = along v z κ → tri (along v q δ) (along v p δ) x = 0 → InPolygon m T x →
    Straight m T x Q (along v q δ) := by
  intro es
  induction es with
  | nil =>
    intro z x T κ hs _ _ _ _ hx
    cases hs
    exact .stay hx hY
  | cons eb es ih =>
    obtain ⟨e, b⟩ := eb
    intro z x T κ hs hall hκ hxz hline hx
    obtain ⟨rfl, hv, hat, hqb, hbz, hrest⟩ := hs
    have hcond : δ * (σ * tri v q p) ≤ σ * tri v b p + σ * tri v q b := hall (e, b) (List.mem_cons_self ..)
    have e1 : σ * tri v b x = κ * (σ * tri v b z) := by rw [hxz, tri_along, tri_left]; ring
    have e2 : σ * tri v b (along v q δ) = - (δ * (σ * tri v q b)) := by
      rw [tri_along, tri_left, tri_swap' v q b]; ring
    have hbx : 0 ≤ σ * tri v b x := by rw [e1]; exact mul_nonneg hκ.le hbz
    have hYb : 0 < δ * (σ * tri v q b) := mul_pos hδ hqb
    have hsum : 0 < σ * tri v b x + δ * (σ * tri v q b) := by linarith
    obtain ⟨u, hu⟩ : ∃ u, u = (σ * tri v b x) / (σ * tri v b x + δ * (σ * tri v q b)) := ⟨_, rfl⟩
    have hum : u * (σ * tri v b x + δ * (σ * tri v q b)) = σ * tri v b x := by
      rw [hu]; exact div_mul_cancel₀ _ hsum.ne'
    have u0 : 0 ≤ u := by rw [hu]; positivity
    have u1 : u ≤ 1 := by rw [hu]; exact (div_le_one hsum).2 (by linarith)
    have hs0 : σ ≠ 0 := by rintro rfl; simp at hD
    have hbv : v ≠ b := by rintro rfl; simp at hqb
    have hy0 : tri v b (along x (along v q δ) u) = 0 := by
      have : σ * tri v b (along x (along v q δ) u) = 0 := by
        rw [tri_along, mul_add, show σ * ((1 - u) * tri v b x) = (1 - u) * (σ * tri v b x) by ring,
          show σ * (u * tri v b (along v q δ)) = u * (σ * tri v b (along v q δ)) by ring, e2]
        linarith
      exact (mul_eq_zero.1 this).resolve_left hs0
    obtain ⟨k, hk⟩ := on_line hbv hy0
    have hyl : tri (along v q δ) (along v p δ) (along x (along v q δ) u) = 0 := by
      rw [tri_along, hline, tri_left]; ring
    have gv : σ * tri (along v q δ) (along v p δ) v = δ * δ * (σ * tri v q p) := by
      simp only [tri, along]; ring
    have gb : σ * tri (along v q δ) (along v p δ) b
        = δ * (δ * (σ * tri v q p) - (σ * tri v b p + σ * tri v q b)) := by
      simp only [tri, along]; ring
    have gvp : 0 < δ * δ * (σ * tri v q p) := by positivity
    have gbn : δ * (δ * (σ * tri v q p) - (σ * tri v b p + σ * tri v q b)) ≤ 0 :=
      mul_nonpos_of_nonneg_of_nonpos hδ.le (by linarith)
    have hk0 : (1 - k) * (δ * δ * (σ * tri v q p))
        + k * (δ * (δ * (σ * tri v q p) - (σ * tri v b p + σ * tri v q b))) = 0 := by
      have h1 : σ * tri (along v q δ) (along v p δ) (along v b k) = 0 := by rw [← hk, hyl, mul_zero]
      rw [tri_along] at h1
      rw [← gv, ← gb]
      linarith
    have hkpos : 0 < k := by
      by_contra hcon
      push Not at hcon
      have := mul_nonneg_of_nonpos_of_nonpos hcon gbn
      have := mul_pos (show 0 < 1 - k by linarith) gvp
      linarith
    have hk1 : k ≤ 1 := by
      by_contra hcon
      push Not at hcon
      have := mul_nonpos_of_nonneg_of_nonpos hkpos.le gbn
      have := mul_neg_of_neg_of_pos (show 1 - k < 0 by linarith) gvp
      linarith
    have hbet : Between v b (along x (along v q δ) u) := ⟨k, hkpos.le, hk1, hk⟩
    obtain ⟨A, B, hAB, hy⟩ := hat.between hbet
    refine .cross hx hv hAB hy ⟨u, u0, u1, rfl⟩ ?_
    exact ih hrest (fun eb h => hall eb (List.mem_cons_of_mem _ h)) hkpos hk hyl (hat.entered hc hv hbet)

theorem spins_cone {q p : Vec2 ℝ} (hD : 0 < σ * tri v q p) : ∀ (es : List (Crossing × Vec2 ℝ)) {z : Vec2 ℝ} {T Q : UInt32},
    Spins m σ v q z T Q es → 0 < σ * tri v q z → 0 ≤ σ * tri v z p →
    ∀ eb ∈ es, 0 < σ * tri v eb.2 p + σ * tri v q eb.2 := by
  intro es
  induction es with
  | nil => intro z T Q _ _ _ eb h; simp at h
  | cons eb es ih =>
    obtain ⟨e, b⟩ := eb
    intro z T Q hs hz hzp
    obtain ⟨-, -, -, hqb, hbz, hrest⟩ := hs
    have hbp : 0 ≤ σ * tri v b p := by
      have key : (σ * tri v q z) * (σ * tri v b p) = (σ * tri v b z) * (σ * tri v q p)
          + (σ * tri v z p) * (σ * tri v q b) := by
        simp only [tri]; ring
      have h1 : 0 ≤ (σ * tri v q z) * (σ * tri v b p) := by
        rw [key]
        exact add_nonneg (mul_nonneg hbz hD.le) (mul_nonneg hzp hqb.le)
      by_contra hcon
      push Not at hcon
      have := mul_neg_of_pos_of_neg hz hcon
      linarith
    intro eb heb
    rcases List.mem_cons.1 heb with rfl | heb
    · simp only; linarith
    · exact ih hrest hqb hbp eb heb

theorem exists_scale {p q : Vec2 ℝ} (hD : 0 < σ * tri v q p) : ∀ (es : List (Crossing × Vec2 ℝ)),
    (∀ eb ∈ es, 0 < σ * tri v eb.2 p + σ * tri v q eb.2) →
    ∃ δ, 0 < δ ∧ δ ≤ 1 ∧ ∀ eb ∈ es, δ * (σ * tri v q p) ≤ σ * tri v eb.2 p + σ * tri v q eb.2 := by
  intro es
  induction es with
  | nil => intro _; exact ⟨1, one_pos, le_rfl, by simp⟩
  | cons eb es ih =>
    intro hall
    obtain ⟨δ, d0, d1, h⟩ := ih (fun x hx => hall x (List.mem_cons_of_mem _ hx))
    have hp := hall eb (List.mem_cons_self ..)
    refine ⟨min δ ((σ * tri v eb.2 p + σ * tri v q eb.2) / (σ * tri v q p)), lt_min d0 (div_pos hp hD),
      (min_le_left _ _).trans d1, ?_⟩
    intro x hx
    rcases List.mem_cons.1 hx with rfl | hx
    · calc _ ≤ (σ * tri v x.2 p + σ * tri v q x.2) / (σ * tri v q p) * (σ * tri v q p) :=
          mul_le_mul_of_nonneg_right (min_le_right _ _) hD.le
        _ = _ := div_mul_cancel₀ _ hD.ne'
    · exact (mul_le_mul_of_nonneg_right (min_le_left _ _) hD.le).trans (h x hx)

theorem bend_aux (hc : Conforming m) (hsur : Surrounded m v) {P Q : UInt32} {ps ps' : List (Vec2 ℝ)} (hP : Ring m P ps)
    (hQ : Ring m Q ps') {b a b' a' p q : Vec2 ℝ} (cP : Corner ps v σ b a) (cQ : Corner ps' v σ b' a')
    (hp : Inside ps p) (hq : Inside ps' q) (hD : 0 < σ * tri v q p) (hqa : 0 < σ * tri v q a') :
    ∃ δ, 0 < δ ∧ δ ≤ 1 ∧ Straight m P (along v p δ) Q (along v q δ) := by
  obtain ⟨es, hes⟩ := spin hc hsur hQ cQ (cQ.cone hq).1 hqa _ le_rfl hP cP (cP.cone hp) hD
  obtain ⟨δ, d0, d1, hall⟩ := exists_scale hD es (spins_cone hD es hes hD (by simp))
  have vP := (hc.ring_convex hP).mem_inside cP.mem.1
  have vQ := (hc.ring_convex hQ).mem_inside cQ.mem.1
  refine ⟨δ, d0, d1, spins_straight hc d0 hD ⟨_, hQ, vQ.between hq ⟨δ, d0.le, d1, rfl⟩⟩ es hes hall d0 rfl
    (by simp) ⟨_, hP, vP.between hp ⟨δ, d0.le, d1, rfl⟩⟩⟩

theorem bend (hc : Conforming m) (hsur : Surrounded m v) {P Q : UInt32} {ps ps' : List (Vec2 ℝ)} (hP : Ring m P ps)
    (hQ : Ring m Q ps') (hv : v ∈ ps) (hv' : v ∈ ps') {p q : Vec2 ℝ} (hσ : σ = 1 ∨ σ = -1)
    (hp : Inside ps p) (hq : Inside ps' q) (hD : 0 < σ * tri v q p) :
    ∃ δ Q', 0 < δ ∧ δ ≤ 1 ∧ Straight m P (along v p δ) Q' (along v q δ)
      ∧ Straight m Q' (along v q δ) Q (along v q δ) := by
  obtain ⟨b, a, cP⟩ := corner_exists (hc.ring_convex hP) hv hσ
  obtain ⟨b', a', cQ⟩ := corner_exists (hc.ring_convex hQ) hv' hσ
  obtain ⟨k1, k2⟩ := cQ.cone hq
  have hne : q ≠ v := by rintro rfl; simp at hD
  rcases eq_or_lt_of_le k2 with h2 | h2
  · obtain ⟨e, rfl, hve, hat, ps2, b2, hr2, c2⟩ := spin_step hc hsur hQ cQ.flip
    have hb := cQ.flip.on_first hq (by rw [tri_swap']; linarith)
    obtain ⟨ps3, hr3, hx3⟩ := hat.entered hc hve hb
    obtain rfl := hr2.unique hr3
    have c3 := c2.flip
    rw [neg_neg] at c3
    have hqb : 0 < σ * tri v q b2 :=
      lt_of_le_of_ne (c3.cone hx3).2 (fun h => c3.not_both hne h.symm (by rw [tri_swap']; linarith))
    obtain ⟨δ, d0, d1, hst⟩ := bend_aux hc hsur hP hr2 cP c3 hp hx3 hD hqb
    refine ⟨δ, e.dst, d0, d1, hst, ?_⟩
    have vQ := (hc.ring_convex hQ).mem_inside hv'
    have v2 := (hc.ring_convex hr2).mem_inside c3.mem.1
    refine same_ray hc hsur hr2 hQ c3.mem.1 hv' (v2.between hx3 ⟨δ, d0.le, d1, rfl⟩)
      (vQ.between hq ⟨δ, d0.le, d1, rfl⟩) ?_
    have := along_ne hne.symm d0.ne'
    rwa [along_zero] at this
  · obtain ⟨δ, d0, d1, hst⟩ := bend_aux hc hsur hP hQ cP cQ hp hq hD h2
    exact ⟨δ, Q, d0, d1, hst, .stay hst.dst_in hst.dst_in⟩

/-- A bend at a surrounded vertex can be cut short. -/
theorem cut_bend (hc : Conforming m) (hsur : Surrounded m v) {P Q : UInt32} {p q : Vec2 ℝ} (hP : InPolygon m P p)
    (hPv : InPolygon m P v) (hQ : InPolygon m Q q) (hQv : InPolygon m Q v) (hq : q ≠ v)
    (hb : ¬ Between p q v) : ∃ s t Q', 0 < s ∧ s ≤ 1 ∧ 0 < t ∧ t ≤ 1 ∧ Straight m P (along v p s) Q' (along v q t)
      ∧ Straight m Q' (along v q t) Q (along v q t) := by
  obtain ⟨ps, rP, hp'⟩ := hP
  obtain ⟨ps0, rP0, hpv⟩ := hPv
  obtain rfl := rP.unique rP0
  obtain ⟨ps', rQ, hq'⟩ := hQ
  obtain ⟨ps1, rQ1, hqv⟩ := hQv
  obtain rfl := rQ.unique rQ1
  have vP := hsur.corner _ _ rP hpv
  have vQ := hsur.corner _ _ rQ hqv
  rcases lt_trichotomy (tri v q p) 0 with h | h | h
  · obtain ⟨δ, Q', d0, d1, h1, h2⟩ := bend hc hsur rP rQ vP vQ (σ := -1) (.inr rfl) hp' hq' (by linarith)
    exact ⟨δ, δ, Q', d0, d1, d0, d1, h1, h2⟩
  · obtain ⟨k, hk⟩ := on_line hq.symm h
    have k0 : 0 < k := by
      by_contra hcon
      push Not at hcon
      apply hb
      have hd : 0 < 1 - k := by linarith
      refine ⟨-k / (1 - k), div_nonneg (by linarith) hd.le, (div_le_one hd).2 (by linarith), ?_⟩
      have hm := div_mul_cancel₀ (-k) hd.ne'
      rw [hk]
      generalize -k / (1 - k) = u at hm
      simp only [along, Vec2.ext_iff']
      constructor
      · linear_combination (-(q.x - v.x)) * hm
      · linear_combination (-(q.y - v.y)) * hm
    have key : ∀ s t, 0 < s → s ≤ 1 → 0 < t → t ≤ 1 → along v p s = along v q t →
        ∃ s t Q', 0 < s ∧ s ≤ 1 ∧ 0 < t ∧ t ≤ 1 ∧ Straight m P (along v p s) Q' (along v q t)
          ∧ Straight m Q' (along v q t) Q (along v q t) := by
      intro s t s0 s1 t0 t1 he
      have hx : Inside ps (along v q t) := he ▸ hpv.between hp' ⟨s, s0.le, s1, rfl⟩
      have hx' : Inside ps' (along v q t) := hqv.between hq' ⟨t, t0.le, t1, rfl⟩
      have hne : along v q t ≠ v := by
        have := along_ne hq.symm t0.ne'
        rwa [along_zero] at this
      have hst := same_ray hc hsur rP rQ vP vQ hx hx' hne
      exact ⟨s, t, Q, s0, s1, t0, t1, by rw [he]; exact hst, .stay hst.dst_in hst.dst_in⟩
    rcases le_total k 1 with h1 | h1
    · refine key 1 k one_pos le_rfl k0 h1 ?_
      rw [along_one, hk]
    · refine key (1 / k) 1 (by positivity) ((div_le_one k0).2 h1) one_pos le_rfl ?_
      rw [along_one, hk]
      have := one_div_mul_cancel k0.ne'
      generalize 1 / k = u at this
      simp only [along, Vec2.ext_iff']
      constructor
      · linear_combination (q.x - v.x) * this
      · linear_combination (q.y - v.y) * this
  · obtain ⟨δ, Q', d0, d1, h1, h2⟩ := bend hc hsur rP rQ vP vQ (σ := 1) (.inl rfl) hp' hq' (by linarith)
    exact ⟨δ, δ, Q', d0, d1, d0, d1, h1, h2⟩

theorem between_scale {p q : Vec2 ℝ} {s t : ℝ} (s0 : 0 < s) (t0 : 0 < t) (h : Between (along v p s) (along v q t) v) :
    Between p q v := by
  obtain ⟨u, u0, u1, hu⟩ := h
  have hw : 0 < (1 - u) * s + u * t := by
    rcases eq_or_lt_of_le u0 with rfl | h
    · simpa using s0
    · have := mul_pos h t0
      have := mul_nonneg (show 0 ≤ 1 - u by linarith) s0.le
      linarith
  refine ⟨u * t / ((1 - u) * s + u * t), by positivity, (div_le_one hw).2 ?_, ?_⟩
  · have := mul_nonneg (show 0 ≤ 1 - u by linarith) s0.le
    linarith
  · have hm := div_mul_cancel₀ (u * t) hw.ne'
    generalize u * t / ((1 - u) * s + u * t) = w at hm
    simp only [along, Vec2.ext_iff'] at hu ⊢
    obtain ⟨h1, h2⟩ := hu
    constructor
    · have : ((1 - u) * s + u * t) * (v.x - (p.x + w * (q.x - p.x))) = 0 := by
        linear_combination (-(q.x - p.x)) * hm + h1
      linarith [(mul_eq_zero.1 this).resolve_left hw.ne']
    · have : ((1 - u) * s + u * t) * (v.y - (p.y + w * (q.y - p.y))) = 0 := by
        linear_combination (-(q.y - p.y)) * hm + h2
      linarith [(mul_eq_zero.1 this).resolve_left hw.ne']

end Polyanya
