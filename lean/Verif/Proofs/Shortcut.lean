import Verif.Proofs.Route
import Verif.Proofs.Coverage
import Verif.Proofs.Lengths
/-
Nodes on a shortest route: no way through the interval of a node is shorter, so the route does not bend at a
point of an edge that is not a vertex.
-/

namespace Polyanya

/-- The setting of a query in exact arithmetic. -/
structure Setting (q : Query (Ext ℝ)) (start goal : Vec2 ℝ) : Prop where
  conforming : Conforming q.mesh
  exact : NoNearMiss q.mesh start goal
  nav : Navigable q.mesh q.src.2 start q.dst.2 goal
  dst : q.dst.2 ≠ u32Max
  src : q.src.1 = start.fin
  goalAt : q.dst.1 = goal.fin
  src_in : InPolygon q.mesh q.src.2 start
  dst_in : InPolygon q.mesh q.dst.2 goal
  plain : q.cfg.detailed = true → q.mesh.Unscaled
  free : q.blocked = []

/-- No walk from the start to the goal is shorter than `opt`. -/
def Least (q : Query (Ext ℝ)) (start goal : Vec2 ℝ) (opt : ℝ) : Prop :=
  ∀ ws, Walk q.mesh q.src.2 start q.dst.2 goal ws → opt ≤ polyLen (start :: ws)

/-- Everything known of a node. -/
structure Known (q : Query (Ext ℝ)) (start goal : Vec2 ℝ) (n : SearchNode (Ext ℝ)) (r a b A B : Vec2 ℝ)
    (s t g : ℝ) : Prop where
  gen : Gen q n
  geo : NodeGeo q.mesh q.src.2 start n r a b A B s t
  valid : n.crossing.Valid q.mesh
  prev : n.previousPolygonLayer = layerOf n.polygonFrom
  length : n.distanceStartToRoot = Ext.fin g
  walk : ∃ ws pr, g = polyLen (start :: ws) ∧ Walk q.mesh q.src.2 start pr r ws
    ∧ (∀ x, Between a b x → Straight q.mesh pr r n.polygonTo x)
    ∧ Touches q.mesh q.src.2 start pr r
    ∧ ∀ x, (x = a ∧ a ≠ A) ∨ (x = b ∧ b ≠ B) →
      ∃ p, Between r x p ∧ p ≠ x ∧ Straight q.mesh pr r n.polygonFrom p

theorem map_fin_injective : ∀ {ws ws' : List (Vec2 ℝ)}, ws.map Vec2.fin = ws'.map Vec2.fin → ws = ws'
  | [], [], _ => rfl
  | [], _ :: _, h => by simp at h
  | _ :: _, [], h => by simp at h
  | a :: l, b :: l', h => by
    simp only [List.map_cons, List.cons.injEq] at h
    rw [Vec2.fin_injective h.1, map_fin_injective h.2]

variable {q : Query (Ext ℝ)} {start goal : Vec2 ℝ}

theorem Setting.known (h : Setting q start goal) {n : SearchNode (Ext ℝ)} (hn : Gen q n) :
    ∃ r a b A B s t g, Known q start goal n r a b A B s t g := by
  obtain ⟨r, a, b, A, B, s, t, hg⟩ := gen_geo h.conforming h.exact h.dst h.src h.src_in hn
  obtain ⟨cs, hinv⟩ := gen_inv h.dst hn
  obtain ⟨ws, hp, -, hl⟩ := gen_length h.conforming h.exact h.dst h.src h.src_in h.plain hn
  obtain ⟨ws', pr, hp', h1, h2, h3, h4⟩ := hg.walk
  obtain rfl := map_fin_injective (hp.symm.trans hp')
  exact ⟨r, a, b, A, B, s, t, _, hn, hg, hinv.valid, hinv.prev, hl, ws, pr, rfl, h1, h2, h3, h4⟩

variable {n : SearchNode (Ext ℝ)} {r a b A B : Vec2 ℝ} {s t g opt : ℝ}

namespace Known

theorem AB (hs : Setting q start goal) (h : Known q start goal n r a b A B s t g) : A ≠ B := by
  obtain ⟨ps, k, hring, hconv, hcons, hfan⟩ := hs.conforming.fan h.valid h.geo.at_
  rintro rfl
  have hlen := hfan.len
  have := hconv.rotate k |>.injective hfan.first hfan.last
  omega

/-- Another way through the interval is not shorter. -/
theorem through (h : Known q start goal n r a b A B s t g) (hs : Setting q start goal)
    (hl : Least q start goal opt) {y : Vec2 ℝ} (hy : Between a b y) {rs : List (Crossing × Vec2 ℝ)}
    (hr : Route q.mesh n.polygonTo y q.dst.2 goal rs) : opt ≤ g + dist2 r y + routeLen y goal rs := by
  obtain ⟨ws, pr, rfl, hw, hst, -, -⟩ := h.walk
  obtain ⟨w1, e1⟩ := hw.append (Walk.cons (hst y hy) (.nil (hst y hy).dst_in))
  obtain ⟨w2, e2⟩ := hr.walk hs.conforming
  obtain ⟨w3, e3⟩ := w1.append w2
  have := hl _ w3
  rw [e3, e2, e1] at this
  simp only [polyLen] at this
  linarith

/-- A way through the edge, next to an end of the interval, is not shorter. -/
theorem beside (h : Known q start goal n r a b A B s t g) (hs : Setting q start goal)
    (hl : Least q start goal opt) {x : Vec2 ℝ} (hx : (x = a ∧ a ≠ A) ∨ (x = b ∧ b ≠ B)) :
    ∃ p, Between r x p ∧ p ≠ x ∧ ∀ y, Between A B y → ∀ rs, Route q.mesh n.polygonTo y q.dst.2 goal rs →
      opt ≤ g + dist2 r p + dist2 p y + routeLen y goal rs := by
  obtain ⟨ws, pr, rfl, hw, -, -, hap⟩ := h.walk
  obtain ⟨p, h1, h2, h3⟩ := hap x hx
  refine ⟨p, h1, h2, ?_⟩
  intro y hy rs hr
  have hstep : Straight q.mesh n.polygonFrom p n.polygonTo y :=
    .cross (c := n.crossing) h3.dst_in h.valid h.geo.at_ hy (Between.right _ _)
      (.stay hr.src_in hr.src_in)
  obtain ⟨w1, e1⟩ := hw.append (Walk.cons h3 (Walk.cons hstep (.nil hr.src_in)))
  obtain ⟨w2, e2⟩ := hr.walk hs.conforming
  obtain ⟨w3, e3⟩ := w1.append w2
  have := hl _ w3
  rw [e3, e2, e1] at this
  simp only [polyLen] at this
  linarith

/-- The route does not bend at an end of the interval that is not a vertex. -/
theorem no_bend (h : Known q start goal n r a b A B s t g) (hs : Setting q start goal)
    (hl : Least q start goal opt) {w : Vec2 ℝ} (hw : (w = a ∧ a ≠ A) ∨ (w = b ∧ b ≠ B)) {y' : Vec2 ℝ}
    (hy' : tri A B y' ≤ 0) {c : Crossing} {rs : List (Crossing × Vec2 ℝ)}
    (hr : Route q.mesh n.polygonTo w q.dst.2 goal ((c, y') :: rs)) (hne : tri r w y' ≠ 0)
    (hcost : g + dist2 r w + dist2 w y' + routeLen y' goal rs ≤ opt) : False := by
  obtain ⟨σ, hσ, σ0, σ1⟩ : ∃ σ, w = along A B σ ∧ 0 < σ ∧ σ < 1 := by
    rcases hw with ⟨rfl, hw⟩ | ⟨rfl, hw⟩
    · refine ⟨s, h.geo.ha, lt_of_le_of_ne h.geo.s0 ?_, by linarith [h.geo.st, h.geo.t1]⟩
      rintro rfl
      exact hw (by rw [h.geo.ha, along_zero])
    · refine ⟨t, h.geo.hb, by linarith [h.geo.st, h.geo.s0], lt_of_le_of_ne h.geo.t1 ?_⟩
      rintro rfl
      exact hw (by rw [h.geo.hb, along_one])
  have hw0 : tri A B w = 0 := by rw [hσ, tri_along]; simp
  have hr0 : 0 < tri A B r := by
    refine lt_of_le_of_ne h.geo.hr fun h0 => ?_
    obtain ⟨rfl, rfl⟩ := h.geo.flat h0.symm
    rcases hw with ⟨-, hw⟩ | ⟨-, hw⟩
    · exact hw (by rw [h.geo.ha, along_zero])
    · exact hw (by rw [h.geo.hb, along_one])
  obtain ⟨p, ⟨κ, κ0, κ1, rfl⟩, hpw, hopt⟩ := h.beside hs hl hw
  have hκ : κ < 1 := by
    refine lt_of_le_of_ne κ1 ?_
    rintro rfl
    exact hpw (along_one _ _)
  have hp0 : 0 < tri A B (along r w κ) := by
    rw [tri_along, hw0, mul_zero, add_zero]
    exact mul_pos (by linarith) hr0
  have e : tri (along r w κ) w y' = (1 - κ) * tri r w y' := by
    simp only [tri, along]; ring
  have hpne : tri (along r w κ) w y' ≠ 0 := by
    rw [e]; exact mul_ne_zero (by linarith) hne
  obtain ⟨τ, -, -, ht⟩ := taut hp0 hσ hy' hpne
  -- a small enough step along the edge
  obtain ⟨k, k0, k1, hk0, hk1⟩ : ∃ k : ℝ, 0 < k ∧ k ≤ 1 ∧ 0 ≤ σ + k * (τ - σ) ∧ σ + k * (τ - σ) ≤ 1 := by
    have hpos : 0 < 1 + |τ - σ| := by positivity
    refine ⟨min σ (1 - σ) / (1 + |τ - σ|), div_pos (lt_min σ0 (by linarith)) hpos, ?_, ?_⟩
    · rw [div_le_one hpos]
      have := min_le_left σ (1 - σ)
      have := abs_nonneg (τ - σ)
      linarith
    · have hm := div_mul_cancel₀ (min σ (1 - σ)) hpos.ne'
      have hk : 0 < min σ (1 - σ) / (1 + |τ - σ|) := div_pos (lt_min σ0 (by linarith)) hpos
      generalize min σ (1 - σ) / (1 + |τ - σ|) = k at hm hk
      have h1 := min_le_left σ (1 - σ)
      have h2 := min_le_right σ (1 - σ)
      have h3 : k * |τ - σ| ≤ min σ (1 - σ) := by nlinarith
      have h4 := abs_le.1 (show |k * (τ - σ)| ≤ min σ (1 - σ) by rw [abs_mul, abs_of_pos hk]; exact h3)
      constructor <;> linarith [h4.1, h4.2]
  have hlt := ht k k0 k1
  have hb : Between A B (along A B (σ + k * (τ - σ))) := ⟨_, hk0, hk1, rfl⟩
  have hin : InPolygon q.mesh n.polygonTo (along A B (σ + k * (τ - σ))) :=
    hs.conforming.entered (c := n.crossing) h.valid h.geo.at_ hb
  have := hopt _ hb _ (hr.from' hin)
  simp only [routeLen] at this
  have := dist2_between (show Between r w (along r w κ) from ⟨κ, κ0, κ1, rfl⟩)
  linarith

/-- The route goes straight through the interval. -/
theorem at_limit (h : Known q start goal n r a b A B s t g) (hs : Setting q start goal)
    (hl : Least q start goal opt) {ws : List (Vec2 ℝ)} (hv : View ws A B r a b s t)
    (hr0 : 0 < tri A B r) {w : Vec2 ℝ} (hw : w = a ∨ w = b) {y y' : Vec2 ℝ}
    (hy : Between a b y) (hin : Inside ws y') (ha : 0 ≤ tri r a y') (hb : tri r b y' ≤ 0)
    (h0 : tri r w y' = 0) {c : Crossing} {rs : List (Crossing × Vec2 ℝ)}
    (hr : Route q.mesh n.polygonTo y q.dst.2 goal ((c, y') :: rs))
    (hcost : g + dist2 r y + routeLen y goal ((c, y') :: rs) ≤ opt) : y = w := by
  obtain ⟨z, hz, hrz⟩ := hv.sees h.geo.flat hin ha hb
  have hzin : InPolygon q.mesh n.polygonTo z :=
    hs.conforming.entered (c := n.crossing) h.valid h.geo.at_ (hv.interval_in hz).2
  have h1 := h.through hs hl hz (hr.from' hzin)
  have h2 := dist2_between hrz
  have h3 := dist2_triangle r y y'
  simp only [routeLen] at hcost h1
  obtain ⟨κ, κ0, κ1, hκ⟩ := between_of_dist (p := r) (q := y') (y := y) (by linarith)
  obtain ⟨σ, hσ⟩ : ∃ σ, w = along A B σ := by
    rcases hw with rfl | rfl
    · exact ⟨s, hv.ha⟩
    · exact ⟨t, hv.hb⟩
  obtain ⟨-, v, -, -, hv'⟩ := hv.interval_in hy
  refine same_point (r := r) (a := w) (C := A) (D := B) ?_ ?_ ?_ ?_ ?_
  · have e1 : tri r w A = -(σ * tri A B r) := by rw [hσ]; simp only [tri, along]; ring
    have e2 : tri r w B = (1 - σ) * tri A B r := by rw [hσ]; simp only [tri, along]; ring
    rw [e1, e2]
    intro heq
    have : tri A B r = 0 := by linear_combination -heq
    exact hr0.ne' this
  · rw [hv', tri_along]; simp
  · rw [hσ, tri_along]; simp
  · rw [hκ, tri_along, h0]; simp
  · simp

/-- Turning at an end of the interval. -/
theorem turn (h : Known q start goal n r a b A B s t g) {ws : List (Vec2 ℝ)}
    (hv : View ws A B r a b s t) {w : Vec2 ℝ} {y y' : Vec2 ℝ} (hy : Between a b y) (hin : Inside ws y')
    (hw : (w = a ∧ tri r a y' ≤ 0 ∧ (0 < tri A B r ∨ ∃ ρ, ρ ≤ 0 ∧ r = along A B ρ)) ∨
      (w = b ∧ 0 ≤ tri r b y' ∧ (0 < tri A B r ∨ ∃ ρ, 1 ≤ ρ ∧ r = along A B ρ))) :
    dist2 r w + dist2 w y' ≤ dist2 r y + dist2 y y' := by
  have hw0 : tri A B w = 0 := by
    rcases hw with ⟨rfl, -⟩ | ⟨rfl, -⟩
    · rw [hv.ha, tri_along]; simp
    · rw [hv.hb, tri_along]; simp
  obtain ⟨κ, κ0, κ1, hκ⟩ := hy
  have hy2 : y = along A B (s + κ * (t - s)) := by rw [hκ, hv.ha, hv.hb, along_along]
  have hy0 : tri A B y = 0 := by rw [hy2, tri_along]; simp
  have hst : 0 ≤ t - s := by linarith [hv.st]
  have hm := mul_nonneg κ0 hst
  have hm1 := mul_le_of_le_one_left hst κ1
  -- on the line of the edge
  have online : ∀ ρ σ : ℝ, r = along A B ρ → w = along A B σ →
      (ρ ≤ σ ∧ σ ≤ s + κ * (t - s)) ∨ (s + κ * (t - s) ≤ σ ∧ σ ≤ ρ) →
      dist2 r w + dist2 w y' ≤ dist2 r y + dist2 y y' := by
    intro ρ σ hρ hσ hor
    have hb : dist2 r w + dist2 w y = dist2 r y := by
      rw [hρ, hσ, hy2, dist2_along_along, dist2_along_along, dist2_along_along, ← mul_add]
      congr 1
      rcases hor with ⟨h1, h2⟩ | ⟨h1, h2⟩
      · rw [abs_of_nonpos (by linarith), abs_of_nonpos (by linarith), abs_of_nonpos (by linarith)]; ring
      · rw [abs_of_nonneg (by linarith), abs_of_nonneg (by linarith), abs_of_nonneg (by linarith)]; ring
    linarith [dist2_triangle w y y']
  have ea : ∀ σ, tri r (along A B σ) y = (s + κ * (t - s) - σ) * tri A B r := by
    intro σ; rw [hy2]; simp only [tri, along]; ring
  rcases hw with ⟨rfl, h1, h2⟩ | ⟨rfl, h1, h2⟩
  · rcases h2 with h2 | ⟨ρ, hρ, hr⟩
    · obtain ⟨z, hz1, hz2⟩ := turn_point (r := r) (w := w) h2 hw0 hy0 (hv.fan.base_nonpos hin) (by
        refine mul_nonpos_of_nonneg_of_nonpos ?_ h1
        rw [hv.ha, ea]
        exact mul_nonneg (by linarith) h2.le)
      exact turn_le hz1 hz2
    · exact online ρ s hr hv.ha (.inl ⟨by linarith [hv.s0], by linarith⟩)
  · rcases h2 with h2 | ⟨ρ, hρ, hr⟩
    · obtain ⟨z, hz1, hz2⟩ := turn_point (r := r) (w := w) h2 hw0 hy0 (hv.fan.base_nonpos hin) (by
        refine mul_nonpos_of_nonpos_of_nonneg ?_ h1
        rw [hv.hb, ea]
        exact mul_nonpos_of_nonpos_of_nonneg (by linarith) h2.le)
      exact turn_le hz1 hz2
    · exact online ρ t hr hv.hb (.inr ⟨by linarith, by linarith [hv.t1]⟩)

end Known

end Polyanya
