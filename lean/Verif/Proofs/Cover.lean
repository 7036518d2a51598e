import Verif.Proofs.Children
/-
A node on a shortest route has a child on the route.
-/

namespace Polyanya

theorem Route.uncons {m : Mesh (Ext ℝ)} {s e : UInt32} {p q y : Vec2 ℝ} {c : Crossing}
    {rs : List (Crossing × Vec2 ℝ)} (h : Route m s p e q ((c, y) :: rs)) :
    c.src = s ∧ InPolygon m s p ∧ c.Valid m ∧ (∃ A B, c.At m A B ∧ Between A B y)
      ∧ Route m c.dst y e q rs := by
  cases h with
  | cons h1 h2 h3 h4 h5 => exact ⟨rfl, h1, h2, ⟨_, _, h3, h4⟩, h5⟩

theorem Route.nil_eq {m : Mesh (Ext ℝ)} {s e : UInt32} {p q : Vec2 ℝ} (h : Route m s p e q []) : s = e := by
  cases h with
  | nil _ _ => rfl

/-- The node is on a shortest route: the route goes through its interval at `y` and on along `rs`. -/
structure Cover (q : Query (Ext ℝ)) (start goal : Vec2 ℝ) (opt : ℝ) (n : SearchNode (Ext ℝ))
    (rs : List (Crossing × Vec2 ℝ)) (y r a b A B : Vec2 ℝ) (s t g : ℝ) : Prop where
  known : Known q start goal n r a b A B s t g
  mid : Between a b y
  route : Route q.mesh n.polygonTo y q.dst.2 goal rs
  cost : g + dist2 r y + routeLen y goal rs ≤ opt
  jA : y = a → a ≠ A → ¬ LeftFirst q.mesh rs
  jB : y = b → b ≠ B → ¬ RightFirst q.mesh rs
  nodup : (n.polygonFrom :: n.polygonTo :: rs.map (·.1.dst)).Nodup
  root : Flagged q.mesh r
  calm : Calm q.mesh goal rs
  passes : Passes q.mesh goal A B y rs
  behindA : ∀ ρ, ρ < 0 → r = along A B ρ → Flagged q.mesh A ∨ y = A
  behindB : ∀ ρ, 1 < ρ → r = along A B ρ → Flagged q.mesh B ∨ y = B

/-- The node is on a shortest route. -/
def Covers (q : Query (Ext ℝ)) (start goal : Vec2 ℝ) (opt : ℝ) (n : SearchNode (Ext ℝ))
    (rs : List (Crossing × Vec2 ℝ)) : Prop :=
  ∃ y r a b A B s t g, Cover q start goal opt n rs y r a b A B s t g

variable {q : Query (Ext ℝ)} {start goal : Vec2 ℝ} {opt : ℝ} {node : SearchNode (Ext ℝ)}
  {y r a b A B : Vec2 ℝ} {s t g : ℝ}

/-- A polygon on the route can be entered. -/
theorem open_of_route (hs : Setting q start goal) {c : Crossing} (hv : c.Valid q.mesh) {y' : Vec2 ℝ}
    {rs : List (Crossing × Vec2 ℝ)} (hr : Route q.mesh c.dst y' q.dst.2 goal rs)
    (hn : (c.src :: c.dst :: rs.map (·.1.dst)).Nodup) : c.dst = q.dst.2 ∨ Open q.mesh c.dst := by
  cases rs with
  | nil => exact .inl hr.nil_eq
  | cons cy rs =>
    obtain ⟨c2, y2⟩ := cy
    right
    obtain ⟨e1, -, hv2, -, -⟩ := hr.uncons
    obtain ⟨l, p, -, -, hp, -⟩ := id hv2
    rw [e1] at hp
    refine ⟨l, p, by rw [layerOf_toNat]; exact hp.1, by rw [polygonOf_toNat]; exact hp.2, ?_⟩
    by_contra how
    have := hs.nav.deadEnds c.dst l p hp (by simpa using how) c c2 hv hv2 rfl e1
    simp [this] at hn

namespace Known

theorem root_right (h : Known q start goal node r a b A B s t g) (ha : a = A)
    (hcor : Flagged q.mesh a)
    {layer : Layer (Ext ℝ)} {vs ve : Vertex (Ext ℝ)} {C : Vec2 ℝ} (hC : vs.coords + layer.offset = C.fin)
    {su : Successor (Ext ℝ)} (hty : su.ty = .rightNonObservable) (h1 : su.interval.1 = C.fin) :
    successorRoot q.mesh q.blocked node layer vs ve su = .ok (some a.fin) := by
  obtain ⟨prev, hpl, ⟨v, hv, hv'⟩, -⟩ := h.geo.at_
  have hpl' : q.mesh.layers[node.previousPolygonLayer.toNat]? = some prev := by
    rw [h.prev, layerOf_toNat]; exact hpl
  unfold successorRoot
  rw [hty]
  simp only
  rw [h1, hC]
  have hz : ∀ x : Vec2 ℝ, x.fin.distanceSquared x.fin = Ext.fin 0 := by
    intro x; rw [fin_distanceSquared]; simp [sqDist]
  rw [hz, if_neg (by rw [ext_tol10, ext_lt]; norm_num)]
  rw [idx_eq_ok.2 hpl']
  simp only [res_bind_ok]
  rw [idx_eq_ok.2 (show prev.vertices[node.edge.1.toNat]? = some v from hv)]
  simp only [res_bind_ok]
  have hcorner : canTurnAt q.blocked v = true := by
    unfold canTurnAt
    rw [hcor prev (List.mem_of_getElem? hpl) v (List.mem_of_getElem? hv) (by rw [ha]; exact hv')]
    rfl
  rw [if_pos, h.geo.interval]
  rw [hcorner, hv', h.geo.interval]
  simp only [Bool.true_and]
  rw [ha, hz, ext_tol10, ext_lt]
  norm_num

theorem root_left (h : Known q start goal node r a b A B s t g) (hb : b = B)
    (hcor : Flagged q.mesh b)
    {layer : Layer (Ext ℝ)} {vs ve : Vertex (Ext ℝ)} {D : Vec2 ℝ} (hD : ve.coords + layer.offset = D.fin)
    {su : Successor (Ext ℝ)} (hty : su.ty = .leftNonObservable) (h1 : su.interval.2 = D.fin) :
    successorRoot q.mesh q.blocked node layer vs ve su = .ok (some b.fin) := by
  obtain ⟨prev, hpl, -, ⟨v, hv, hv'⟩⟩ := h.geo.at_
  have hpl' : q.mesh.layers[node.previousPolygonLayer.toNat]? = some prev := by
    rw [h.prev, layerOf_toNat]; exact hpl
  unfold successorRoot
  rw [hty]
  simp only
  rw [h1, hD]
  have hz : ∀ x : Vec2 ℝ, x.fin.distanceSquared x.fin = Ext.fin 0 := by
    intro x; rw [fin_distanceSquared]; simp [sqDist]
  rw [hz, if_neg (by rw [ext_tol10, ext_lt]; norm_num)]
  rw [idx_eq_ok.2 hpl']
  simp only [res_bind_ok]
  rw [idx_eq_ok.2 (show prev.vertices[node.edge.2.toNat]? = some v from hv)]
  simp only [res_bind_ok]
  have hcorner : canTurnAt q.blocked v = true := by
    unfold canTurnAt
    rw [hcor prev (List.mem_of_getElem? hpl) v (List.mem_of_getElem? hv) (by rw [hb]; exact hv')]
    rfl
  rw [if_pos, h.geo.interval]
  rw [hcorner, hv', h.geo.interval]
  simp only [Bool.true_and]
  rw [hb, hz, ext_tol10, ext_lt]
  norm_num

end Known

/-! ### Edges on a line with the root -/

namespace View

theorem flat_first {ws : List (Vec2 ℝ)} (h : View ws A B r a b s t) (hflat : tri A B r = 0 → s = 0 ∧ t = 1)
    {k : Nat} {C D : Vec2 ℝ} (hC : ws[k]? = some C) (hD : ws[k + 1]? = some D) {ρ : ℝ} (hρ : ρ < 0)
    (hr : r = along C D ρ) {x : Vec2 ℝ} (hin : Inside ws x) (hx : tri C D x = 0) (h1 : 0 ≤ tri r a x)
    (h2 : tri r b x ≤ 0) : C = A ∧ a = A ∧ 0 < tri A B r := by
  have hlen := h.fan.len
  have hk : k + 1 < ws.length := (List.getElem?_eq_some_iff.1 hD).1
  obtain ⟨z, hz, ⟨τ, -, -, hzr⟩⟩ := h.sees hflat hin h1 h2
  have hz0 : tri C D z = 0 := by
    rw [hzr, tri_along, hx, hr, tri_along]; simp
  obtain ⟨κ, κ0, κ1, hκ⟩ := hz
  have hz1 : z = along A B (s + κ * (t - s)) := by rw [hκ, h.ha, h.hb, along_along]
  have hst := h.st
  have hm := mul_nonneg κ0 (show 0 ≤ t - s by linarith)
  have hm1 := mul_le_of_le_one_left (show 0 ≤ t - s by linarith) κ1
  have hr' : tri A B r = (1 - ρ) * tri A B C + ρ * tri A B D := by rw [hr, tri_along]
  rw [hz1, tri_along] at hz0
  have hB0 : 0 ≤ tri C D B := by
    by_cases hl : k + 1 = ws.length - 1
    · rw [hl, h.fan.last] at hD
      cases hD; simp
    · exact (h.fan.convex.2 k (k + 1) (ws.length - 1) C D B (by omega) (by omega) hC hD h.fan.last).le
  have s0 := h.s0
  have t1 := h.t1
  by_cases hk0 : k = 0
  · subst hk0
    obtain rfl : A = C := Option.some.inj (h.fan.first.symm.trans hC)
    have hBp := h.fan.convex.2 0 1 (ws.length - 1) A D B (by omega) (by omega) hC hD h.fan.last
    rw [tri_left, mul_zero, zero_add] at hz0
    have := (mul_eq_zero.1 hz0).resolve_right hBp.ne'
    refine ⟨rfl, ?_, ?_⟩
    · rw [h.ha, show s = 0 by linarith, along_zero]
    · rw [hr', tri_left, mul_zero, zero_add]
      exact mul_pos_of_neg_of_neg hρ (h.fan.inner_neg hD (by omega) (by omega))
  · exfalso
    have hA := h.fan.convex.2 0 k (k + 1) A C D (by omega) (by omega) h.fan.first hC hD
    rw [← tri_cyc] at hA
    have g1 := mul_nonneg (show 0 ≤ 1 - (s + κ * (t - s)) by linarith) hA.le
    have g2 := mul_nonneg (show 0 ≤ s + κ * (t - s) by linarith) hB0
    have e1 : 1 - (s + κ * (t - s)) = 0 := (mul_eq_zero.1 (by linarith)).resolve_right hA.ne'
    have e2 : tri C D B = 0 := by
      have : s + κ * (t - s) = 1 := by linarith
      rw [this] at g2 hz0
      linarith
    have hl : k + 1 = ws.length - 1 := by
      by_contra hl
      exact (h.fan.convex.2 k (k + 1) (ws.length - 1) C D B (by omega) (by omega) hC hD h.fan.last).ne' e2
    rw [hl, h.fan.last] at hD
    cases hD
    rw [tri_right, mul_zero, add_zero] at hr'
    have := mul_neg_of_pos_of_neg (show 0 < 1 - ρ by linarith) (h.fan.inner_neg hC (by omega) (by omega))
    linarith [h.hr]

theorem flat_last {ws : List (Vec2 ℝ)} (h : View ws A B r a b s t) (hflat : tri A B r = 0 → s = 0 ∧ t = 1)
    {k : Nat} {C D : Vec2 ℝ} (hC : ws[k]? = some C) (hD : ws[k + 1]? = some D) {ρ : ℝ} (hρ : 1 < ρ)
    (hr : r = along C D ρ) {x : Vec2 ℝ} (hin : Inside ws x) (hx : tri C D x = 0) (h1 : 0 ≤ tri r a x)
    (h2 : tri r b x ≤ 0) : D = B ∧ b = B ∧ 0 < tri A B r := by
  have hlen := h.fan.len
  have hk : k + 1 < ws.length := (List.getElem?_eq_some_iff.1 hD).1
  obtain ⟨z, hz, ⟨τ, -, -, hzr⟩⟩ := h.sees hflat hin h1 h2
  have hz0 : tri C D z = 0 := by
    rw [hzr, tri_along, hx, hr, tri_along]; simp
  obtain ⟨κ, κ0, κ1, hκ⟩ := hz
  have hz1 : z = along A B (s + κ * (t - s)) := by rw [hκ, h.ha, h.hb, along_along]
  have hst := h.st
  have hm := mul_nonneg κ0 (show 0 ≤ t - s by linarith)
  have hm1 := mul_le_of_le_one_left (show 0 ≤ t - s by linarith) κ1
  have hr' : tri A B r = (1 - ρ) * tri A B C + ρ * tri A B D := by rw [hr, tri_along]
  rw [hz1, tri_along] at hz0
  have hA0 : 0 ≤ tri C D A := by
    by_cases hl : k = 0
    · rw [hl, h.fan.first] at hC
      cases hC; simp
    · have := h.fan.convex.2 0 k (k + 1) A C D (by omega) (by omega) h.fan.first hC hD
      rw [← tri_cyc] at this
      exact this.le
  have s0 := h.s0
  have t1 := h.t1
  by_cases hk0 : k + 1 = ws.length - 1
  · rw [hk0, h.fan.last] at hD
    obtain rfl : B = D := Option.some.inj hD
    have hAp := h.fan.convex.2 0 k (ws.length - 1) A C B (by omega) (by omega) h.fan.first hC h.fan.last
    rw [← tri_cyc] at hAp
    rw [tri_right, mul_zero, add_zero] at hz0
    have := (mul_eq_zero.1 hz0).resolve_right hAp.ne'
    refine ⟨rfl, ?_, ?_⟩
    · have : κ * (t - s) ≤ t - s := hm1
      rw [h.hb, show t = 1 by linarith, along_one]
    · rw [hr', tri_right, mul_zero, add_zero]
      exact mul_pos_of_neg_of_neg (by linarith) (h.fan.inner_neg hC (by omega) (by omega))
  · exfalso
    have hB := h.fan.convex.2 k (k + 1) (ws.length - 1) C D B (by omega) (by omega) hC hD h.fan.last
    have g1 := mul_nonneg (show 0 ≤ 1 - (s + κ * (t - s)) by linarith) hA0
    have g2 := mul_nonneg (show 0 ≤ s + κ * (t - s) by linarith) hB.le
    have e1 : s + κ * (t - s) = 0 := (mul_eq_zero.1 (by linarith)).resolve_right hB.ne'
    have e2 : tri C D A = 0 := by
      rw [e1] at hz0
      linarith
    have hl : k = 0 := by
      by_contra hl
      have := h.fan.convex.2 0 k (k + 1) A C D (by omega) (by omega) h.fan.first hC hD
      rw [← tri_cyc] at this
      exact this.ne' e2
    subst hl
    rw [h.fan.first] at hC
    cases hC
    rw [tri_left, mul_zero, zero_add] at hr'
    have := mul_neg_of_pos_of_neg (show 0 < ρ by linarith) (h.fan.inner_neg hD (by omega) (by omega))
    linarith [h.hr]

end View

theorem ahead_ne {y goal z : Vec2 ℝ} {c : Crossing} {rs : List (Crossing × Vec2 ℝ)} (h : z ≠ y) :
    ahead y goal ((c, z) :: rs) = z := by
  simp [ahead, h]

/-- Going straight on, the sides stay the same. -/
theorem ahead_side {p f v x : Vec2 ℝ} (h : Between p f v) (hne : v ≠ p) :
    (0 < tri v f x → 0 < tri p v x) ∧ (tri v f x < 0 → tri p v x < 0) := by
  obtain ⟨κ, κ0, κ1, rfl⟩ := h
  have hκ : 0 < κ := by
    refine lt_of_le_of_ne κ0 ?_
    rintro rfl
    exact hne (along_zero _ _)
  have e1 : tri (along p f κ) f x = (1 - κ) * tri p f x := by simp only [tri, along]; ring
  have e2 : tri p (along p f κ) x = κ * tri p f x := by simp only [tri, along]; ring
  rw [e1, e2]
  constructor
  · intro h
    exact mul_pos hκ (pos_of_mul_pos_right h (by linarith))
  · intro h
    exact mul_neg_of_pos_of_neg hκ (neg_of_mul_neg_right h (by linarith))

/-- A node on a shortest route, before the goal, has a child on the route. -/
theorem Cover.child (hs : Setting q start goal) (hl : Least q start goal opt) (hso : StraightOn q start goal opt) {c : Crossing} {y' : Vec2 ℝ}
    {rs : List (Crossing × Vec2 ℝ)} (h : Cover q start goal opt node ((c, y') :: rs) y r a b A B s t g)
    (hd : node.polygonTo ≠ q.dst.2) {succs : List (Successor (Ext ℝ))}
    (he : edgesBetween q.mesh node = .ok succs) :
    ∃ su ∈ succs, ∃ n, Makes q node su n ∧ Covers q start goal opt n rs ∧ n.polygonTo = c.dst := by
  have hk := h.known
  have hg := hk.geo
  obtain ⟨hsrc, hyin, hv, ⟨C, D, hat, hy'⟩, hrest⟩ := h.route.uncons
  obtain ⟨u, u0, u1, hu⟩ := hy'
  have hnd := h.nodup
  simp only [List.map_cons] at hnd
  have hnd' : (node.polygonTo :: c.dst :: rs.map (·.1.dst)).Nodup := (List.nodup_cons.1 hnd).2
  have hfrom : node.polygonFrom ≠ c.dst := by
    intro heq
    rw [heq] at hnd
    simp at hnd
  have hgo := open_of_route hs hv hrest (by rw [hsrc]; exact hnd')
  -- the view into the polygon
  obtain ⟨ps, k0, hring, hconv, hcons, hfan⟩ := hs.conforming.fan hk.valid hg.at_
  obtain ⟨prev, hpl, hvA, hvB⟩ := hg.at_
  have hpl' : q.mesh.layers[node.previousPolygonLayer.toNat]? = some prev := by
    rw [hk.prev, layerOf_toNat]; exact hpl
  have hap : ∀ v ∈ ps, sqDist v B < 1 / 1000 → v = B := fun v hv =>
    hs.exact.apart v B (hring.isVertex hv) (hring.isVertex hcons.mem.1)
  obtain ⟨l, p, k, hp, hview, hall⟩ := edgesBetween_cover he hpl' hvB hg.root hg.interval hring hconv
    hcons hap (fun j hf => hg.view hs.exact hring hf) hg.flat
  obtain ⟨l2, p2, k2, hp2, hps2, -, hall2⟩ := edgesBetween_view he hpl' hvB hg.root hg.interval hring hconv
    hcons hap (fun j hf => hg.view hs.exact hring hf)
  have hll : l2 = l := Option.some.inj (hp2.1.symm.trans hp.1)
  subst hll
  have hpp : p2 = p := Option.some.inj (hp2.2.symm.trans hp.2)
  subst hpp
  obtain ⟨l3, hl3, hCv, hDv⟩ := id hat
  have hl3' : l3 = l2 := by
    rw [hsrc] at hl3
    exact Option.some.inj (hl3.symm.trans hp.1)
  subst hl3'
  have hedge : IsEdge p2.vertices c.a c.b := by
    obtain ⟨l4, p4, _, _, hp4, h4, -⟩ := hv
    rw [hsrc] at hp4
    have e1 : l4 = l3 := Option.some.inj (hp4.1.symm.trans hp.1)
    subst e1
    have e2 : p4 = p2 := Option.some.inj (hp4.2.symm.trans hp.2)
    subst e2
    exact h4
  have hmain := hall c.a c.b C D hedge hCv hDv
  rcases hmain with ⟨rfl, rfl⟩ | ⟨j, hC, hD, hcov⟩
  · exfalso
    have := hs.nav.back node.crossing c hk.valid hv hsrc D C hg.at_ hat
    exact hfrom this.symm
  have hCD : C ≠ D := by
    rintro rfl
    have := hview.fan.convex.injective hC hD
    omega
  have hin : Inside (ps.rotate k) y' := by
    rw [hu]
    exact (hview.fan.inside hC).between (hview.fan.inside hD) ⟨u, u0, u1, rfl⟩
  have hin0 : tri A B y' ≤ 0 := hview.fan.base_nonpos hin
  have hle := hview.le hin
  have hE : IsEdgeAt q.mesh C D :=
    ⟨_, ps, hring, (consecutive_rotate k).1 (consecutive_of_succ hC hD)⟩
  have sights : ∀ su ∈ succs, su.edge = (c.a, c.b) → ∀ i1 i2 : Vec2 ℝ, su.interval = (i1.fin, i2.fin) →
      ((su.ty = .observable → Sight q.mesh start r C D i1 ∧ Sight q.mesh start r C D i2) ∧
      (su.ty = .rightNonObservable → Sight q.mesh start a C D i1 ∧ Sight q.mesh start a C D i2) ∧
      (su.ty = .leftNonObservable → Sight q.mesh start b C D i1 ∧ Sight q.mesh start b C D i2)) ∧
      (su.ty = .observable → (0 ≤ tri r a i1 ∧ 0 ≤ tri r a i2 ∧ tri r b i1 ≤ 0 ∧ tri r b i2 ≤ 0)) := by
    intro su hsu hsue i1 i2 hint
    obtain ⟨_, C', D', -, -, hCv', hDv', j1, j2, v1, v2, good⟩ := hall2 su hsu
    rw [hsue] at hCv' hDv'
    obtain rfl := hCv.unique hCv'
    obtain rfl := hDv.unique hDv'
    have := good.interval.symm.trans hint
    simp only [Prod.mk.injEq] at this
    obtain rfl := Vec2.fin_injective this.1
    obtain rfl := Vec2.fin_injective this.2
    refine ⟨good_sights hg hE good, fun hty => ?_⟩
    obtain ⟨o1, o2, o3, o4, -, -⟩ := good.observable hty
    exact ⟨o1, o2, o3, o4⟩
  have hAB := hg.sightA.1.isVertex
  -- where an end of the edge is touched
  have endL : (∃ A', c.At q.mesh A' y') ↔ y' = D := by
    constructor
    · rintro ⟨A', h'⟩
      exact (hat.unique h').2
    · intro h'
      exact ⟨C, h' ▸ hat⟩
  have endR : (∃ B', c.At q.mesh y' B') ↔ y' = C := by
    constructor
    · rintro ⟨B', h'⟩
      exact (hat.unique h').1
    · intro h'
      exact ⟨D, h' ▸ hat⟩
  have hLF : LeftFirst q.mesh ((c, y') :: rs) ↔ y' = D ∨ (y' ≠ C ∧ LeftFirst q.mesh rs) := by
    simp only [LeftFirst, endL, endR, ne_eq]
  have hRF : RightFirst q.mesh ((c, y') :: rs) ↔ y' ≠ D ∧ (y' = C ∨ RightFirst q.mesh rs) := by
    simp only [RightFirst, endL, endR, ne_eq]
  have hcost : g + dist2 r y + dist2 y y' + routeLen y' goal rs ≤ opt := by
    have := h.cost
    simp only [routeLen] at this
    linarith
  have btw : ∀ u1 u2, u1 ≤ u → u ≤ u2 → u1 < u2 → Between (along C D u1) (along C D u2) y' := by
    intro v1 v2 h1 h2 h3
    have hpos : 0 < v2 - v1 := by linarith
    refine ⟨(u - v1) / (v2 - v1), div_nonneg (by linarith) hpos.le, ?_, ?_⟩
    · rw [div_le_one hpos]; linarith
    · rw [hu, along_along, div_mul_cancel₀ _ hpos.ne']
      congr 1; ring
  obtain ⟨hpass, hcalm⟩ := h.calm
  have hpass := hpass C D hat
  have habin : Between a b a ∧ Between a b b := ⟨Between.left _ _, Between.right _ _⟩
  have hpoly : ∀ x, Between a b x → InPolygon q.mesh node.polygonTo x := fun x hx =>
    ⟨ps, hring, (inside_rotate k).1 (hview.interval_in hx).1⟩
  have hcost' : g + dist2 r y + routeLen y goal ((c, y') :: rs) ≤ opt := h.cost
  -- a bend at an end of the interval
  have bend : ∀ w, Between a b w → dist2 r w + dist2 w y' ≤ dist2 r y + dist2 y y' → tri r w y' ≠ 0 →
      Flagged q.mesh w := by
    intro w hw ht hne
    obtain ⟨ws, pr, hgl, hwk, hst, -, -⟩ := hk.walk
    have hyw : y' ≠ w := by
      rintro rfl
      exact hne (tri_right _ _)
    rcases hso ws pr r node.polygonTo w _ hwk (hst w hw) (h.route.from' (hpoly w hw))
      (by rw [← hgl]; simp only [routeLen]; linarith) with hf | hb
    · exact hf
    · rw [ahead_ne hyw] at hb
      obtain ⟨κ, -, -, rfl⟩ := hb
      exact absurd (by simp only [tri, along]; ring) hne
  have straight : ¬ Flagged q.mesh y → Between r (ahead y goal ((c, y') :: rs)) y := by
    intro hnf
    obtain ⟨ws, pr, hgl, hwk, hst, -, -⟩ := hk.walk
    exact (hso ws pr r node.polygonTo y _ hwk (hst y h.mid) h.route (by rw [← hgl]; exact h.cost)).resolve_left hnf
  have flagA : a = A → tri r a y' ≤ 0 → (0 < tri A B r ∨ ∃ ρ, ρ ≤ 0 ∧ r = along A B ρ) →
      (tri r a y' < 0 ∨ LeftFirst q.mesh ((c, y') :: rs) ∨ (C = A ∧ tri r a D ≤ 0)) → Flagged q.mesh a := by
    intro haA hside hfront hcase
    by_contra hnf
    have ht := hk.turn hview (w := a) h.mid hin (.inl ⟨rfl, hside, hfront⟩)
    rcases hside.lt_or_eq with hlt | heq
    · exact hnf (bend a habin.1 ht hlt.ne)
    have hra : r ≠ a := fun h' => hnf (h' ▸ h.root)
    have hyA : y = a := by
      rcases hfront with hf | ⟨ρ, hρ, hr⟩
      · exact hk.at_limit hs hl hview hf (.inl rfl) h.mid hin heq.ge (hle.trans heq.le) heq h.route hcost'
      · rcases hρ.lt_or_eq with hρ | hρ
        · rcases h.behindA ρ hρ hr with h1 | h1
          · exact absurd (haA ▸ h1) hnf
          · rw [h1, haA]
        · exact absurd (by rw [hr, hρ, along_zero, haA]) hra
    obtain ⟨p1, p2⟩ := h.passes.right (hyA.trans haA) (hyA ▸ hnf)
    rcases hcase with h1 | h1 | ⟨h1, h2⟩
    · linarith
    · exact p1 h1
    · have h3 := p2 c y' rs D rfl (by rw [hyA, haA, ← h1]; exact hat)
      have h4 := (ahead_side (straight (hyA ▸ hnf)) (by rw [hyA]; exact hra.symm)).1 h3
      rw [hyA] at h4
      linarith
  have flagB : b = B → 0 ≤ tri r b y' → (0 < tri A B r ∨ ∃ ρ, 1 ≤ ρ ∧ r = along A B ρ) →
      (0 < tri r b y' ∨ RightFirst q.mesh ((c, y') :: rs) ∨ r = B ∨ (D = B ∧ 0 ≤ tri r b C)) → Flagged q.mesh b := by
    intro hbB hside hfront hcase
    by_contra hnf
    have ht := hk.turn hview (w := b) h.mid hin (.inr ⟨rfl, hside, hfront⟩)
    rcases hside.lt_or_eq with hlt | heq
    · exact hnf (bend b habin.2 ht hlt.ne')
    have heq := heq.symm
    have hrb : r ≠ b := fun h' => hnf (h' ▸ h.root)
    have hyB : y = b := by
      rcases hfront with hf | ⟨ρ, hρ, hr⟩
      · exact hk.at_limit hs hl hview hf (.inr rfl) h.mid hin (heq.ge.trans hle) heq.le heq h.route hcost'
      · rcases hρ.lt_or_eq with hρ | hρ
        · rcases h.behindB ρ hρ hr with h1 | h1
          · exact absurd (hbB ▸ h1) hnf
          · rw [h1, hbB]
        · exact absurd (by rw [hr, ← hρ, along_one, hbB]) hrb
    obtain ⟨p1, p2⟩ := h.passes.left (hyB.trans hbB) (hyB ▸ hnf)
    rcases hcase with h1 | h1 | h1 | ⟨h1, h2⟩
    · linarith
    · exact p1 h1
    · exact hrb (h1.trans hbB.symm)
    · have h3 := p2 c y' rs C rfl (by rw [hyB, hbB, ← h1]; exact hat)
      have h4 := (ahead_side (straight (hyB ▸ hnf)) (by rw [hyB]; exact hrb.symm)).2 h3
      rw [hyB] at h4
      linarith
  have noBehind : ∀ (i : Nat) (w : Vec2 ℝ), (ps.rotate k)[i]? = some w → ∀ ρ : ℝ, ρ < 0 ∨ 1 < ρ →
      w = along C D ρ → False := by
    intro i w hw ρ hρ hwr
    rcases hview.fan.edge_line hC hD hw (by rw [hwr, tri_along]; simp) with rfl | rfl
    · have e : C = w := Option.some.inj (hC.symm.trans hw)
      exact along_ne hCD (u := ρ) (v := 0) (by rcases hρ with h | h <;> linarith) (by rw [along_zero, ← hwr, e])
    · have e : D = w := Option.some.inj (hD.symm.trans hw)
      exact along_ne hCD (u := ρ) (v := 1) (by rcases hρ with h | h <;> linarith) (by rw [along_one, ← hwr, e])
  -- the right child
  have mkRight : ∀ u2, (⟨(C.fin, (along C D u2).fin), (c.a, c.b), .rightNonObservable⟩ : Successor (Ext ℝ)) ∈ succs →
      0 < u2 → u ≤ u2 → a = A → tri r a y' ≤ 0 → (0 < tri A B r ∨ ∃ ρ, ρ ≤ 0 ∧ r = along A B ρ) →
      Flagged q.mesh a → (y' = along C D u2 → along C D u2 ≠ D → ¬ RightFirst q.mesh rs) →
      ∃ su ∈ succs, ∃ n, Makes q node su n ∧ Covers q start goal opt n rs ∧ n.polygonTo = c.dst := by
    intro u2 hmem hu2 huu haA hside hfront hflag hj
    have ht := hk.turn hview (w := a) h.mid hin (.inl ⟨rfl, hside, hfront⟩)
    obtain ⟨s1, s2⟩ := (sights _ hmem rfl _ _ rfl).1.2.1 rfl
    obtain ⟨n, s', t', hM, hk', hn1, hn2⟩ := hk.makes hs he hd hsrc hv hat hgo hfrom hmem rfl rfl
      (by
        have := along_ne hCD hu2.ne
        rw [along_zero] at this; exact this)
      (.inr (hAB a (.inl haA))) s1 s2
      (fun layer vs ve _ _ _ hvs _ => hk.root_right haA hflag hvs rfl rfl)
    have hb := btw 0 u2 u0 huu hu2
    rw [along_zero] at hb
    refine ⟨_, hmem, n, hM, ⟨y', a, C, along C D u2, C, D, s', t', g + dist2 r a, ?_⟩, hn2⟩
    refine { known := hk', mid := hb, route := by rw [hn2]; exact hrest, cost := by linarith,
             jA := fun _ hne => absurd rfl hne, jB := hj, nodup := by rw [hn1, hn2]; exact hnd',
             root := hflag, calm := hcalm, passes := hpass,
             behindA := fun ρ hρ he => (noBehind 0 a (by rw [haA]; exact hview.fan.first) ρ (.inl hρ) he).elim,
             behindB := fun ρ hρ he => (noBehind 0 a (by rw [haA]; exact hview.fan.first) ρ (.inr hρ) he).elim }
  have mkLeft : ∀ u1, (⟨((along C D u1).fin, D.fin), (c.a, c.b), .leftNonObservable⟩ : Successor (Ext ℝ)) ∈ succs →
      u1 < 1 → u1 ≤ u → b = B → 0 ≤ tri r b y' → (0 < tri A B r ∨ ∃ ρ, 1 ≤ ρ ∧ r = along A B ρ) →
      Flagged q.mesh b → (y' = along C D u1 → along C D u1 ≠ C → ¬ LeftFirst q.mesh rs) →
      ∃ su ∈ succs, ∃ n, Makes q node su n ∧ Covers q start goal opt n rs ∧ n.polygonTo = c.dst := by
    intro v1 hmem hv1 huu hbB hside hfront hflag hj
    have ht := hk.turn hview (w := b) h.mid hin (.inr ⟨rfl, hside, hfront⟩)
    obtain ⟨s1, s2⟩ := (sights _ hmem rfl _ _ rfl).1.2.2 rfl
    obtain ⟨n, s', t', hM, hk', hn1, hn2⟩ := hk.makes hs he hd hsrc hv hat hgo hfrom hmem rfl rfl
      (by
        have := along_ne hCD hv1.ne
        rw [along_one] at this; exact this)
      (.inr (hAB b (.inr hbB))) s1 s2
      (fun layer vs ve _ _ _ _ hve => hk.root_left hbB hflag hve rfl rfl)
    have hb := btw v1 1 huu u1 hv1
    rw [along_one] at hb
    refine ⟨_, hmem, n, hM, ⟨y', b, along C D v1, D, C, D, s', t', g + dist2 r b, ?_⟩, hn2⟩
    refine { known := hk', mid := hb, route := by rw [hn2]; exact hrest, cost := by linarith,
             jA := hj, jB := fun _ hne => absurd rfl hne, nodup := by rw [hn1, hn2]; exact hnd',
             root := hflag, calm := hcalm, passes := hpass,
             behindA := fun ρ hρ he => (noBehind _ b (by rw [hbB]; exact hview.fan.last) ρ (.inl hρ) he).elim,
             behindB := fun ρ hρ he => (noBehind _ b (by rw [hbB]; exact hview.fan.last) ρ (.inr hρ) he).elim }
  have yC : ∀ v, y' = along C D v → u = v := by
    intro v hv
    by_contra hne
    exact along_ne hCD hne (hu.symm.trans hv)
  have sA : s = 0 → a = A := by rintro rfl; rw [hg.ha, along_zero]
  have tB : t = 1 → b = B := by rintro rfl; rw [hg.hb, along_one]
  have posA : a ≠ A → 0 < tri A B r := fun hne =>
    lt_of_le_of_ne hg.hr fun h0 => hne (sA (hg.flat h0.symm).1)
  have posB : b ≠ B → 0 < tri A B r := fun hne =>
    lt_of_le_of_ne hg.hr fun h0 => hne (tB (hg.flat h0.symm).2)
  have limA : a ≠ A → tri r a y' = 0 → y = a := fun hne h0 =>
    hk.at_limit hs hl hview (posA hne) (.inl rfl) h.mid hin h0.ge (hle.trans h0.le) h0 h.route hcost'
  have limB : b ≠ B → tri r b y' = 0 → y = b := fun hne h0 =>
    hk.at_limit hs hl hview (posB hne) (.inr rfl) h.mid hin (h0.ge.trans hle) h0.le h0 h.route hcost'
  have hcov' := hcov u u0 u1
  cases hcov' with
  | @obs v1 v2 hmem h12 h0 h1 hu1 hu2 hA hB =>
    rw [← hu] at hA hB
    by_cases hL : y' = along C D v1 ∧ along C D v1 ≠ C ∧ LeftFirst q.mesh rs
    · obtain ⟨hy1, hne, hLf⟩ := hL
      have huv := yC v1 hy1
      have hv0 : v1 ≠ 0 := by
        rintro rfl
        exact hne (along_zero _ _)
      rcases hA with hA | hA | ⟨hA1, hA2, hA3, hA4⟩
      · linarith
      · exact absurd hA hv0
      by_cases haA : a = A
      · rw [hu] at hA4
        exact mkRight u hA4 hA1 le_rfl haA hA2.le (.inl hA3)
          (flagA haA hA2.le (.inl hA3) (.inr (.inl (hLF.2 (.inr ⟨by rw [hy1]; exact hne, hLf⟩))))) (fun _ _ hR => not_both_first hLf hR)
      · exact absurd (hLF.2 (.inr ⟨by rw [hy1]; exact hne, hLf⟩)) (h.jA (limA haA hA2) haA)
    by_cases hR : y' = along C D v2 ∧ along C D v2 ≠ D ∧ RightFirst q.mesh rs
    · obtain ⟨hy1, hne, hRf⟩ := hR
      have huv := yC v2 hy1
      have hv0 : v2 ≠ 1 := by
        rintro rfl
        exact hne (along_one _ _)
      rcases hB with hB | hB | ⟨hB1, hB2, hB3, hB4⟩
      · linarith
      · exact absurd hB hv0
      by_cases hbB : b = B
      · rw [hu] at hB4
        exact mkLeft u hB4 hB1 le_rfl hbB hB2.ge (.inl hB3)
          (flagB hbB hB2.ge (.inl hB3) (.inr (.inl (hRF.2 ⟨by rw [hy1]; exact hne, .inr hRf⟩)))) (fun _ _ hL => not_both_first hL hRf)
      · exact absurd (hRF.2 ⟨by rw [hy1]; exact hne, .inr hRf⟩) (h.jB (limB hbB hB2) hbB)
    obtain ⟨s1, s2⟩ := (sights _ hmem rfl _ _ rfl).1.1 rfl
    obtain ⟨o1, o2, o3, o4⟩ := (sights _ hmem rfl _ _ rfl).2 rfl
    have hline : tri C D y' = 0 := by rw [hu, tri_along]; simp
    obtain ⟨τ, τ0, τ1, hτ⟩ := btw v1 v2 hu1 hu2 h12
    have hyA : 0 ≤ tri r a y' := by
      rw [hτ, tri_along]
      exact add_nonneg (mul_nonneg (by linarith) o1) (mul_nonneg τ0 o2)
    have hyB : tri r b y' ≤ 0 := by
      rw [hτ, tri_along]
      exact add_nonpos (mul_nonpos_of_nonneg_of_nonpos (by linarith) o3) (mul_nonpos_of_nonneg_of_nonpos τ0 o4)
    obtain ⟨n, s', t', hM, hk', hn1, hn2⟩ := hk.makes hs he hd hsrc hv hat hgo hfrom hmem rfl rfl
      (along_ne hCD h12.ne) hg.eye s1 s2
      (fun layer vs ve _ _ _ _ _ => by unfold successorRoot; simp only; rw [hg.root])
    refine ⟨_, hmem, n, hM, ⟨y', r, along C D v1, along C D v2, C, D, s', t', g + dist2 r r, ?_⟩, hn2⟩
    refine { known := hk', mid := btw v1 v2 hu1 hu2 h12, route := by rw [hn2]; exact hrest, cost := ?_,
             jA := fun h1 h2 h3 => hL ⟨h1, h2, h3⟩, jB := fun h1 h2 h3 => hR ⟨h1, h2, h3⟩,
             nodup := by rw [hn1, hn2]; exact hnd', root := h.root, calm := hcalm, passes := hpass,
             behindA := ?_, behindB := ?_ }
    · rw [dist2_self]
      linarith [dist2_triangle r y y']
    · intro ρ hρ hr
      by_contra hcon
      push Not at hcon
      obtain ⟨rfl, haA, hpos⟩ := hview.flat_first hg.flat hC hD hρ hr hin hline hyA hyB
      have h0 : tri r a y' = 0 := by rw [haA, hr, hu]; simp only [tri, along]; ring
      have hya := hk.at_limit hs hl hview hpos (.inl rfl) h.mid hin h0.ge (hle.trans h0.le) h0 h.route hcost'
      rw [haA] at hya
      obtain ⟨-, p2⟩ := h.passes.right hya (hya ▸ hcon.1)
      have h3 := p2 c y' rs D rfl (by rw [hya]; exact hat)
      rw [ahead_ne (by rw [hya]; exact hcon.2), hya, hu] at h3
      have : tri C (along C D u) D = 0 := by simp only [tri, along]; ring
      linarith
    · intro ρ hρ hr
      by_contra hcon
      push Not at hcon
      obtain ⟨rfl, hbB, hpos⟩ := hview.flat_last hg.flat hC hD hρ hr hin hline hyA hyB
      have h0 : tri r b y' = 0 := by rw [hbB, hr, hu]; simp only [tri, along]; ring
      have hyb := hk.at_limit hs hl hview hpos (.inr rfl) h.mid hin (h0.ge.trans hle) h0.le h0 h.route hcost'
      rw [hbB] at hyb
      obtain ⟨-, p2⟩ := h.passes.left hyb (hyb ▸ hcon.1)
      have h3 := p2 c y' rs C rfl (by rw [hyb]; exact hat)
      rw [ahead_ne (by rw [hyb]; exact hcon.2), hyb, hu] at h3
      have : tri D (along C D u) C = 0 := by simp only [tri, along]; ring
      linarith
  | @right v2 hmem h0 h1 hu2 hend hside hcase hfront =>
    rw [← hu] at hside hcase
    by_cases haA : a = A
    · refine mkRight v2 hmem h0 hu2 haA hside hfront (flagA haA hside hfront ?_) ?_
      · rcases hcase with ⟨-, h2, h3⟩ | h2 | h2
        · exact .inr (.inr ⟨h2, h3⟩)
        · exact .inl h2
        · exact .inr (.inl (hLF.2 (.inl (by rw [hu, h2, along_one]))))
      intro h2 h3
      exfalso
      have := yC v2 h2
      rcases hend with hend | hend
      · rw [hend, along_one] at h3
        exact h3 rfl
      · linarith
    · exfalso
      rcases hside.lt_or_eq with hlt | heq
      · have ht := hk.turn hview (w := a) h.mid hin (.inl ⟨rfl, hside, hfront⟩)
        exact hk.no_bend hs hl (.inl ⟨rfl, haA⟩) hin0 (h.route.from' (hpoly a habin.1)) hlt.ne
          (by linarith)
      · have hu1' : u = 1 := by
          rcases hcase with h2 | h2 | h2
          · exact absurd (sA h2.1) haA
          · linarith
          · exact h2
        exact h.jA (limA haA heq) haA (hLF.2 (.inl (by rw [hu, hu1', along_one])))
  | @left v1 hmem h0 h1 hu1' hend hside hcase hfront =>
    rw [← hu] at hside hcase
    by_cases hbB : b = B
    · refine mkLeft v1 hmem h1 hu1' hbB hside hfront (flagB hbB hside hfront ?_) ?_
      · rcases hcase with ⟨-, h2⟩ | h2 | h2
        · exact .inr (.inr h2)
        · exact .inl h2
        · have hyC : y' = C := by rw [hu, h2, along_zero]
          exact .inr (.inl (hRF.2 ⟨by rw [hyC]; exact hCD, .inl hyC⟩))
      intro h2 h3
      exfalso
      have := yC v1 h2
      rcases hend with hend | hend
      · rw [hend, along_zero] at h3
        exact h3 rfl
      · linarith
    · exfalso
      rcases hside.lt_or_eq with hlt | heq
      · have ht := hk.turn hview (w := b) h.mid hin (.inr ⟨rfl, hside, hfront⟩)
        exact hk.no_bend hs hl (.inr ⟨rfl, hbB⟩) hin0 (h.route.from' (hpoly b habin.2)) hlt.ne'
          (by linarith)
      · have hu0' : u = 0 := by
          rcases hcase with h2 | h2 | h2
          · exact absurd (tB h2.1) hbB
          · linarith
          · exact h2
        have hyC : y' = C := by rw [hu, hu0', along_zero]
        exact h.jB (limB hbB heq.symm) hbB (hRF.2 ⟨by rw [hyC]; exact hCD, .inl hyC⟩)

end Polyanya
