import Verif.Proofs.Straight
/-
In exact arithmetic without near misses, every point of the interval of a search node is visible from its
root, inside the mesh.
-/

namespace Polyanya

variable {F : Type} [Field F] [LinearOrder F] [Scalar F] [ExactField F] [IsStrictOrderedRing F]

/-- The ring of the polygon entered by a valid crossing. -/
theorem Conforming.fan {m : Mesh (Ext F)} (hc : Conforming m) {c : Crossing} (hv : c.Valid m)
    {A B : Vec2 F} (hat : c.At m A B) :
    ∃ ps k, Ring m c.dst ps ∧ StrictlyConvex ps ∧ Consecutive ps B A ∧ Fan (ps.rotate k) A B := by
  obtain ⟨ps, hr, hcon⟩ := hc.shared c hv A B hat
  obtain ⟨l, p, hp, hf⟩ := id hr
  obtain ⟨ps', hr', hconv⟩ := hc.convex _ l p hp
  obtain rfl := hr.unique hr'
  obtain ⟨i, hi, hB, hA⟩ := id hcon
  exact ⟨ps, i + 1, hr, hconv, hcon, fan_of_consecutive hconv hi hB hA⟩

/-- Points of the crossed edge are in the polygon that is entered. -/
theorem Conforming.entered {m : Mesh (Ext F)} (hc : Conforming m) {c : Crossing} (hv : c.Valid m)
    {A B x : Vec2 F} (hat : c.At m A B) (hx : Between A B x) : InPolygon m c.dst x := by
  obtain ⟨ps, k, hr, -, -, hf⟩ := hc.fan hv hat
  exact ⟨ps, hr, (inside_rotate k).1 (hf.inside_base hx)⟩

/-- A point of the polygon between the limits is seen from the root, through the interval. -/
theorem View.sees {ws : List (Vec2 F)} {A B r a b : Vec2 F} {s t : F} (h : View ws A B r a b s t)
    (hflat : tri A B r = 0 → s = 0 ∧ t = 1) {x : Vec2 F} (hx : Inside ws x) (h1 : 0 ≤ tri r a x)
    (h2 : tri r b x ≤ 0) : ∃ y, Between a b y ∧ Between r x y := by
  have e1 : tri a b r = (t - s) * tri A B r := by rw [h.ha, h.hb, tri_along₂]
  have e2 : tri a b x = (t - s) * tri A B x := by rw [h.ha, h.hb, tri_along₂]
  have hts : 0 < t - s := by linarith [h.st]
  have hx0 := h.fan.base_nonpos hx
  by_cases hne : tri a b r = tri a b x
  · rw [e1, e2] at hne
    have heq := mul_left_cancel₀ hts.ne' hne
    have hr0 : tri A B r = 0 := le_antisymm (heq ▸ hx0) h.hr
    obtain ⟨rfl, rfl⟩ := hflat hr0
    refine ⟨x, ?_, Between.right _ _⟩
    rw [h.ha, h.hb, along_zero, along_one]
    exact h.fan.on_base hx (heq ▸ hr0)
  · refine meet ?_ ?_ hne h1 h2
    · rw [e1]; exact mul_nonneg hts.le h.hr
    · rw [e2]; exact mul_nonpos_of_nonneg_of_nonpos hts.le hx0

/-- The interval is in the polygon. -/
theorem View.interval_in {ws : List (Vec2 F)} {A B r a b : Vec2 F} {s t : F} (h : View ws A B r a b s t)
    {x : Vec2 F} (hx : Between a b x) : Inside ws x ∧ Between A B x := by
  obtain ⟨u, u0, u1, rfl⟩ := hx
  have : Between A B (along a b u) := by
    rw [h.ha, h.hb, along_along]
    have h1 := mul_nonneg u0 (show 0 ≤ t - s by linarith [h.st])
    have h2 := mul_le_of_le_one_left (show 0 ≤ t - s by linarith [h.st]) u1
    exact ⟨_, by linarith [h.s0], by linarith [h.t1], rfl⟩
  exact ⟨h.fan.inside_base this, this⟩

/-- How a child (root `r'`, interval from `a'` to `b'` on the edge `C D`) sees the interval from `a` to `b` of its parent (root `r`):
either it has the same root, and looks through the interval of its parent, or its root is in the interval of its parent. -/
def LooksThrough (r a b r' a' b' : Vec2 F) : Prop :=
  (r' = r ∧ ∀ x, Between a' b' x → ∃ y, Between a b y ∧ Between r x y) ∨ (r' ≠ r ∧ Between a b r')

/-- The child of a node. -/
theorem nodeGeo_child_looks {q : Query (Ext F)} {start goal : Vec2 F} (hc : Conforming q.mesh)
    (hm : NoNearMiss q.mesh start goal) {src : UInt32} {node n : SearchNode (Ext F)}
    {r a b A B : Vec2 F} {s t : F} (hg : NodeGeo q.mesh src start node r a b A B s t)
    (hv : node.crossing.Valid q.mesh) (hprev : node.previousPolygonLayer = layerOf node.polygonFrom)
    (hv' : n.crossing.Valid q.mesh) (hch : ChildNode q node n) :
    ∃ r' a' b' C D s' t', NodeGeo q.mesh src start n r' a' b' C D s' t' ∧ LooksThrough r a b r' a' b'
      ∧ ∀ x, Between a' b' x → InPolygon q.mesh node.polygonTo x ∧ Between C D x := by
  obtain ⟨layer, succs, su, vs, ve, root, hnd, hl, he, hs, h0, h1, hmax, hb, hgo, hfrom, hr, htiny, hA⟩
    := hch
  obtain ⟨f1, f2, f3, f4, f5, f6⟩ := added_fields hA
  obtain ⟨ps, k0, hring, hconv, hcons, hfan⟩ := hc.fan hv hg.at_
  obtain ⟨prev, hpl, hvA, hvB⟩ := hg.at_
  have hpl' : q.mesh.layers[node.previousPolygonLayer.toNat]? = some prev := by
    rw [hprev, layerOf_toNat]; exact hpl
  have hap : ∀ v ∈ ps, sqDist v B < 1 / 1000 → v = B := fun v hv =>
    hm.apart v B (hring.isVertex hv) (hring.isVertex hcons.mem.1)
  obtain ⟨l, p, k, hp, hps, hview, hall⟩ := edgesBetween_view he hpl' hvB hg.root hg.interval hring hconv
    hcons hap (fun j hf => hg.view hm hring hf)
  obtain ⟨j, C, D, hC, hD, hCv, hDv, i1, i2, u1, u2, good⟩ := hall su hs
  rw [layerOf_toNat] at hl
  have hll : l = layer := by
    have := hp.1.symm.trans hl
    exact Option.some.inj this
  subst hll
  -- the new edge
  have hat : n.crossing.At q.mesh C D := by
    refine ⟨l, ?_, ?_, ?_⟩ <;> simp only [SearchNode.crossing, f1, f4]
    · exact hl
    · exact hCv
    · exact hDv
  have hCD : Consecutive (ps.rotate k) C D := consecutive_of_succ hC hD
  have hE : IsEdgeAt q.mesh C D := ⟨_, ps, hring, (consecutive_rotate k).1 hCD⟩
  have hin1 : n.interval = (i1.fin, i2.fin) := by
    rw [f3, good.interval]
  have hu : u1 < u2 := by
    refine lt_of_le_of_ne good.u12 ?_
    rintro rfl
    rw [good.interval, Bool.eq_false_iff, Ne, fin_distanceSquared, ext_tol10, ext_lt] at htiny
    apply htiny
    rw [good.e1, good.e2, sqDist]
    norm_num
  have hin : ∀ u, 0 ≤ u → u ≤ 1 → Inside (ps.rotate k) (along C D u) := fun u u0 u1 =>
    (hview.fan.inside hC).between (hview.fan.inside hD) ⟨u, u0, u1, rfl⟩
  have hin' : ∀ x, Between i1 i2 x → ∃ u, 0 ≤ u ∧ u ≤ 1 ∧ x = along C D u := by
    rintro x ⟨u, hu0, hu1, rfl⟩
    rw [good.e1, good.e2, along_along]
    have h1 := mul_nonneg hu0 (show 0 ≤ u2 - u1 by linarith)
    have h2 := mul_le_of_le_one_left (show 0 ≤ u2 - u1 by linarith) hu1
    exact ⟨_, by linarith [good.u0], by linarith [good.u3], rfl⟩
  have hpoly : ∀ x, Inside (ps.rotate k) x → InPolygon q.mesh node.polygonTo x := fun x hx =>
    ⟨ps, hring, (inside_rotate k).1 hx⟩
  obtain ⟨ws, pr, hpath, hwalk, hstr, htouch, -⟩ := hg.walk
  have hinC : ∀ x, Between i1 i2 x → InPolygon q.mesh node.polygonTo x ∧ Between C D x := by
    intro x hx
    obtain ⟨u, hu0, hu1, rfl⟩ := hin' x hx
    exact ⟨hpoly _ (hin u hu0 hu1), ⟨u, hu0, hu1, rfl⟩⟩
  have looksBend : ∀ w, Between a b w → LooksThrough r a b w i1 i2 := by
    intro w hw
    by_cases hwr : w = r
    · subst hwr
      exact .inl ⟨rfl, fun x _ => ⟨w, hw, Between.left _ _⟩⟩
    · exact .inr ⟨hwr, hw⟩
  have line1 : tri C D i1 = 0 := by rw [good.e1, tri_along]; simp
  have line2 : tri C D i2 = 0 := by rw [good.e2, tri_along]; simp
  have hAB := hg.sightA.1.isVertex
  -- crossing the new edge
  have crossNew : ∀ pr r' x, Straight q.mesh pr r' node.polygonTo x → Between C D x →
      Straight q.mesh pr r' n.polygonTo x := by
    intro pr r' x hx hb
    exact hx.snoc (c := n.crossing) (by simp [SearchNode.crossing, f1]) hv' hat hb (hc.entered hv' hat hb)
  -- walking to a bend `w` of the interval, and on
  have hinner : ∀ x, (x = i1 ∧ i1 ≠ C) ∨ (x = i2 ∧ i2 ≠ D) → tri A B x < 0 := by
    rintro x (⟨rfl, hx⟩ | ⟨rfl, hx⟩)
    · rw [good.e1]
      refine hview.fan.edge_inner hC hD (lt_of_le_of_ne good.u0 ?_) (by linarith [good.u3])
      rintro rfl
      exact hx (by rw [good.e1, along_zero])
    · rw [good.e2]
      refine hview.fan.edge_inner hC hD (by linarith [good.u0]) (lt_of_le_of_ne good.u3 ?_)
      rintro rfl
      exact hx (by rw [good.e2, along_one])
  have bend : ∀ w, root = w.fin → Between a b w → w = A ∨ w = B → ∃ ws pr, n.path = ws.map Vec2.fin
      ∧ Walk q.mesh src start pr w ws ∧ (∀ x, Between i1 i2 x → Straight q.mesh pr w n.polygonTo x)
      ∧ Touches q.mesh src start pr w ∧ ∀ x, (x = i1 ∧ i1 ≠ C) ∨ (x = i2 ∧ i2 ≠ D) →
        ∃ p, Between w x p ∧ p ≠ x ∧ Straight q.mesh pr w n.polygonFrom p := by
    intro w hw hwab hwAB
    have hlast : ∀ pr, Straight q.mesh pr w node.polygonTo w → ∀ x, (x = i1 ∧ i1 ≠ C) ∨ (x = i2 ∧ i2 ≠ D) →
        ∃ p, Between w x p ∧ p ≠ x ∧ Straight q.mesh pr w n.polygonFrom p := by
      intro pr hpr x hx
      refine ⟨w, Between.left _ _, ?_, by rw [f1]; exact hpr⟩
      rintro rfl
      have := hinner w hx
      obtain ⟨-, z, -, -, hz⟩ := hview.interval_in hwab
      rw [hz, tri_along] at this
      simp at this
    have hgo : ∀ pr, Straight q.mesh pr w node.polygonTo w → ∀ x, Between i1 i2 x →
        Straight q.mesh pr w n.polygonTo x := by
      intro pr hpr x hx
      obtain ⟨u, hu0, hu1, rfl⟩ := hin' x hx
      exact crossNew _ _ _ (hpr.extend (Between.left _ _) (hpoly _ (hin u hu0 hu1))) ⟨u, hu0, hu1, rfl⟩
    obtain ⟨newF, hh, -, -, -, -, rfl⟩ := hA
    by_cases hwr : w = r
    · subst hwr
      refine ⟨ws, pr, ?_, hwalk, hgo pr (hstr w hwab), htouch, hlast pr (hstr w hwab)⟩
      simp only [mkNode]
      rw [hw, hg.root, if_pos ((fin_beq _ _).2 rfl)]
      exact hpath
    · have hst : Straight q.mesh node.polygonTo w node.polygonTo w := by
        have := hpoly _ (hview.interval_in hwab).1
        exact .stay this this
      refine ⟨ws ++ [w], node.polygonTo, ?_, hwalk.snoc (hstr w hwab), hgo _ hst,
        .inl ⟨ps, hring, ?_⟩, hlast _ hst⟩
      · simp only [mkNode]
        rw [hw, hg.root, if_neg (fun h => hwr ((fin_beq _ _).1 h)), hpath]
        simp
      · rcases hwAB with rfl | rfl
        · exact hcons.mem.2
        · exact hcons.mem.1
  have eA : ∀ x : Vec2 (Ext F), (∃ v, prev.vertices[node.edge.1.toNat]? = some v ∧
      ((v.coords + prev.offset).distanceSquared x <. tol10) = true) → x = a.fin → a = A := by
    rintro x ⟨v, hv, hd⟩ rfl
    obtain ⟨v', hv1, hv2⟩ := hvA
    have : v = v' := Option.some.inj (hv.symm.trans hv1)
    subst this
    rw [hv2, fin_distanceSquared, ext_tol10, ext_lt] at hd
    refine hm.ends r A B a A hg.eye hg.sightA (.inl rfl) ?_
    have : sqDist a A = sqDist A a := by simp only [sqDist]; ring
    rw [this]
    linarith
  have eB : ∀ x : Vec2 (Ext F), (∃ v, prev.vertices[node.edge.2.toNat]? = some v ∧
      ((v.coords + prev.offset).distanceSquared x <. tol10) = true) → x = b.fin → b = B := by
    rintro x ⟨v, hv, hd⟩ rfl
    obtain ⟨v', hv1, hv2⟩ := hvB
    have : v = v' := Option.some.inj (hv.symm.trans hv1)
    subst this
    rw [hv2, fin_distanceSquared, ext_tol10, ext_lt] at hd
    refine hm.ends r A B b B hg.eye hg.sightB (.inr rfl) ?_
    have : sqDist b B = sqDist B b := by simp only [sqDist]; ring
    rw [this]
    linarith
  unfold successorRoot at hr
  cases hty : su.ty with
  | rightNonObservable =>
    rw [hty] at hr
    simp only at hr
    split at hr
    · simp at hr
    simp only [bind_eq_ok, idx_eq_ok] at hr
    obtain ⟨prev', hpv, v, hvv, hr⟩ := hr
    have : prev' = prev := Option.some.inj (hpv.symm.trans hpl')
    subst this
    split at hr
    swap
    · simp at hr
    rename_i hcond
    simp only [Bool.and_eq_true] at hcond
    simp only [Except.ok.injEq, Option.some.injEq] at hr
    have haA : a = A := eA _ ⟨v, hvv, hcond.2⟩ (by rw [hg.interval])
    have hroot : root = a.fin := by rw [← hr, hg.interval]
    obtain ⟨rfl, hu2⟩ := good.right hty
    have hi1 : i1 = C := by rw [good.e1, along_zero]
    refine ⟨a, i1, i2, C, D, 0, u2, ?_, looksBend a (Between.left _ _), hinC⟩
    refine { root := by rw [f6, hroot], interval := hin1, at_ := hat, ha := good.e1, hb := good.e2,
             s0 := le_rfl, st := hu, t1 := good.u3, hr := ?_, flat := ?_, eye := ?_, sightA := ?_,
             sightB := ?_, walk := bend a hroot (Between.left _ _) (.inl haA) }
    · rw [haA]; exact hview.fan.inside hview.fan.first C D hCD
    · intro hz
      refine ⟨rfl, ?_⟩
      rcases hu2 with h | ⟨-, h, -⟩
      · exact h
      · exfalso
        rw [haA] at hz
        rcases hview.fan.edge_line hC hD hview.fan.first hz with h2 | h2
        · subst h2
          have : A = C := Option.some.inj (hview.fan.first.symm.trans hC)
          rw [← this, ← haA] at h
          simp at h
        · omega
    · exact .inr (hAB a (.inl haA))
    · exact ⟨hE, .inl hi1⟩
    · refine ⟨hE, ?_⟩
      rcases hu2 with h | ⟨h2, h3, h4⟩
      · right; left; rw [good.e2, h, along_one]
      · right; right
        refine ⟨r, hg.eye, ?_, ?_, line2⟩
        · rw [tri_swap r a C, tri_swap r a D]
          intro h; linarith
        · rw [tri_swap r a i2, h2, neg_zero]
  | observable =>
    rw [hty] at hr
    simp only [Except.ok.injEq, Option.some.injEq] at hr
    subst hr
    obtain ⟨o1, o2, o3, o4, o5, o6⟩ := good.observable hty
    have hbetween : ∀ x, Between i1 i2 x → 0 ≤ tri r a x ∧ tri r b x ≤ 0 := by
      rintro x ⟨u, hu0, hu1, rfl⟩
      rw [tri_along, tri_along]
      have h1 := mul_nonneg (show 0 ≤ 1 - u by linarith) o1
      have h2 := mul_nonneg hu0 o2
      have h3 := mul_nonpos_of_nonneg_of_nonpos (show 0 ≤ 1 - u by linarith) o3
      have h4 := mul_nonpos_of_nonneg_of_nonpos hu0 o4
      constructor <;> linarith
    have hsee : ∀ x, Between i1 i2 x → ∃ y, Between a b y ∧ Between r x y := by
      intro x hx
      obtain ⟨u, hu0, hu1, rfl⟩ := hin' x hx
      exact hview.sees hg.flat (hin u hu0 hu1) (hbetween _ hx).1 (hbetween _ hx).2
    refine ⟨r, i1, i2, C, D, u1, u2, ?_, .inl ⟨rfl, hsee⟩, hinC⟩
    refine { root := by rw [f6, hg.root], interval := hin1, at_ := hat, ha := good.e1, hb := good.e2,
             s0 := good.u0, st := hu, t1 := good.u3, hr := ?_, flat := ?_, eye := hg.eye, sightA := ?_,
             sightB := ?_, walk := ⟨ws, pr, ?_, hwalk, ?_, htouch, ?_⟩ }
    · -- an inner point of the interval
      have hmid : Between i1 i2 (along i1 i2 (1 / 2)) := ⟨1 / 2, by norm_num, by norm_num, rfl⟩
      have hmid' : along i1 i2 (1 / 2) = along C D (u1 + 1 / 2 * (u2 - u1)) := by
        rw [good.e1, good.e2, along_along]
      obtain ⟨y, hy, κ, hκ0, hκ1, hyx⟩ := hsee _ hmid
      have hneg : tri A B (along i1 i2 (1 / 2)) < 0 := by
        rw [hmid']
        exact hview.fan.edge_inner hC hD (by linarith [good.u0]) (by linarith [good.u3])
      obtain ⟨hyin, z, -, -, hz⟩ := hview.interval_in hy
      have hy0 : tri A B y = 0 := by rw [hz, tri_along]; simp
      have hyC := hyin C D hCD
      have hline : tri C D (along i1 i2 (1 / 2)) = 0 := by rw [tri_along, line1, line2]; simp
      rw [hyx, tri_along, hline, mul_zero, add_zero] at hyC
      have hκ : κ < 1 := by
        refine lt_of_le_of_ne hκ1 ?_
        rintro rfl
        rw [along_one] at hyx
        rw [← hyx] at hneg
        exact hneg.ne hy0
      exact nonneg_of_mul_nonneg_right (by linarith) (show 0 < 1 - κ by linarith)
    · intro hz
      have hout : ∀ u, 0 < u → u < 1 → r ≠ along C D u := by
        rintro u hu0 hu1 rfl
        have := hview.fan.edge_inner hC hD hu0 hu1
        linarith [hg.hr]
      constructor
      · rcases o5 with h | ⟨h2, h3, h4⟩
        · exact h
        · by_contra hu1
          have : r = i1 := same_point (r := r) (a := a) (by intro h; linarith) hz line1 (by simp) h2
          exact hout u1 (lt_of_le_of_ne good.u0 (Ne.symm hu1)) (by linarith [good.u3]) (this.trans good.e1)
      · rcases o6 with h | ⟨h2, h3, h4⟩
        · exact h
        · by_contra hu2
          have : r = i2 := same_point (r := r) (a := b) h3 hz line2 (by simp) h2
          exact hout u2 (by linarith [good.u0]) (lt_of_le_of_ne good.u3 hu2) (this.trans good.e2)
    · rcases o5 with h | ⟨h2, h3, h4⟩
      · exact ⟨hE, .inl (by rw [good.e1, h, along_zero])⟩
      · exact hg.sightA.behind hE hAB (by intro h; linarith) h2 line1
    · rcases o6 with h | ⟨h2, h3, h4⟩
      · exact ⟨hE, .inr (.inl (by rw [good.e2, h, along_one]))⟩
      · exact hg.sightB.behind hE hAB h3 h2 line2
    · rw [added_same_root hA]; exact hpath
    · intro x hx
      obtain ⟨y, hy, hyx⟩ := hsee x hx
      obtain ⟨u, hu0, hu1, rfl⟩ := hin' x hx
      exact crossNew _ _ _ ((hstr y hy).extend hyx (hpoly _ (hin u hu0 hu1))) ⟨u, hu0, hu1, rfl⟩
    · intro x hx
      have hxb : Between i1 i2 x := by
        rcases hx with ⟨rfl, -⟩ | ⟨rfl, -⟩
        · exact Between.left _ _
        · exact Between.right _ _
      obtain ⟨y, hy, hyx⟩ := hsee x hxb
      refine ⟨y, hyx, ?_, by rw [f1]; exact hstr y hy⟩
      rintro rfl
      have := hinner y hx
      obtain ⟨-, z, -, -, hz⟩ := hview.interval_in hy
      rw [hz, tri_along] at this
      simp at this
  | leftNonObservable =>
    rw [hty] at hr
    simp only at hr
    split at hr
    · simp at hr
    simp only [bind_eq_ok, idx_eq_ok] at hr
    obtain ⟨prev', hpv, v, hvv, hr⟩ := hr
    have : prev' = prev := Option.some.inj (hpv.symm.trans hpl')
    subst this
    split at hr
    swap
    · simp at hr
    rename_i hcond
    simp only [Bool.and_eq_true] at hcond
    simp only [Except.ok.injEq, Option.some.injEq] at hr
    have hbB : b = B := eB _ ⟨v, hvv, hcond.2⟩ (by rw [hg.interval])
    have hroot : root = b.fin := by rw [← hr, hg.interval]
    obtain ⟨hu1, hu2⟩ := good.left hty
    have hflat : tri C D b = 0 → ¬ 0 < tri r b D := by
      intro hz
      rw [hbB] at hz
      have hlen := hview.fan.len
      have hj : j + 1 < (ps.rotate k).length := (List.getElem?_eq_some_iff.1 hD).1
      rcases hview.fan.edge_line hC hD hview.fan.last hz with h2 | h2
      · omega
      · rw [← h2] at hD
        have : B = D := Option.some.inj (hview.fan.last.symm.trans hD)
        rw [← this, ← hbB]
        simp
    have sight : ∀ i u, i = along C D u → (u = 0 ∨ u = 1 ∨ (tri r b i = 0 ∧ tri r b C ≠ tri r b D)) →
        Sight q.mesh start b C D i := by
      rintro i u rfl hcase
      refine ⟨hE, ?_⟩
      rcases hcase with h | h | ⟨h2, h3⟩
      · left; rw [h, along_zero]
      · right; left; rw [h, along_one]
      · right; right
        refine ⟨r, hg.eye, ?_, ?_, by rw [tri_along]; simp⟩
        · rw [tri_swap r b C, tri_swap r b D]
          intro h; exact h3 (neg_injective h)
        · rw [tri_swap r b, h2, neg_zero]
    refine ⟨b, i1, i2, C, D, u1, u2, ?_, looksBend b (Between.right _ _), hinC⟩
    refine { root := by rw [f6, hroot], interval := hin1, at_ := hat, ha := good.e1, hb := good.e2,
             s0 := good.u0, st := hu, t1 := good.u3, hr := ?_, flat := ?_, eye := ?_, sightA := ?_,
             sightB := ?_, walk := bend b hroot (Between.right _ _) (.inr hbB) }
    · rw [hbB]; exact hview.fan.inside hview.fan.last C D hCD
    · intro hz
      exact ⟨hu1.resolve_right (fun h => hflat hz h.2.2), hu2.resolve_right (fun h => hflat hz h.2.2)⟩
    · exact .inr (hAB b (.inr hbB))
    · refine sight _ _ good.e1 ?_
      rcases hu1 with h | h
      · exact .inl h
      · exact .inr (.inr ⟨h.1, h.2.1⟩)
    · refine sight _ _ good.e2 ?_
      rcases hu2 with h | h
      · exact .inr (.inl h)
      · exact .inr (.inr ⟨h.1, h.2.1⟩)

/-- The child of a node. -/
theorem nodeGeo_child {q : Query (Ext F)} {start goal : Vec2 F} (hc : Conforming q.mesh)
    (hm : NoNearMiss q.mesh start goal) {src : UInt32} {node n : SearchNode (Ext F)}
    {r a b A B : Vec2 F} {s t : F} (hg : NodeGeo q.mesh src start node r a b A B s t)
    (hv : node.crossing.Valid q.mesh) (hprev : node.previousPolygonLayer = layerOf node.polygonFrom)
    (hv' : n.crossing.Valid q.mesh) (hch : ChildNode q node n) :
    ∃ r a b A B s t, NodeGeo q.mesh src start n r a b A B s t := by
  obtain ⟨r', a', b', C, D, s', t', h, -⟩ := nodeGeo_child_looks hc hm hg hv hprev hv' hch
  exact ⟨r', a', b', C, D, s', t', h⟩

/-- Every node of a query. -/
theorem gen_geo {q : Query (Ext F)} {start goal : Vec2 F} (hc : Conforming q.mesh)
    (hm : NoNearMiss q.mesh start goal) (hd : q.dst.2 ≠ u32Max) (hsrc : q.src.1 = start.fin)
    (hin : InPolygon q.mesh q.src.2 start) {n : SearchNode (Ext F)} (h : Gen q n) :
    ∃ r a b A B s t, NodeGeo q.mesh q.src.2 start n r a b A B s t := by
  induction h with
  | @setup n hs =>
    obtain ⟨cs, hinv⟩ := gen_inv hd (Gen.setup hs)
    obtain ⟨layer, poly, edges, edge, vs, ve, hl, hp, he, hmem, h0, h1, hb, hgo, hA⟩ := hs
    obtain ⟨f1, f2, f3, f4, f5, f6⟩ := added_fields hA
    rw [layerOf_toNat] at hl
    rw [polygonOf_toNat] at hp
    obtain ⟨ps, hring, hins⟩ := hin
    obtain ⟨l', p', hp', hf⟩ := id hring
    have : l' = layer := Option.some.inj (hp'.1.symm.trans hl)
    subst this
    have : p' = poly := Option.some.inj (hp'.2.symm.trans hp)
    subst this
    obtain ⟨i, hi, hia, hib⟩ := (mem_edgesIndex he edge.1 edge.2).1 hmem
    obtain ⟨A, hA1, hA2⟩ := forall₂_getElem hf hia
    obtain ⟨B, hB1, hB2⟩ := forall₂_getElem hf hib
    have hcons : Consecutive ps A B := by
      refine ⟨i, by rw [← hf.length_eq]; exact hi, hA1, by rw [← hf.length_eq]; exact hB1⟩
    have hat : n.crossing.At q.mesh A B := by
      refine ⟨l', ?_, ?_, ?_⟩ <;> simp only [SearchNode.crossing, f1, f4, emptyNode]
      · exact hl
      · exact hA2
      · exact hB2
    have hE : IsEdgeAt q.mesh A B := ⟨_, ps, hring, hcons⟩
    obtain ⟨ps', hr', hconv⟩ := hc.convex _ _ _ hp'
    obtain rfl := hring.unique hr'
    have hAin : Inside ps A ∧ Inside ps B := by
      obtain ⟨j, hj, hjA, hjB⟩ := id hcons
      have hfan := fan_of_consecutive hconv hj hjA hjB
      exact ⟨(inside_rotate _).1 (hfan.inside hfan.last), (inside_rotate _).1 (hfan.inside hfan.first)⟩
    refine ⟨start, A, B, A, B, 0, 1, ?_⟩
    refine { root := by rw [f6, hsrc], interval := ?_, at_ := hat, ha := (along_zero _ _).symm,
             hb := (along_one _ _).symm, s0 := le_rfl, st := zero_lt_one, t1 := le_rfl,
             hr := hins A B hcons, flat := fun _ => ⟨rfl, rfl⟩, eye := .inl rfl, sightA := ⟨hE, .inl rfl⟩,
             sightB := ⟨hE, .inr (.inl rfl)⟩, walk := ⟨[], q.src.2, ?_, .nil ⟨ps, hring, hins⟩, ?_,
               .inr ⟨rfl, rfl⟩, ?_⟩ }
    · rw [f3]
      obtain ⟨v, hv, hvA⟩ := hA2
      obtain ⟨w, hw, hwB⟩ := hB2
      rw [h0] at hv
      rw [h1] at hw
      cases hv
      cases hw
      rw [hvA, hwB]
    · rw [added_same_root (node := emptyNode q.src) hA]; rfl
    · intro x hx
      have hxin : InPolygon q.mesh q.src.2 x := ⟨ps, hring, hAin.1.between hAin.2 hx⟩
      exact (Straight.stay ⟨ps, hring, hins⟩ hxin).snoc (c := n.crossing)
        (by simp [SearchNode.crossing, f1, emptyNode]) hinv.valid hat hx
        (hc.entered hinv.valid hat hx)
    · rintro x (⟨-, h⟩ | ⟨-, h⟩) <;> exact absurd rfl h
  | @child node n hn hch ih =>
    obtain ⟨r, a, b, A, B, s, t, hg⟩ := ih
    obtain ⟨cs, hinv⟩ := gen_inv hd hn
    obtain ⟨cs', hinv'⟩ := gen_inv hd (Gen.child hn hch)
    exact nodeGeo_child hc hm hg hinv.valid hinv.prev hinv'.valid hch

end Polyanya
