import Verif.Proofs.Tiling
import Verif.Proofs.Straight
import Verif.Proofs.SameRoot
import Verif.Proofs.Route
import Verif.Spec.SameWalks
/-
Walks in a mesh before and after merging (C64).
-/

namespace Polyanya

/-! ### Plane geometry, with closed polygons -/

/-- A point of a convex polygon is on the left of (or on) every line that has no corner on its right. -/
theorem inside_weak {ps : List (Vec2 ℝ)} (hp : ConvexOutline ps) (hne : ps ≠ []) {x : Vec2 ℝ} (hx : Inside ps x)
    {c d : Vec2 ℝ} (h : ∀ v ∈ ps, 0 ≤ tri c d v) : 0 ≤ tri c d x := by
  obtain ⟨v, hv, hmin⟩ : ∃ v ∈ ps, ∀ w ∈ ps, tri c d v ≤ tri c d w := by
    have hfin : (ps.toFinset : Finset (Vec2 ℝ)).Nonempty := by
      cases ps with
      | nil => exact absurd rfl hne
      | cons a ps => exact ⟨a, by simp⟩
    obtain ⟨v, hv, hm⟩ := Finset.exists_min_image ps.toFinset (fun v => tri c d v) hfin
    exact ⟨v, by simpa using hv, fun w hw => hm w (by simpa using hw)⟩
  obtain ⟨w, hw⟩ := mr_next hv
  obtain ⟨u, hu⟩ := mr_prev hv
  have f0 := h v hv
  have fw := hmin w (mr_consecutive_mem hw).2
  have fu := hmin u (mr_consecutive_mem hu).1
  have xw := hx v w hw
  have xu := hx u v hu
  have hD := hp.left v w hw u (mr_consecutive_mem hu).1
  have hPl : ∀ y, (tri c d y - tri c d v) * tri v w u =
      (tri c d w - tri c d v) * tri u v y + (tri c d u - tri c d v) * tri v w y := by
    intro y; unfold tri; ring
  rcases hD.lt_or_eq with hD | hD
  · by_contra hneg
    push Not at hneg
    have h1 : (tri c d x - tri c d v) * tri v w u < 0 := mul_neg_of_neg_of_pos (by linarith) hD
    have h2 : 0 ≤ (tri c d w - tri c d v) * tri u v x := mul_nonneg (by linarith) xu
    have h3 : 0 ≤ (tri c d u - tri c d v) * tri v w x := mul_nonneg (by linarith) xw
    have := hPl x
    linarith
  · obtain ⟨z, hz, hzp⟩ := hp.proper v w hw
    obtain ⟨z', hz', hzp'⟩ := hp.proper u v hu
    have ew : tri c d w - tri c d v = 0 := by
      have e := hPl z'
      rw [← hD, mul_zero] at e
      have h2 : 0 ≤ (tri c d w - tri c d v) * tri u v z' := mul_nonneg (by linarith) hzp'.le
      have h3 : 0 ≤ (tri c d u - tri c d v) * tri v w z' := mul_nonneg (by linarith) (hp.left v w hw z' hz')
      exact (mul_eq_zero.1 (by linarith : (tri c d w - tri c d v) * tri u v z' = 0)).resolve_right hzp'.ne'
    have fz := hmin z hz
    have hPl2 : (tri c d x - tri c d v) * tri v w z =
        (tri c d z - tri c d v) * tri v w x + (tri c d w - tri c d v) * tri v x z := by
      unfold tri; ring
    rw [ew, zero_mul, add_zero] at hPl2
    have h4 : 0 ≤ (tri c d x - tri c d v) * tri v w z := by rw [hPl2]; exact mul_nonneg (by linarith) xw
    by_contra hneg
    push Not at hneg
    have : (tri c d x - tri c d v) * tri v w z < 0 := mul_neg_of_neg_of_pos (by linarith) hzp
    linarith

variable {P Q R : List (Vec2 ℝ)} {a b : Vec2 ℝ}

theorem JoinedUp.ne_nil (h : JoinedUp P Q R a b) : P ≠ [] := by
  rintro rfl
  exact absurd (mr_consecutive_mem h.edgeP).1 (by simp)

theorem JoinedUp.inside_iff (h : JoinedUp P Q R a b) (hP : ConvexOutline P) (hQ : ConvexOutline Q)
    (hR : ConvexOutline R) (x : Vec2 ℝ) : Inside R x ↔ Inside P x ∨ Inside Q x := by
  have hsub : ∀ {P Q a b}, JoinedUp P Q R a b → ConvexOutline P → Inside P x → Inside R x := by
    intro P Q a b h hP hx c d hcd
    exact inside_weak hP h.ne_nil hx fun v hv => hR.left c d hcd v (h.subP v hv)
  constructor
  · intro hx
    rcases le_total 0 (tri a b x) with hs | hs
    · left
      intro c d hcd
      rcases h.toP c d hcd with he | he
      · cases he; exact hs
      · exact hx c d he
    · right
      intro c d hcd
      rcases h.toQ c d hcd with he | he
      · cases he; rw [tri_swap]; linarith
      · exact hx c d he
  · rintro (hx | hx)
    · exact hsub h hP hx
    · exact hsub h.symm hQ hx

/-- The edge after the shared edge turns left. -/
theorem JoinedUp.turn (h : JoinedUp P Q R a b) (hP : ConvexOutline P) (hQ : ConvexOutline Q) (hR : ConvexOutline R)
    {w : Vec2 ℝ} (hw : Consecutive P b w) : Consecutive R b w ∧ 0 < tri b w a := by
  have hab := hP.ne h.edgeP
  have hw' : Consecutive R b w := by
    rcases h.toP b w hw with he | he
    · exact absurd (congrArg Prod.fst he).symm hab
    · exact he
  refine ⟨hw', ?_⟩
  have k := hP.left b w hw a (mr_consecutive_mem h.edgeP).1
  rcases k.lt_or_eq with k | k
  · exact k
  · exfalso
    have k' : tri a b w = 0 := by rw [← tri_cyc]; exact k.symm
    obtain ⟨t, rfl⟩ := mr_on_line hab k'
    obtain ⟨q, hq, hqp⟩ := hQ.proper b a h.edgeQ
    obtain ⟨y, hy, hyp⟩ := hP.proper a b h.edgeP
    have id1 : ∀ c, tri b (along a b t) c = (t - 1) * tri a b c := by intro c; unfold tri along; ring
    have g1 := hR.left _ _ hw' q (h.subQ q hq)
    have g2 := hP.left _ _ hw y hy
    rw [id1] at g1 g2
    rw [tri_swap] at hqp
    have g3 := hP.ne hw
    have h1 : t - 1 ≤ 0 := by
      by_contra hc
      push Not at hc
      have := mul_neg_of_pos_of_neg hc (by linarith : tri a b q < 0)
      linarith
    have h2 : 0 ≤ t - 1 := by
      by_contra hc
      push Not at hc
      have := mul_neg_of_neg_of_pos hc hyp
      linarith
    have ht : t = 1 := by linarith
    subst ht
    rw [along_one] at g3
    exact g3 rfl

theorem JoinedUp.turn_before (h : JoinedUp P Q R a b) (hP : ConvexOutline P) (hQ : ConvexOutline Q)
    (hR : ConvexOutline R) {z : Vec2 ℝ} (hz : Consecutive P z a) : Consecutive R z a ∧ 0 < tri z a b := by
  have hab := hP.ne h.edgeP
  have hz' : Consecutive R z a := by
    rcases h.toP z a hz with he | he
    · exact absurd (congrArg Prod.snd he) hab
    · exact he
  refine ⟨hz', ?_⟩
  have k := hP.left z a hz b (mr_consecutive_mem h.edgeP).2
  rcases k.lt_or_eq with k | k
  · exact k
  · exfalso
    have k' : tri a b z = 0 := by rw [tri_cyc z a b]; exact k.symm
    obtain ⟨t, rfl⟩ := mr_on_line hab k'
    obtain ⟨q, hq, hqp⟩ := hQ.proper b a h.edgeQ
    obtain ⟨y, hy, hyp⟩ := hP.proper a b h.edgeP
    have id1 : ∀ c, tri (along a b t) a c = (- t) * tri a b c := by intro c; unfold tri along; ring
    have g1 := hR.left _ _ hz' q (h.subQ q hq)
    have g2 := hP.left _ _ hz y hy
    rw [id1] at g1 g2
    rw [tri_swap] at hqp
    have g3 := hP.ne hz
    have h1 : - t ≤ 0 := by
      by_contra hc
      push Not at hc
      have := mul_neg_of_pos_of_neg hc (by linarith : tri a b q < 0)
      linarith
    have h2 : 0 ≤ - t := by
      by_contra hc
      push Not at hc
      have := mul_neg_of_neg_of_pos hc hyp
      linarith
    have ht : t = 0 := by linarith
    subst ht
    rw [along_zero] at g3
    exact g3 rfl

/-- The line of the shared edge meets the union in the shared edge. -/
theorem JoinedUp.between (h : JoinedUp P Q R a b) (hP : ConvexOutline P) (hQ : ConvexOutline Q)
    (hR : ConvexOutline R) {x : Vec2 ℝ} (hx : Inside R x) (h0 : tri a b x = 0) : Between a b x := by
  obtain ⟨t, rfl⟩ := mr_on_line (hP.ne h.edgeP) h0
  obtain ⟨w, hw⟩ := mr_next (mr_consecutive_mem h.edgeP).2
  obtain ⟨z, hz⟩ := mr_prev (mr_consecutive_mem h.edgeP).1
  obtain ⟨w1, w2⟩ := h.turn hP hQ hR hw
  obtain ⟨z1, z2⟩ := h.turn_before hP hQ hR hz
  have e1 := hx b w w1
  have e2 := hx z a z1
  rw [tri_along] at e1 e2
  simp only [tri_left, tri_right, mul_zero, add_zero, zero_add] at e1 e2
  refine ⟨t, ?_, ?_, rfl⟩
  · by_contra hc
    push Not at hc
    have := mul_neg_of_neg_of_pos hc z2
    linarith
  · by_contra hc
    push Not at hc
    have := mul_neg_of_neg_of_pos (by linarith : 1 - t < 0) w2
    linarith

/-- A segment from one of the polygons to the other one crosses the shared edge. -/
theorem JoinedUp.crosses (h : JoinedUp P Q R a b) (hP : ConvexOutline P) (hQ : ConvexOutline Q)
    (hR : ConvexOutline R) {x y : Vec2 ℝ} (hx : Inside P x) (hy : Inside Q y) :
    ∃ z, Between x y z ∧ Between a b z := by
  have hx' := (h.inside_iff hP hQ hR x).2 (.inl hx)
  have hy' := (h.inside_iff hP hQ hR y).2 (.inr hy)
  have fx := hx a b h.edgeP
  have fy := hy b a h.edgeQ
  rw [tri_swap] at fy
  by_cases hd : tri a b x - tri a b y = 0
  · exact ⟨x, Between.left _ _, h.between hP hQ hR hx' (by linarith)⟩
  · have hpos : 0 < tri a b x - tri a b y := lt_of_le_of_ne (by linarith) (Ne.symm hd)
    have hbet : Between x y (along x y (tri a b x / (tri a b x - tri a b y))) :=
      ⟨_, div_nonneg fx hpos.le, by rw [div_le_one hpos]; linarith, rfl⟩
    refine ⟨_, hbet, h.between hP hQ hR (hx'.between hy' hbet) ?_⟩
    rw [tri_along]
    field_simp
    ring

theorem ConvexOutline.inside_edge {ps : List (Vec2 ℝ)} (hp : ConvexOutline ps) {a b x : Vec2 ℝ}
    (hab : Consecutive ps a b) (hx : Between a b x) : Inside ps x :=
  Inside.between (fun _ _ h => hp.left _ _ h a (mr_consecutive_mem hab).1)
    (fun _ _ h => hp.left _ _ h b (mr_consecutive_mem hab).2) hx

/-! ### Straight walks -/

/-- A straight walk can start further back in the first polygon. -/
theorem Straight.prepend {m : Mesh (Ext ℝ)} {s e : UInt32} {p y q : Vec2 ℝ} (h : Straight m s y e q)
    (hp : InPolygon m s p) (hb : Between p q y) : Straight m s p e q := by
  cases h with
  | stay _ hq => exact .stay hp hq
  | cross _ hv hat hAB hyq hrest =>
    have h1 : Between p q _ := (hyq.symm.trans_left hb.symm).1.symm
    exact .cross hp hv hat hAB h1 hrest

/-- Two straight walks in the same direction. -/
theorem Straight.append {m : Mesh (Ext ℝ)} {s t e : UInt32} {p z q : Vec2 ℝ} (h : Straight m s p t z)
    (h' : Straight m t z e q) (hb : Between p q z) : Straight m s p e q := by
  induction h with
  | stay hp _ => exact h'.prepend hp hb
  | cross hp hv hat hAB hpz _ ih =>
    obtain ⟨h1, h2⟩ := hpz.trans_left hb
    exact .cross hp hv hat hAB h1 (ih h' h2)

/-! ### A mesh with one layer -/

/-- The mesh has the one layer `l`, and `pos` are the places of the vertices. -/
structure Sited (m : Mesh (Ext ℝ)) (l : Layer (Ext ℝ)) (pos : UInt32 → Vec2 ℝ) : Prop where
  layers : m.layers = [l]
  con : l.Consistent
  at_ : ∀ (v : UInt32) vx, l.vertices[v.toNat]? = some vx → VertexAt l v (pos v)

variable {m : Mesh (Ext ℝ)} {l : Layer (Ext ℝ)} {pos : UInt32 → Vec2 ℝ}

theorem Sited.hasPolygon (hs : Sited m l pos) {id : UInt32} {l1 : Layer (Ext ℝ)} {p : Polygon} :
    HasPolygon m id l1 p ↔ l1 = l ∧ l.polygons[id.toNat]? = some p := by
  unfold HasPolygon
  rw [hs.layers]
  constructor
  · rintro ⟨h1, h2⟩
    have h0 : idLayer id = 0 := by
      have := (List.getElem?_eq_some_iff.1 h1).1
      simpa using this
    rw [h0] at h1
    simp only [List.getElem?_cons_zero, Option.some.injEq] at h1
    subst h1
    have hlt : id.toNat < 2 ^ 24 := by
      unfold idLayer at h0
      omega
    unfold idPolygon at h2
    rw [Nat.mod_eq_of_lt hlt] at h2
    exact ⟨rfl, h2⟩
  · rintro ⟨rfl, h2⟩
    have hlt : id.toNat < 2 ^ 24 := by
      have := lt_of_getElem? h2
      have := hs.con.sized
      omega
    have h0 : idLayer id = 0 := by unfold idLayer; omega
    refine ⟨by rw [h0]; rfl, ?_⟩
    unfold idPolygon
    rw [Nat.mod_eq_of_lt hlt]
    exact h2

theorem Sited.ring (hs : Sited m l pos) {id : UInt32} {p : Polygon} (hp : l.polygons[id.toNat]? = some p) :
    Ring m id (p.vertices.map pos) := by
  refine ⟨l, p, hs.hasPolygon.2 ⟨rfl, hp⟩, ?_⟩
  rw [List.forall₂_map_right_iff, List.forall₂_same]
  intro v hv
  obtain ⟨vx, hvx, -⟩ := hs.con.polygonVertex _ p hp v hv
  exact hs.at_ v vx hvx

theorem Sited.inPolygon (hs : Sited m l pos) {id : UInt32} {x : Vec2 ℝ} :
    InPolygon m id x ↔ ∃ p, l.polygons[id.toNat]? = some p ∧ Inside (p.vertices.map pos) x := by
  constructor
  · rintro ⟨ps, hr, hi⟩
    have hr' := hr
    obtain ⟨l1, p, h1, -⟩ := hr'
    obtain ⟨rfl, hp⟩ := hs.hasPolygon.1 h1
    rw [hr.unique (hs.ring hp)] at hi
    exact ⟨p, hp, hi⟩
  · rintro ⟨p, hp, hi⟩
    exact ⟨_, hs.ring hp, hi⟩

theorem Sited.crossing_at (hs : Sited m l pos) {c : Crossing} {p : Polygon}
    (hp : l.polygons[c.src.toNat]? = some p) (he : IsEdge p.vertices c.a c.b) : c.At m (pos c.a) (pos c.b) := by
  have h1 := (hs.hasPolygon (id := c.src)).2 ⟨rfl, hp⟩
  obtain ⟨va, ha, -⟩ := hs.con.polygonVertex _ p hp c.a (isEdge_mem he).1
  obtain ⟨vb, hb, -⟩ := hs.con.polygonVertex _ p hp c.b (isEdge_mem he).2
  exact ⟨l, h1.1, hs.at_ _ va ha, hs.at_ _ vb hb⟩

theorem ofNat_toNat_of_poly (hs : Sited m l pos) {k : Nat} {p : Polygon} (hp : l.polygons[k]? = some p) :
    (UInt32.ofNat k).toNat = k := by
  have h1 := lt_of_getElem? hp
  have h2 := hs.con.sized
  rw [UInt32.toNat_ofNat']
  exact Nat.mod_eq_of_lt (by omega)

/-- Two neighbours in the layer can be crossed. -/
theorem Sited.cross (hs : Sited m l pos) {k k' : Nat} {p q : Polygon} {a b : UInt32}
    (hp : l.polygons[k]? = some p) (hq : l.polygons[k']? = some q) (hne : k ≠ k') (he : IsEdge p.vertices a b)
    (he' : IsEdge q.vertices b a) : Crossing.Valid m ⟨UInt32.ofNat k, UInt32.ofNat k', a, b⟩ := by
  obtain ⟨va, ha, -⟩ := hs.con.polygonVertex _ p hp a (isEdge_mem he).1
  obtain ⟨vb, hb, -⟩ := hs.con.polygonVertex _ p hp b (isEdge_mem he).2
  obtain ⟨va', ha', hka⟩ := hs.con.polygonVertex _ q hq a (isEdge_mem he').2
  obtain ⟨vb', hb', hkb⟩ := hs.con.polygonVertex _ q hq b (isEdge_mem he').1
  rw [ha] at ha'
  rw [hb] at hb'
  cases ha'
  cases hb'
  have e1 := ofNat_toNat_of_poly hs hp
  have e2 := ofNat_toNat_of_poly hs hq
  refine ⟨l, p, va, vb, hs.hasPolygon.2 ⟨rfl, by rw [e1]; exact hp⟩, he, ha, hb, hka, hkb, ?_, ?_⟩
  · intro hM
    have := congrArg UInt32.toNat hM
    rw [e2] at this
    have h1 := lt_of_getElem? hq
    have h2 := hs.con.sized
    have h3 : u32Max.toNat = 2 ^ 32 - 1 := rfl
    omega
  · intro h
    have := congrArg UInt32.toNat h
    simp only [e1, e2] at this
    exact hne this.symm

/-! ### The merging loop -/

/-- Polygon `p`, which replaces the polygons of class `r`, is convex, covers what they cover, and one can walk
straight from any of them to any other one. -/
structure WPoly (m : Mesh (Ext ℝ)) (l : Layer (Ext ℝ)) (pos : UInt32 → Vec2 ℝ) (par : List Nat) (r : Nat) (p : Polygon) :
    Prop where
  convex : ConvexOutline (p.vertices.map pos)
  inside : ∀ x, Inside (p.vertices.map pos) x ↔
    ∃ t q, Root par t r ∧ l.polygons[t]? = some q ∧ Inside (q.vertices.map pos) x
  straight : ∀ t t' q q' x y, Root par t r → Root par t' r → l.polygons[t]? = some q → l.polygons[t']? = some q' →
    Inside (q.vertices.map pos) x → Inside (q'.vertices.map pos) y →
    Straight m (UInt32.ofNat t) x (UInt32.ofNat t') y

def WInv (m : Mesh (Ext ℝ)) (l : Layer (Ext ℝ)) (pos : UInt32 → Vec2 ℝ) (st : MergeState) : Prop :=
  ∀ r p, Root st.parent r r → st.polygons[r]? = some p → WPoly m l pos st.parent r p

theorem Sited.inPoly (hs : Sited m l pos) {k : Nat} {p : Polygon} (hp : l.polygons[k]? = some p) {x : Vec2 ℝ}
    (hx : Inside (p.vertices.map pos) x) : InPolygon m (UInt32.ofNat k) x :=
  hs.inPolygon.2 ⟨p, by rw [ofNat_toNat_of_poly hs hp]; exact hp, hx⟩

theorem WInv.init (hs : Sited m l pos) (hc : ∀ p ∈ l.polygons, ConvexOutline (p.vertices.map pos)) :
    WInv m l pos { polygons := l.polygons, parent := ufNew l.polygons.length } := by
  intro r p hr hp
  have hp' : l.polygons[r]? = some p := hp
  have huniq : ∀ t, Root (ufNew l.polygons.length) t r → t = r := fun t ht =>
    (ht.unique (ufNew_root (by simpa [ufNew] using ht.lt))).symm
  refine ⟨hc p (List.mem_of_getElem? hp'), fun x => ⟨fun h => ⟨r, p, hr, hp', h⟩, ?_⟩, ?_⟩
  · rintro ⟨t, q, ht, hq, h⟩
    have := huniq t ht
    subst this
    rw [hp'] at hq
    cases hq
    exact h
  · intro t t' q q' x y ht ht' hq hq' hx hy
    have e1 := huniq t ht
    have e2 := huniq t' ht'
    subst e1 e2
    rw [hq] at hq'
    cases hq'
    exact .stay (hs.inPoly hq hx) (hs.inPoly hq hy)

theorem MStep.walk {val : Ext ℝ → ℝ} {geo : Geo (Ext ℝ)} {l0 : Layer (Ext ℝ)} (hg : geo.AcceptsConvexOnly val)
    (hs : Sited m l0 pos) (hl0 : l0.polygons = l.polygons)
    (hconv : ∀ vs cs, l.coordsOf vs = .ok cs → ConvexOutline (cs.map (Vec2.valued val)) → ConvexOutline (vs.map pos))
    (hcv : ∀ p ∈ l.polygons, ConvexOutline (p.vertices.map pos))
    (hcon : l.Consistent) (hc : l.Conforming) {i : Nat} {todo : List Nat} {st st' : MergeState}
    (hst : MStep geo l i st st') (h : MInv l (i :: todo) st) (hR : WInv m l pos st) : WInv m l pos st' := by
  cases hst with
  | skip => exact hR
  | @merge a b Y X o start stop cs par' hi hp hYe hstart hstop ho1 ho2 hoM hoi ho hX hcs hcw hl hr =>
    obtain ⟨hoi', hab, hYn, hXn, hXe⟩ := merge_facts hcon hc h hi hp hYe hstart hstop ho1 ho2 hoM hoi ho hX
    have hin : i < st.polygons.length := (List.getElem?_eq_some_iff.1 hp).1
    have hroots := join_roots h.base.ok hl hr
    have hroot_i : ∀ t, Root par' t i ↔ Root st.parent t i ∨ Root st.parent t o.toNat := by
      intro t
      constructor
      · intro hm
        obtain ⟨s, hs, hse⟩ := (hroots t i).1 hm
        split at hse
        · subst_vars; exact .inr hs
        · subst_vars; exact .inl hs
      · rintro (hm | hm)
        · exact (hroots t i).2 ⟨i, hm, by simp [Ne.symm hoi']⟩
        · exact (hroots t i).2 ⟨_, hm, by simp⟩
    have hroot_r : ∀ r, r ≠ i → Root par' r r → ∀ m, Root par' m r ↔ Root st.parent m r := by
      intro r hri hrr m
      rw [hroots]
      constructor
      · rintro ⟨s, hs, hse⟩
        split at hse
        · exact absurd hse hri
        · subst hse; exact hs
      · intro hm
        refine ⟨r, hm, ?_⟩
        split
        · rename_i hro
          subst hro
          obtain ⟨s, hs, hse⟩ := (hroots _ _).1 hrr
          split at hse
          · exact hse
          · rename_i hne
            exact absurd (hs.unique ho) hne
        · rfl
    intro r p hrr hrp
    simp only [set_get? hin] at hrp
    by_cases hri : r = i
    · subst hri
      rw [if_pos rfl] at hrp
      cases hrp
      have hconvJ : ConvexOutline ((joinVertices Y.vertices X.vertices (a, b)).map pos) :=
        hconv _ cs hcs (hg cs hcw).2
      have mY := h.poly r Y hi hp
      have mX := h.poly o.toNat X ho hX
      have rY := hR r Y hi hp
      have rX := hR o.toNat X ho hX
      have hJ := join_joined (pos := pos) hYn hXn mY.three mX.three hab hYe hXe
      -- the tiles on both sides of the shared edge
      obtain ⟨q1, ⟨t1, ht1, hq1⟩, he1⟩ := ((mY.union.edges a b).1 hYe).1
      obtain ⟨q2, ⟨t2, ht2, hq2⟩, he2⟩ := ((mX.union.edges b a).1 hXe).1
      have hq1' : l0.polygons[t1]? = some q1 := by rw [hl0]; exact hq1
      have hq2' : l0.polygons[t2]? = some q2 := by rw [hl0]; exact hq2
      have ht12 : t1 ≠ t2 := by
        rintro rfl
        exact hoi' (ht2.unique ht1)
      have hc1 : ∀ z, Between (pos a) (pos b) z → Inside (q1.vertices.map pos) z ∧ Inside (q2.vertices.map pos) z := by
        intro z hz
        exact ⟨(hcv q1 (List.mem_of_getElem? hq1)).inside_edge (consecutive_map.2 ⟨a, b, he1, rfl, rfl⟩) hz,
          (hcv q2 (List.mem_of_getElem? hq2)).inside_edge (consecutive_map.2 ⟨b, a, he2, rfl, rfl⟩) hz.symm⟩
      refine ⟨hconvJ, fun x => ?_, ?_⟩
      · refine (hJ.inside_iff rY.convex rX.convex hconvJ x).trans ?_
        rw [rY.inside x, rX.inside x]
        simp only [hroot_i]
        constructor
        · rintro (⟨t, q, ht, hq, hx⟩ | ⟨t, q, ht, hq, hx⟩)
          · exact ⟨t, q, .inl ht, hq, hx⟩
          · exact ⟨t, q, .inr ht, hq, hx⟩
        · rintro ⟨t, q, ht | ht, hq, hx⟩
          · exact .inl ⟨t, q, ht, hq, hx⟩
          · exact .inr ⟨t, q, ht, hq, hx⟩
      · intro t t' q q' x y ht ht' hq hq' hx hy
        rcases (hroot_i t).1 ht with ht | ht <;> rcases (hroot_i t').1 ht' with ht' | ht'
        · exact rY.straight t t' q q' x y ht ht' hq hq' hx hy
        · obtain ⟨z, hz, hzb⟩ := hJ.crosses rY.convex rX.convex hconvJ ((rY.inside x).2 ⟨t, q, ht, hq, hx⟩)
            ((rX.inside y).2 ⟨t', q', ht', hq', hy⟩)
          obtain ⟨i1, i2⟩ := hc1 z hzb
          have s1 := rY.straight t t1 q q1 x z ht ht1 hq hq1 hx i1
          have s2 := rX.straight t2 t' q2 q' z y ht2 ht' hq2 hq' i2 hy
          have hat := hs.crossing_at (c := ⟨UInt32.ofNat t1, UInt32.ofNat t2, a, b⟩)
            (by rw [ofNat_toNat_of_poly hs hq1']; exact hq1') he1
          exact s1.append (.cross (c := ⟨UInt32.ofNat t1, UInt32.ofNat t2, a, b⟩) s1.dst_in
            (hs.cross hq1' hq2' ht12 he1 he2) hat hzb (Between.left _ _) s2) hz
        · obtain ⟨z, hz, hzb⟩ := hJ.symm.crosses rX.convex rY.convex hconvJ ((rX.inside x).2 ⟨t, q, ht, hq, hx⟩)
            ((rY.inside y).2 ⟨t', q', ht', hq', hy⟩)
          obtain ⟨i1, i2⟩ := hc1 z hzb.symm
          have s1 := rX.straight t t2 q q2 x z ht ht2 hq hq2 hx i2
          have s2 := rY.straight t1 t' q1 q' z y ht1 ht' hq1 hq' i1 hy
          have hat := hs.crossing_at (c := ⟨UInt32.ofNat t2, UInt32.ofNat t1, b, a⟩)
            (by rw [ofNat_toNat_of_poly hs hq2']; exact hq2') he2
          exact s1.append (.cross (c := ⟨UInt32.ofNat t2, UInt32.ofNat t1, b, a⟩) s1.dst_in
            (hs.cross hq2' hq1' ht12.symm he2 he1) hat hzb (Between.left _ _) s2) hz
        · exact rX.straight t t' q q' x y ht ht' hq hq' hx hy
    · rw [if_neg hri] at hrp
      have hold := hR r p ((hroot_r r hri hrr r).1 hrr) hrp
      refine ⟨hold.convex, fun x => ?_, ?_⟩
      · simp only [hroot_r r hri hrr]; exact hold.inside x
      · simp only [hroot_r r hri hrr]; exact hold.straight


/-! ### One round -/

/-- What one round of merging does to the polygons: `f` gives the new numbers. -/
structure RoundOf (m m' : Mesh (Ext ℝ)) (l l' : Layer (Ext ℝ)) (pos : UInt32 → Vec2 ℝ) (f : Nat → Nat) : Prop where
  sited : Sited m l pos
  sited' : Sited m' l' pos
  conf : l.Conforming
  conf' : l'.Conforming
  convex : ∀ p ∈ l.polygons, ConvexOutline (p.vertices.map pos)
  convex' : ∀ p ∈ l'.polygons, ConvexOutline (p.vertices.map pos)
  range : ∀ (t : Nat) q, l.polygons[t]? = some q → ∃ p', l'.polygons[f t]? = some p'
  inside : ∀ (j : Nat) p', l'.polygons[j]? = some p' → ∀ x, Inside (p'.vertices.map pos) x ↔
    ∃ t q, f t = j ∧ l.polygons[t]? = some q ∧ Inside (q.vertices.map pos) x
  straight : ∀ t t' q q' x y, f t = f t' → l.polygons[t]? = some q → l.polygons[t']? = some q' →
    Inside (q.vertices.map pos) x → Inside (q'.vertices.map pos) y →
    Straight m (UInt32.ofNat t) x (UInt32.ofNat t') y
  edges : ∀ (j : Nat) p', l'.polygons[j]? = some p' →
    IsUnion p' (fun q => ∃ t, f t = j ∧ l.polygons[t]? = some q)

section
variable {m' : Mesh (Ext ℝ)} {l' : Layer (Ext ℝ)} {f : Nat → Nat}

/-- The new number of a polygon. -/
def moveId (f : Nat → Nat) (s : UInt32) : UInt32 := UInt32.ofNat (f s.toNat)

theorem RoundOf.toNat (h : RoundOf m m' l l' pos f) {s : UInt32} {q : Polygon} (hq : l.polygons[s.toNat]? = some q) :
    (moveId f s).toNat = f s.toNat := by
  obtain ⟨p', hp'⟩ := h.range _ q hq
  exact ofNat_toNat_of_poly h.sited' hp'

theorem RoundOf.inPolygon (h : RoundOf m m' l l' pos f) {s : UInt32} {x : Vec2 ℝ} (hx : InPolygon m s x) :
    InPolygon m' (moveId f s) x := by
  obtain ⟨q, hq, hi⟩ := h.sited.inPolygon.1 hx
  obtain ⟨p', hp'⟩ := h.range _ q hq
  exact h.sited'.inPoly hp' ((h.inside _ p' hp' x).2 ⟨_, q, rfl, hq, hi⟩)

theorem RoundOf.covered (h : RoundOf m m' l l' pos f) {s' : UInt32} {x : Vec2 ℝ} (hx : InPolygon m' s' x) :
    ∃ s, moveId f s = s' ∧ InPolygon m s x := by
  obtain ⟨p', hp', hi⟩ := h.sited'.inPolygon.1 hx
  obtain ⟨t, q, ht, hq, hxq⟩ := (h.inside _ p' hp' x).1 hi
  refine ⟨UInt32.ofNat t, ?_, h.sited.inPoly hq hxq⟩
  unfold moveId
  rw [ofNat_toNat_of_poly h.sited hq, ht, UInt32.ofNat_toNat]

/-- What a possible crossing is in a conforming layer. -/
theorem Sited.valid (hs : Sited m l pos) (hc : l.Conforming) {c : Crossing} (hv : c.Valid m) :
    ∃ p q, l.polygons[c.src.toNat]? = some p ∧ l.polygons[c.dst.toNat]? = some q ∧ IsEdge p.vertices c.a c.b ∧
      IsEdge q.vertices c.b c.a ∧ c.src.toNat ≠ c.dst.toNat := by
  obtain ⟨l1, p, va, vb, hp, he, ha, hb, hda, hdb, hM, hne⟩ := hv
  obtain ⟨rfl, hp⟩ := hs.hasPolygon.1 hp
  obtain ⟨q, hq, haq⟩ := hs.con.vertexPolygon _ va ha _ hda hM
  obtain ⟨q', hq', hbq⟩ := hs.con.vertexPolygon _ vb hb _ hdb hM
  rw [hq] at hq'
  cases hq'
  have hne' : c.src.toNat ≠ c.dst.toNat := fun e => hne (UInt32.toNat_inj.1 e).symm
  exact ⟨p, q, hp, hq, he, hc.opposite _ _ p q _ _ hp hq hne' he haq hbq, hne'⟩

theorem RoundOf.forward (h : RoundOf m m' l l' pos f) {s e : UInt32} {p q : Vec2 ℝ} (hst : Straight m s p e q) :
    Straight m' (moveId f s) p (moveId f e) q := by
  induction hst with
  | stay hp hq => exact .stay (h.inPolygon hp) (h.inPolygon hq)
  | @cross c e p y q A B hp hv hat hAB hpq hrest ih =>
    obtain ⟨P, Q, hP, hQ, he, he', hne⟩ := h.sited.valid h.conf hv
    by_cases hf : f c.src.toNat = f c.dst.toNat
    · have e1 : moveId f c.dst = moveId f c.src := by unfold moveId; rw [hf]
      rw [e1] at ih
      exact ih.prepend (h.inPolygon hp) hpq
    · obtain ⟨P', hP'⟩ := h.range _ P hP
      obtain ⟨Q', hQ'⟩ := h.range _ Q hQ
      have huniq : ∀ (t : Nat) (q : Polygon) a b, l.polygons[t]? = some q → IsEdge q.vertices a b → ∀ (t' : Nat) (q' : Polygon), l.polygons[t']? = some q' →
          IsEdge q'.vertices a b → t = t' := by
        intro t q a b hq hqe t' q' hq' hqe'
        by_contra hne
        have := h.conf.opposite t t' q q' a b hq hq' hne hqe (isEdge_mem hqe').1 (isEdge_mem hqe').2
        exact isEdge_asymm (h.conf.nodup q' (List.mem_of_getElem? hq')) (h.conf.three q' (List.mem_of_getElem? hq'))
          hqe' this
      have eP : IsEdge P'.vertices c.a c.b := by
        refine ((h.edges _ P' hP').edges _ _).2 ⟨⟨P, ⟨_, rfl, hP⟩, he⟩, ?_⟩
        rintro ⟨q, ⟨t, ht, hq⟩, hqe⟩
        have := huniq t q _ _ hq hqe _ Q hQ he'
        subst this
        exact hf ht.symm
      have eQ : IsEdge Q'.vertices c.b c.a := by
        refine ((h.edges _ Q' hQ').edges _ _).2 ⟨⟨Q, ⟨_, rfl, hQ⟩, he'⟩, ?_⟩
        rintro ⟨q, ⟨t, ht, hq⟩, hqe⟩
        have := huniq t q _ _ hq hqe _ P hP he
        subst this
        exact hf ht
      have hv' : Crossing.Valid m' ⟨moveId f c.src, moveId f c.dst, c.a, c.b⟩ := h.sited'.cross hP' hQ' hf eP eQ
      have hat' := h.sited'.crossing_at (c := ⟨moveId f c.src, moveId f c.dst, c.a, c.b⟩)
        (by rw [h.toNat hP]; exact hP') eP
      have hat1 := h.sited.crossing_at (c := c) hP he
      obtain ⟨rfl, rfl⟩ := hat.unique hat1
      exact .cross (c := ⟨moveId f c.src, moveId f c.dst, c.a, c.b⟩) (h.inPolygon hp) hv' hat' hAB hpq ih

theorem RoundOf.backward (h : RoundOf m m' l l' pos f) {s' e' : UInt32} {p q : Vec2 ℝ}
    (hst : Straight m' s' p e' q) : ∀ s e, moveId f s = s' → moveId f e = e' → InPolygon m s p → InPolygon m e q →
    Straight m s p e q := by
  have hclass : ∀ {s e x y}, moveId f s = moveId f e → InPolygon m s x → InPolygon m e y → Straight m s x e y := by
    intro s e x y hf hx hy
    obtain ⟨q1, hq1, i1⟩ := h.sited.inPolygon.1 hx
    obtain ⟨q2, hq2, i2⟩ := h.sited.inPolygon.1 hy
    have := congrArg UInt32.toNat hf
    rw [h.toNat hq1, h.toNat hq2] at this
    have := h.straight _ _ q1 q2 x y this hq1 hq2 i1 i2
    rwa [UInt32.ofNat_toNat, UInt32.ofNat_toNat] at this
  induction hst with
  | stay _ _ =>
    intro s e hs he hp hq
    exact hclass (hs.trans he.symm) hp hq
  | @cross c e' p y q A B hp' hv hat hAB hpq hrest ih =>
    intro s e hs he hp hq
    obtain ⟨P', Q', hP', hQ', eP, eQ, hne⟩ := h.sited'.valid h.conf' hv
    obtain ⟨q1, ⟨t1, ht1, hq1⟩, he1⟩ := (((h.edges _ P' hP').edges _ _).1 eP).1
    obtain ⟨q2, ⟨t2, ht2, hq2⟩, he2⟩ := (((h.edges _ Q' hQ').edges _ _).1 eQ).1
    have ht12 : t1 ≠ t2 := by
      rintro rfl
      exact hne (ht1.symm.trans ht2)
    have hat' := h.sited'.crossing_at (c := c) hP' eP
    obtain ⟨rfl, rfl⟩ := hat.unique hat'
    have iy1 := h.sited.inPoly hq1 ((h.convex q1 (List.mem_of_getElem? hq1)).inside_edge
      (consecutive_map.2 ⟨_, _, he1, rfl, rfl⟩) hAB)
    have iy2 := h.sited.inPoly hq2 ((h.convex q2 (List.mem_of_getElem? hq2)).inside_edge
      (consecutive_map.2 ⟨_, _, he2, rfl, rfl⟩) hAB.symm)
    have e1 : moveId f (UInt32.ofNat t1) = c.src := by
      unfold moveId; rw [ofNat_toNat_of_poly h.sited hq1, ht1, UInt32.ofNat_toNat]
    have e2 : moveId f (UInt32.ofNat t2) = c.dst := by
      unfold moveId; rw [ofNat_toNat_of_poly h.sited hq2, ht2, UInt32.ofNat_toNat]
    have s1 := hclass (hs.trans e1.symm) hp iy1
    have s2 := ih (UInt32.ofNat t2) e e2 he iy2 hq
    have hat1 := h.sited.crossing_at (c := ⟨UInt32.ofNat t1, UInt32.ofNat t2, c.a, c.b⟩)
      (by rw [ofNat_toNat_of_poly h.sited hq1]; exact hq1) he1
    exact s1.append (.cross (c := ⟨UInt32.ofNat t1, UInt32.ofNat t2, c.a, c.b⟩) iy1
      (h.sited.cross hq1 hq2 ht12 he1 he2) hat1 hAB (Between.left _ _) s2) hpq

theorem walk_nil_inv {m : Mesh (Ext ℝ)} {s e : UInt32} {p q : Vec2 ℝ} (h : Walk m s p e q []) :
    s = e ∧ p = q ∧ InPolygon m s p := by
  generalize hws : ([] : List (Vec2 ℝ)) = ws at h
  cases h with
  | nil hp => exact ⟨rfl, rfl, hp⟩
  | cons _ _ => exact absurd hws (by simp)

theorem walk_cons_inv {m : Mesh (Ext ℝ)} {s e : UInt32} {p w q : Vec2 ℝ} {ws : List (Vec2 ℝ)}
    (h : Walk m s p e q (w :: ws)) : ∃ s', Straight m s p s' w ∧ Walk m s' w e q ws := by
  generalize hws : w :: ws = ws' at h
  cases h with
  | nil hp => exact absurd hws (by simp)
  | cons h1 h2 =>
    cases hws
    exact ⟨_, h1, h2⟩

theorem RoundOf.sameWalks (h : RoundOf m m' l l' pos f) : SameWalks m m' (moveId f) := by
  refine ⟨fun s p hp => h.inPolygon hp, fun s' p hp => h.covered hp, ?_, ?_⟩
  · intro s p e q ws hw
    induction hw with
    | nil hp => exact .nil (h.inPolygon hp)
    | cons hst _ ih => exact .cons (h.forward hst) ih
  · intro s p e q ws
    induction ws generalizing s p with
    | nil => intro _ _ hn; exact absurd rfl hn
    | cons w ws ih =>
      intro hp hq _ hw
      obtain ⟨s1, hst, hrest⟩ := walk_cons_inv hw
      cases ws with
      | nil =>
        obtain ⟨rfl, rfl, -⟩ := walk_nil_inv hrest
        exact .cons (h.backward hst s e rfl rfl hp hq) (.nil hq)
      | cons w' ws =>
        obtain ⟨s2, hs2, hin⟩ := h.covered hst.dst_in
        subst hs2
        exact .cons (h.backward hst s s2 rfl rfl hp hin) (ih s2 w hin hq (by simp) hrest)

end

end Polyanya
