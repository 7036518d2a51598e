import Verif.Proofs.Tour
/-
Every node of a query carries the marks of a tour.
-/

namespace Polyanya

variable {F : Type} [Field F] [LinearOrder F] [Scalar F] [ExactField F] [IsStrictOrderedRing F]

/-- The interval of a node is not a point. -/
theorem NodeGeo.interval_ne {m : Mesh (Ext F)} (hc : Conforming m) {src : UInt32} {start : Vec2 F} {n : SearchNode (Ext F)}
    {r a b A B : Vec2 F} {s t : F} (hg : NodeGeo m src start n r a b A B s t) (hv : n.crossing.Valid m) : a ≠ b := by
  rw [hg.ha, hg.hb]
  exact along_ne_of_lt (hc.edge_ne hv hg.at_) hg.st

theorem openMark_ite {a b : Vec2 F} (hne : a ≠ b) (c : Prop) [Decidable c] (L : UInt8) :
    OpenMarks (if c then [(a.fin, b.fin, L)] else []) := by
  intro o ho
  by_cases h : c
  · rw [if_pos h, List.mem_singleton] at ho
    subst ho
    rw [Bool.eq_false_iff]; intro h; exact hne ((fin_beq _ _).1 h)
  · rw [if_neg h] at ho; simp at ho

theorem OpenMarks.append {K : Type} [Scalar K] {os os' : List (Vec2 K × Vec2 K × UInt8)} (h : OpenMarks os)
    (h' : OpenMarks os') : OpenMarks (os ++ os') := by
  intro o ho
  rcases List.mem_append.1 ho with ho | ho
  · exact h o ho
  · exact h' o ho

/-- A tour ends in its polygon. -/
theorem Tour.dst_in {m : Mesh (Ext F)} (hc : Conforming m) {L L' : UInt8} {s s' : UInt32} {p q : Vec2 F} {ws : List (Vec2 F)}
    {es : List (Vec2 F × UInt8)} (h : Tour m L s p ws es L' s' q) : InPolygon m s' q := by
  induction h with
  | here h => exact h
  | move _ _ h _ => exact h
  | cross _ h1 h2 h3 _ => exact hc.entered h1 h2 h3
  | hop _ h1 h2 h3 _ _ _ => exact hc.entered h1 h2 h3
  | stop _ _ ih => exact ih

/-- The child of a node. -/
theorem tour_child {q : Query (Ext F)} {start : Vec2 F} (hc : Conforming q.mesh)
    (hcfg : q.cfg.detailed = true) {node n : SearchNode (Ext F)}
    {r a b r' a' b' C D : Vec2 F} {s' t' : F} (hroot : node.root = r.fin)
    (hg' : NodeGeo q.mesh q.src.2 start n r' a' b' C D s' t')
    (hv' : n.crossing.Valid q.mesh) (hch : ChildNode q node n) (hlook : LooksThrough r a b r' a' b')
    (hin : ∀ x, Between a' b' x → InPolygon q.mesh node.polygonTo x ∧ Between C D x)
    (ht : TourInv q.mesh q.src.2 start node r a b) : TourInv q.mesh q.src.2 start n r' a' b' := by
  obtain ⟨layer, succs, su, vs, ve, root, hnd, hl, he, hs, h0, h1, hmax, hb, hgo, hfrom, hr, htiny, hA⟩ := hch
  obtain ⟨f1, f2, f3, f4, f5, f6⟩ := added_fields hA
  have hne := hg'.interval_ne hc hv'
  have hroot' : root = r'.fin := f6.symm.trans hg'.root
  have hint : su.interval = (a'.fin, b'.fin) := by
    have := f3.symm.trans hg'.interval
    simpa using this
  subst hroot'
  rw [hint] at hA
  obtain ⟨m1, m2⟩ := marks_of_added hcfg hA hroot
  have hcs : n.crossing.src = node.polygonTo := f1
  have hcd : n.crossing.dst = n.polygonTo := rfl
  rw [← f2, ← hcs, ← hcd] at m2
  obtain ⟨ws, hw, hlast, hinv⟩ := ht
  rcases hlook with ⟨rfl, hthrough⟩ | ⟨hrr, hbr⟩
  · -- same root
    rw [if_pos rfl] at m1 m2
    refine ⟨ws, m1.trans hw, hlast, fun hcl => ?_⟩
    obtain ⟨es₀, L₀, pr, fixed, opens, i1, i2, i3, i4, i5, i6⟩ := hinv hcl
    refine ⟨es₀, L₀, pr, fixed, opens ++ _, ?_, i2.append (openMark_ite hne
      (layerOf n.crossing.dst ≠ layerOf n.crossing.src) (layerOf n.crossing.dst)), i3, i4, i5, ?_⟩
    · rw [m2, i1, List.append_assoc]
    · intro y' x hy' hx hclear
      obtain ⟨y, hy, hyy⟩ := hthrough y' hy'
      obtain ⟨es, L₁, j1, j2, j3, j4, j5⟩ := i6 y x hy (hyy.trans_left hx).1 hclear
      obtain ⟨k1, k2⟩ := hin y' hy'
      exact resolve_more (c := n.crossing) i2 j1 hv' hg'.at_ (hcs ▸ j4) (hcs ▸ j5) j2 j3 hyy hx (hcs ▸ k1) k2 hy'
        hg'.ha hg'.hb hg'.st hne hclear
  · -- new root
    rw [if_neg hrr] at m1 m2
    refine ⟨ws ++ [r'], by rw [m1, hw]; simp, by simp [List.getLastD_eq_getLast?], fun hcl => ?_⟩
    have hcl' : (start :: ws).IsChain (ClearLeg q.mesh) ∧ ClearLeg q.mesh r r' := by
      rw [← List.cons_append, List.isChain_append] at hcl
      refine ⟨hcl.1, hcl.2.2 _ ?_ _ (by simp)⟩
      rw [← hlast, List.getLast?_cons, List.getLastD_eq_getLast?]; rfl
    obtain ⟨es₀, L₀, pr, fixed, opens, i1, i2, i3, i4, i5, i6⟩ := hinv hcl'.1
    obtain ⟨es, L₁, j1, j2, j3, j4, j5⟩ := i6 r' r' hbr (Between.right _ _) hcl'.2
    have hbeq := (fin_beq r' r').2 rfl
    have hT : Tour q.mesh (layerOf q.src.2) q.src.2 start (ws ++ [r']) (es₀ ++ es ++ [(r', layerOf n.crossing.src)])
        (layerOf n.crossing.src) n.crossing.src r' := by
      rw [hcs]
      have := (i5.trans j4).stop (L'' := layerOf node.polygonTo) (layerOf_toNat _)
      simpa using this
    refine ⟨es₀ ++ es ++ [(r', layerOf n.crossing.src)], layerOf n.crossing.src, n.crossing.src,
      fixed ++ opens ++ [(r'.fin, r'.fin, layerOf n.crossing.src)], _, ?_, openMark_ite hne
      (layerOf n.crossing.dst ≠ layerOf n.crossing.src) (layerOf n.crossing.dst), ?_, ?_, hT, ?_⟩
    · rw [m2, i1, hcs]
    · intro rest last
      have : fixed ++ opens ++ [(r'.fin, r'.fin, layerOf n.crossing.src)] ++ rest
          = fixed ++ (opens ++ (r'.fin, r'.fin, layerOf n.crossing.src) :: rest) := by simp
      rw [this, i3, resolveLayers_fixed i2 hbeq, j1]
      simp [finEntry]
    · rw [List.append_assoc]
      exact i4.append (by rw [hlast]; exact j2.traces .nil)
    · intro y' x hy' hx hclear
      obtain ⟨k1, k2⟩ := hin y' hy'
      have hrin : InPolygon q.mesh n.crossing.src r' := by
        rw [hcs]
        exact j4.dst_in hc
      have := resolve_more (c := n.crossing) (L₀ := layerOf n.crossing.src) (L₁ := layerOf n.crossing.src)
        (pr := n.crossing.src) (es := []) (opens := []) (y := r') (r := r') (x := x) (y' := y')
        (by intro o ho; simp at ho) rfl hv' hg'.at_ (.here hrin) (fun _ => layerOf_toNat _) .nil
        (Between.left _ _) (Between.left _ _) hx (hcs ▸ k1) k2 hy' hg'.ha hg'.hb hg'.st hne hclear
      rw [List.nil_append] at this
      exact this

/-- Every node of a query. -/
theorem gen_tour {q : Query (Ext F)} {start goal : Vec2 F} (hc : Conforming q.mesh)
    (hm : NoNearMiss q.mesh start goal) (hd : q.dst.2 ≠ u32Max) (hsrc : q.src.1 = start.fin)
    (hin : InPolygon q.mesh q.src.2 start) (hcfg : q.cfg.detailed = true) {n : SearchNode (Ext F)} (h : Gen q n) :
    ∃ r a b A B s t, NodeGeo q.mesh q.src.2 start n r a b A B s t ∧ TourInv q.mesh q.src.2 start n r a b := by
  induction h with
  | @setup n hs =>
    obtain ⟨cs, hinv⟩ := gen_inv hd (Gen.setup hs)
    obtain ⟨r, a, b, A, B, s, t, hg⟩ := gen_geo hc hm hd hsrc hin (Gen.setup hs)
    refine ⟨r, a, b, A, B, s, t, hg, ?_⟩
    have hne := hg.interval_ne hc hinv.valid
    obtain ⟨layer, poly, edges, edge, vs, ve, hl, hp, he, hmem, h0, h1, hb, hgo, hA⟩ := hs
    obtain ⟨f1, f2, f3, f4, f5, f6⟩ := added_fields hA
    have hroot : r = start := by
      have := hg.root.symm.trans f6
      rw [hsrc] at this
      have h' := (fin_beq r start).1 (by rw [this]; exact (fin_beq start start).2 rfl)
      exact h'
    subst hroot
    have hint := f3.symm.trans hg.interval
    simp only [Prod.mk.injEq] at hint
    rw [hint.1, hint.2, hsrc] at hA
    obtain ⟨m1, m2⟩ := marks_of_added hcfg hA (by rw [emptyNode]; exact hsrc)
    rw [if_pos rfl] at m1 m2
    have hcs : n.crossing.src = q.src.2 := f1
    have hcd : n.crossing.dst = n.polygonTo := rfl
    rw [← f2, ← f1] at m2
    have m1' : n.path = ([] : List (Vec2 F)).map Vec2.fin := m1
    have m2' : n.pathWithLayers = [] ++ (if layerOf n.crossing.dst ≠ layerOf n.crossing.src
        then [(a.fin, b.fin, layerOf n.crossing.dst)] else []) := m2
    refine ⟨[], m1', rfl, fun _ => ⟨[], layerOf q.src.2, q.src.2, [], _, m2', openMark_ite hne
      (layerOf n.crossing.dst ≠ layerOf n.crossing.src) (layerOf n.crossing.dst), fun _ _ => rfl, .nil, .here hin, ?_⟩⟩
    intro y' x hy' hx hclear
    have hyin : InPolygon q.mesh q.src.2 y' ∧ Between A B y' := by
      rw [layerOf_toNat] at hl
      rw [polygonOf_toNat] at hp
      obtain ⟨ps, hring, hins⟩ := hin
      obtain ⟨l', p', hp', hf⟩ := id hring
      have : l' = layer := Option.some.inj (hp'.1.symm.trans hl)
      subst this
      have : p' = poly := Option.some.inj (hp'.2.symm.trans hp)
      subst this
      obtain ⟨i, hi, hia, hib⟩ := (mem_edgesIndex he edge.1 edge.2).1 hmem
      obtain ⟨A', hA1, hA2⟩ := forall₂_getElem hf hia
      obtain ⟨B', hB1, hB2⟩ := forall₂_getElem hf hib
      have hcons : Consecutive ps A' B' := by
        refine ⟨i, by rw [← hf.length_eq]; exact hi, hA1, by rw [← hf.length_eq]; exact hB1⟩
      obtain ⟨l2, hl2, hvA, hvB⟩ := hg.at_
      have hl2' : l2 = l' := by
        have e : n.crossing.src = q.src.2 := f1
        rw [e] at hl2
        exact Option.some.inj (hl2.symm.trans hl)
      subst hl2'
      have e4 : n.crossing.a = edge.1 ∧ n.crossing.b = edge.2 := by
        simp [SearchNode.crossing, f4]
      rw [e4.1] at hvA
      rw [e4.2] at hvB
      obtain rfl := hvA.unique hA2
      obtain rfl := hvB.unique hB2
      obtain ⟨ps', hr', hconv⟩ := hc.convex _ _ _ hp'
      obtain rfl := hring.unique hr'
      obtain ⟨j, hj, hjA, hjB⟩ := id hcons
      have hfan := fan_of_consecutive hconv hj hjA hjB
      obtain ⟨u, u0, u1, rfl⟩ := hy'
      have hAB : Between A B (along a b u) := by
        rw [hg.ha, hg.hb, along_along]
        have h1 := mul_nonneg u0 (show 0 ≤ t - s by linarith [hg.st])
        have h2 := mul_le_of_le_one_left (show 0 ≤ t - s by linarith [hg.st]) u1
        exact ⟨_, by linarith [hg.s0], by linarith [hg.t1], rfl⟩
      exact ⟨⟨ps, hring, ((inside_rotate _).1 (hfan.inside hfan.last)).between
        ((inside_rotate _).1 (hfan.inside hfan.first)) hAB⟩, hAB⟩
    have := resolve_more (c := n.crossing) (L₀ := layerOf q.src.2) (L₁ := layerOf q.src.2)
      (pr := q.src.2) (es := []) (opens := []) (y := r) (r := r) (x := x) (y' := y')
      (by intro o ho; simp at ho) rfl hinv.valid hg.at_ (by rw [hcs]; exact .here hin) (fun _ => by rw [hcs]; exact layerOf_toNat _) .nil
      (Between.left _ _) (Between.left _ _) hx (hcs ▸ hyin.1) hyin.2 hy' hg.ha hg.hb hg.st hne hclear
    rw [List.nil_append] at this
    exact this
  | @child node n hn hch ih =>
    obtain ⟨r, a, b, A, B, s, t, hg, ht⟩ := ih
    obtain ⟨cs, hinv⟩ := gen_inv hd hn
    obtain ⟨cs', hinv'⟩ := gen_inv hd (Gen.child hn hch)
    obtain ⟨r', a', b', C, D, s', t', hg', hlook, hin'⟩ :=
      nodeGeo_child_looks hc hm hg hinv.valid hinv.prev hinv'.valid hch
    exact ⟨r', a', b', C, D, s', t', hg', tour_child hc hcfg hg.root hg' hinv'.valid hch hlook hin' ht⟩

end Polyanya
