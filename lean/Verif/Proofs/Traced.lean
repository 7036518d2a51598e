import Verif.Proofs.TourGen
import Verif.Spec.Spaced
/-
The entries of `path_with_layers` trace the path, on every mesh of convex polygons without near misses: also when the path runs
along an edge where two layers meet (there, entries are missing).
-/

namespace Polyanya

variable {F : Type} [Field F] [LinearOrder F] [Scalar F] [ExactField F] [IsStrictOrderedRing F]

/-- Two points that may be listed one after the other. -/
def CoListed (m : Mesh (Ext F)) (start goal z z' : Vec2 F) : Prop :=
  ∃ r, Eye m start r ∧ Listed m start goal r z ∧ Listed m start goal r z'

omit [ExactField F] [IsStrictOrderedRing F] in
theorem chain_listed {m : Mesh (Ext F)} {start goal r : Vec2 F} (hr : Eye m start r) :
    ∀ {es : List (Vec2 F)} {z : Vec2 F}, Listed m start goal r z → (∀ e ∈ es, Listed m start goal r e) →
      (z :: es).IsChain (CoListed m start goal)
  | [], _, _, _ => by simp
  | e :: es, z, hz, h => by
    rw [List.isChain_cons_cons]
    exact ⟨⟨r, hr, hz, h e (by simp)⟩, chain_listed hr (h e (by simp)) (fun e he => h e (by simp [he]))⟩

theorem chain_glue {α : Type} {R : α → α → Prop} {x y : α} {l l' : List α} (h : (x :: l).IsChain R)
    (hy : l.getLastD x = y) (h' : (y :: l').IsChain R) : (x :: (l ++ l')).IsChain R := by
  induction l generalizing x with
  | nil =>
    simp only [List.getLastD_nil] at hy
    subst hy
    exact h'
  | cons a l ih =>
    rw [List.isChain_cons_cons] at h
    rw [List.getLastD_cons] at hy
    rw [List.cons_append, List.isChain_cons_cons]
    exact ⟨h.1, ih h.2 hy⟩

/-- A line from `r` to `x` is a sight line, or nothing. -/
def Aim (m : Mesh (Ext F)) (start goal r x : Vec2 F) : Prop :=
  x = r ∨ ∃ w, (Eye m start w ∨ w = goal) ∧ r ≠ w ∧ tri r w x = 0

omit [ExactField F] [IsStrictOrderedRing F] in
theorem aim_at {m : Mesh (Ext F)} {start goal r x : Vec2 F} (h : Eye m start x ∨ x = goal) : Aim m start goal r x := by
  by_cases e : x = r
  · exact .inl e
  · exact .inr ⟨x, h, Ne.symm e, by simp only [tri]; ring⟩

/-- A sight line hits an edge at a listed point. -/
theorem listed_on_leg {m : Mesh (Ext F)} {start goal r x f y C D : Vec2 F} (ha : Aim m start goal r x)
    (hf : Between r x f) (hn : tri f x C ≠ tri f x D) (hy : Between r x y) (hCD : tri C D y = 0) (he : IsEdgeAt m C D) :
    Listed m start goal r y := by
  obtain ⟨u, -, -, rfl⟩ := hf
  have e : ∀ z, tri (along r x u) x z = (1 - u) * tri r x z := by
    intro z; simp only [tri, along]; ring
  rw [e, e] at hn
  have hn' : tri r x C ≠ tri r x D := fun h => hn (by rw [h])
  rcases ha with rfl | ⟨w, hw, hrw, hx⟩
  · exact absurd (by simp only [tri]; ring) hn'
  obtain ⟨k, rfl⟩ := on_line hrw hx
  have e' : ∀ z, tri r (along r w k) z = k * tri r w z := by
    intro z; simp only [tri, along]; ring
  rw [e', e'] at hn'
  obtain ⟨v, -, -, rfl⟩ := hy
  refine .inr (.inr ⟨C, D, w, he, hw, fun h => hn' (by rw [h]), ?_, hCD⟩)
  simp only [tri, along]; ring

/-- A new mark at the end. -/
theorem trace_more {m : Mesh (Ext F)} {start goal r x y y' a b C D : Vec2 F} {s t : F} {es : List (Vec2 F × UInt8)}
    {opens : List (Vec2 (Ext F) × Vec2 (Ext F) × UInt8)} (ho : OpenMarks opens)
    (hres : resolveLayers x.fin r.fin opens = es.map finEntry) (hleg : OnLeg x r es)
    (hf : Between r y (lastPos r es)) (hyy : Between r y' y) (hy'x : Between r x y')
    (hab : Between a b y') (hne : a ≠ b) (hE : IsEdgeAt m C D) (ha : a = along C D s) (hb : b = along C D t)
    (hlist : Aim m start goal r x → ∀ e ∈ es, Listed m start goal r e.1) (c : Prop) [Decidable c] (L : UInt8) :
    ∃ es', resolveLayers x.fin r.fin (opens ++ (if c then [(a.fin, b.fin, L)] else [])) = es'.map finEntry
      ∧ OnLeg x r es' ∧ Between r y' (lastPos r es')
      ∧ (Aim m start goal r x → ∀ e ∈ es', Listed m start goal r e.1) := by
  have hCD : tri C D y' = 0 := by
    obtain ⟨v, -, -, rfl⟩ := hab
    rw [ha, hb]
    simp only [tri, along]; ring
  have hf' : Between r y' (lastPos r es) := (hf.trans_left hyy).1
  obtain ⟨h1, h2, h3, h4⟩ := hf'.line hy'x
  have hbeq : a.fin.beq b.fin = false := by
    rw [Bool.eq_false_iff]; intro h; exact hne ((fin_beq _ _).1 h)
  by_cases hl : c
  · rw [if_pos hl, resolveLayers_snoc ho hbeq, hres, map_finEntry_last]
    simp only [resolveLayers, hbeq, Bool.false_eq_true, if_false, List.find?_nil, Option.map_none, Option.getD_none]
    rw [intersect_at hab h3]
    by_cases hpar : tri (lastPos r es) x a = tri (lastPos r es) x b
    · rw [if_pos hpar]
      exact ⟨es, by simp, hleg, hf', hlist⟩
    · rw [if_neg hpar]
      refine ⟨es ++ [(y', L)], by simp [finEntry], hleg.snoc h1, ?_, fun haim e he => ?_⟩
      · rw [lastPos_append]; exact Between.right _ _
      · rcases List.mem_append.1 he with he | he
        · exact hlist haim e he
        · rw [List.mem_singleton] at he
          subst he
          refine listed_on_leg haim h2 ?_ hy'x hCD hE
          intro h
          apply hpar
          rw [ha, hb, tri_along, tri_along, h]
          ring
  · rw [if_neg hl, List.append_nil]
    exact ⟨es, hres, hleg, hf', hlist⟩

/-- What is known of the entries of a node. -/
def TraceInv (m : Mesh (Ext F)) (start goal : Vec2 F) (n : SearchNode (Ext F)) (r a b : Vec2 F) : Prop :=
  ∃ ws : List (Vec2 F), n.path = ws.map Vec2.fin ∧ ws.getLastD start = r ∧ ∃ es₀ fixed opens,
      n.pathWithLayers = fixed ++ opens ∧ OpenMarks opens ∧
      (∀ rest last, resolveLayers last start.fin (fixed ++ rest) = es₀.map finEntry ++ resolveLayers last r.fin rest) ∧
      Traces start ws es₀ ∧ (start :: es₀.map (·.1)).IsChain (CoListed m start goal) ∧
      (es₀.map (·.1)).getLastD start = r ∧
      ∀ y x, Between a b y → Between r x y → ∃ es,
        resolveLayers x.fin r.fin opens = es.map finEntry ∧ OnLeg x r es ∧ Between r y (lastPos r es)
        ∧ (Aim m start goal r x → ∀ e ∈ es, Listed m start goal r e.1)

/-- The child of a node. -/
theorem trace_child {q : Query (Ext F)} {start goal : Vec2 F} (hc : Conforming q.mesh)
    (hcfg : q.cfg.detailed = true) {node n : SearchNode (Ext F)}
    {r a b r' a' b' C D : Vec2 F} {s' t' : F} (hroot : node.root = r.fin) (hreye : Eye q.mesh start r)
    (hg' : NodeGeo q.mesh q.src.2 start n r' a' b' C D s' t')
    (hv' : n.crossing.Valid q.mesh) (hch : ChildNode q node n) (hlook : LooksThrough r a b r' a' b')
    (ht : TraceInv q.mesh start goal node r a b) : TraceInv q.mesh start goal n r' a' b' := by
  obtain ⟨layer, succs, su, vs, ve, root, hnd, hl, he, hs, h0, h1, hmax, hb, hgo, hfrom, hr, htiny, hA⟩ := hch
  obtain ⟨f1, f2, f3, f4, f5, f6⟩ := added_fields hA
  have hne := hg'.interval_ne hc hv'
  have hroot' : root = r'.fin := f6.symm.trans hg'.root
  have hint : su.interval = (a'.fin, b'.fin) := by
    have := f3.symm.trans hg'.interval
    simpa using this
  subst hroot'
  rw [hint] at hA
  obtain ⟨m1, m2⟩ := marks_of_added hcfg hA hroot
  obtain ⟨c, hdec, L, m2⟩ : ∃ (c : Prop) (_ : Decidable c) (L : UInt8), n.pathWithLayers = _ ++
    (if c then [(a'.fin, b'.fin, L)] else []) := ⟨_, _, _, m2⟩
  obtain ⟨ws, hw, hlast, es₀, fixed, opens, i1, i2, i3, i4, i7, i8, i6⟩ := ht
  rcases hlook with ⟨rfl, hthrough⟩ | ⟨hrr, hbr⟩
  · -- same root
    rw [if_pos rfl] at m1 m2
    refine ⟨ws, m1.trans hw, hlast, es₀, fixed, opens ++ _, ?_, i2.append (openMark_ite hne c L), i3, i4, i7, i8, ?_⟩
    · rw [m2, i1, List.append_assoc]
    · intro y' x hy' hx
      obtain ⟨y, hy, hyy⟩ := hthrough y' hy'
      obtain ⟨es, j1, j2, j3, j4⟩ := i6 y x hy (hyy.trans_left hx).1
      exact trace_more i2 j1 j2 j3 hyy hx hy' hne hg'.sightA.1 hg'.ha hg'.hb j4 c L
  · -- new root
    rw [if_neg hrr] at m1 m2
    refine ⟨ws ++ [r'], by rw [m1, hw]; simp, by simp [List.getLastD_eq_getLast?], ?_⟩
    obtain ⟨es, j1, j2, j3, j4⟩ := i6 r' r' hbr (Between.right _ _)
    have hbeq := (fin_beq r' r').2 rfl
    refine ⟨es₀ ++ es ++ [(r', layerOf node.polygonTo)],
      fixed ++ opens ++ [(r'.fin, r'.fin, layerOf node.polygonTo)], _, ?_, openMark_ite hne c L, ?_, ?_, ?_, ?_, ?_⟩
    · rw [m2, i1]
    · intro rest last
      have : fixed ++ opens ++ [(r'.fin, r'.fin, layerOf node.polygonTo)] ++ rest
          = fixed ++ (opens ++ (r'.fin, r'.fin, layerOf node.polygonTo) :: rest) := by simp
      rw [this, i3, resolveLayers_fixed i2 hbeq, j1]
      simp [finEntry]
    · rw [List.append_assoc]
      exact i4.append (by rw [hlast]; exact j2.traces .nil)
    · rw [List.append_assoc, List.map_append]
      refine chain_glue i7 i8 (chain_listed hreye (.inl hreye) ?_)
      intro e he
      simp only [List.map_append, List.map_cons, List.map_nil, List.mem_append, List.mem_map, List.mem_singleton] at he
      rcases he with ⟨e, he, rfl⟩ | rfl
      · exact j4 (aim_at (.inl hg'.eye)) e he
      · exact .inl hg'.eye
    · simp [List.getLastD_eq_getLast?]
    · intro y' x hy' hx
      have := trace_more (es := []) (opens := []) (y := r') (r := r') (x := x) (y' := y')
        (by intro o ho; simp at ho) rfl .nil (Between.left _ _) (Between.left _ _) hx hy' hne hg'.sightA.1 hg'.ha hg'.hb (start := start) (goal := goal)
        (fun _ e he => by simp at he)
      simpa using this c L

/-- Every node of a query. -/
theorem gen_trace {q : Query (Ext F)} {start goal : Vec2 F} (hc : Conforming q.mesh)
    (hm : NoNearMiss q.mesh start goal) (hd : q.dst.2 ≠ u32Max) (hsrc : q.src.1 = start.fin)
    (hin : InPolygon q.mesh q.src.2 start) (hcfg : q.cfg.detailed = true) {n : SearchNode (Ext F)} (h : Gen q n) :
    ∃ r a b A B s t, NodeGeo q.mesh q.src.2 start n r a b A B s t ∧ TraceInv q.mesh start goal n r a b := by
  induction h with
  | @setup n hs =>
    obtain ⟨cs, hinv⟩ := gen_inv hd (Gen.setup hs)
    obtain ⟨r, a, b, A, B, s, t, hg⟩ := gen_geo hc hm hd hsrc hin (Gen.setup hs)
    refine ⟨r, a, b, A, B, s, t, hg, ?_⟩
    have hne := hg.interval_ne hc hinv.valid
    obtain ⟨layer, poly, edges, edge, vs, ve, hl, hp, he, hmem, h0, h1, hb, hgo, hA⟩ := hs
    obtain ⟨f1, f2, f3, f4, f5, f6⟩ := added_fields hA
    have hroot : r = start := by
      have := hg.root.symm.trans f6
      rw [hsrc] at this
      have h' := (fin_beq r start).1 (by rw [this]; exact (fin_beq start start).2 rfl)
      exact h'
    subst hroot
    have hint := f3.symm.trans hg.interval
    simp only [Prod.mk.injEq] at hint
    rw [hint.1, hint.2, hsrc] at hA
    obtain ⟨m1, m2⟩ := marks_of_added hcfg hA (by rw [emptyNode]; exact hsrc)
    rw [if_pos rfl] at m1 m2
    have m1' : n.path = ([] : List (Vec2 F)).map Vec2.fin := m1
    obtain ⟨c, hdec, L, m2'⟩ : ∃ (c : Prop) (_ : Decidable c) (L : UInt8), n.pathWithLayers = [] ++
      (if c then [(a.fin, b.fin, L)] else []) := ⟨_, _, _, m2⟩
    refine ⟨[], m1', rfl, [], [], _, m2', openMark_ite hne c L, fun _ _ => rfl, .nil, by simp, rfl, ?_⟩
    intro y' x hy' hx
    have := trace_more (es := []) (opens := []) (y := r) (r := r) (x := x) (y' := y')
      (by intro o ho; simp at ho) rfl .nil (Between.left _ _) (Between.left _ _) hx hy' hne hg.sightA.1 hg.ha hg.hb (start := r) (goal := goal)
      (fun _ e he => by simp at he)
    simpa using this c L
  | @child node n hn hch ih =>
    obtain ⟨r, a, b, A, B, s, t, hg, ht⟩ := ih
    obtain ⟨cs, hinv⟩ := gen_inv hd hn
    obtain ⟨cs', hinv'⟩ := gen_inv hd (Gen.child hn hch)
    obtain ⟨r', a', b', C, D, s', t', hg', hlook, hin'⟩ :=
      nodeGeo_child_looks hc hm hg hinv.valid hinv.prev hinv'.valid hch
    exact ⟨r', a', b', C, D, s', t', hg', trace_child hc hcfg hg.root hg.eye hg' hinv'.valid hch hlook ht⟩

end Polyanya
