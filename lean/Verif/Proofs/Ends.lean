import Verif.Proofs.SameRoot
import Verif.Proofs.Optimal
import Verif.Proofs.Safe
import Mathlib.Logic.Hydra
/-
Searches end: every node held by a search is replaced by finitely many nodes that are later in a well-founded order.
-/

namespace Polyanya

/-- What is needed for a search to end. -/
structure EndSetting (q : Query (Ext ℝ)) (start goal : Vec2 ℝ) : Prop where
  conforming : Conforming q.mesh
  exact : NoNearMiss q.mesh start goal
  dst : q.dst.2 ≠ u32Max
  src : q.src.1 = start.fin
  src_in : InPolygon q.mesh q.src.2 start
  plain : q.cfg.detailed = true → q.mesh.Unscaled
  around : NoCircle q.mesh start
  bends : ∀ r, BendPoint q.mesh q.blocked r → NoCircle q.mesh r

theorem dist2_eq_zero {p q : Vec2 ℝ} (h : dist2 p q = 0) : p = q := by
  rw [dist2_eq, dist_eq_zero] at h
  obtain ⟨px, py⟩ := p
  obtain ⟨qx, qy⟩ := q
  have h1 := congrArg Complex.re h
  have h2 := congrArg Complex.im h
  simp only [toC] at h1 h2
  rw [h1, h2]

/-! The history of bends -/

theorem beq_fin {e : Vec2 (Ext ℝ)} {r : Vec2 ℝ} (h : e.beq r.fin = true) : e = r.fin := by
  obtain ⟨x, y⟩ := e
  change ((x ==. Ext.fin r.x) && (y ==. Ext.fin r.y)) = true at h
  rw [Bool.and_eq_true] at h
  obtain ⟨h1, h2⟩ := h
  cases x with
  | nan => simp [Scalar.eq, Ext.beq] at h1
  | inf b => simp [Scalar.eq, Ext.beq] at h1
  | fin x =>
    cases y with
    | nan => simp [Scalar.eq, Ext.beq] at h2
    | inf b => simp [Scalar.eq, Ext.beq] at h2
    | fin y =>
      have e1 : x = r.x := (ExactField.eq x r.x).1 h1
      have e2 : y = r.y := (ExactField.eq y r.y).1 h2
      subst e1; subst e2; rfl

theorem histGet_set_same (h : List (Vec2 (Ext ℝ) × Ext ℝ)) (r : Vec2 ℝ) (v : Ext ℝ) :
    histGet (histSet h r.fin v) r.fin = some v := by
  induction h with
  | nil => simp [histSet, histGet, fin_beq]
  | cons e h ih =>
    simp only [histSet]
    split
    · rename_i hb
      simp [histGet, hb]
    · rename_i hb
      unfold histGet at ih ⊢
      rw [List.find?_cons_of_neg (by simpa using hb)]
      exact ih

theorem histGet_set_other (h : List (Vec2 (Ext ℝ) × Ext ℝ)) {r r' : Vec2 ℝ} (hne : r ≠ r') (v : Ext ℝ) :
    histGet (histSet h r.fin v) r'.fin = histGet h r'.fin := by
  have key : ∀ e : Vec2 (Ext ℝ), e.beq r.fin = true → e.beq r'.fin = false := by
    intro e he
    rw [Bool.eq_false_iff]
    intro he'
    exact hne (Vec2.fin_injective ((beq_fin he).symm.trans (beq_fin he')))
  induction h with
  | nil =>
    have : (r.fin : Vec2 (Ext ℝ)).beq r'.fin = false := key _ ((fin_beq _ _).2 rfl)
    simp [histSet, histGet, this]
  | cons e h ih =>
    simp only [histSet]
    split
    · rename_i hb
      unfold histGet
      rw [List.find?_cons_of_neg (by simpa using key _ hb), List.find?_cons_of_neg (by simpa using key _ hb)]
    · unfold histGet at ih ⊢
      by_cases hb' : e.1.beq r'.fin = true
      · rw [List.find?_cons_of_pos (by simpa using hb'), List.find?_cons_of_pos (by simpa using hb')]
      · rw [List.find?_cons_of_neg (by simpa using hb'), List.find?_cons_of_neg (by simpa using hb')]
        exact ih

/-- Recorded lengths only decrease. -/
def HistLe (h' h : List (Vec2 (Ext ℝ) × Ext ℝ)) : Prop :=
  ∀ (x : Vec2 ℝ) (o : ℝ), histGet h x.fin = some (.fin o) → ∃ o', histGet h' x.fin = some (.fin o') ∧ o' ≤ o

theorem HistLe.refl (h : List (Vec2 (Ext ℝ) × Ext ℝ)) : HistLe h h := fun _ o ho => ⟨o, ho, le_rfl⟩

theorem HistLe.set {h : List (Vec2 (Ext ℝ) × Ext ℝ)} {r : Vec2 ℝ} {v : ℝ}
    (hv : ∀ o, histGet h r.fin = some o → (o <. Ext.fin v) = false) : HistLe (histSet h r.fin (.fin v)) h := by
  intro x o ho
  by_cases hx : r = x
  · subst hx
    refine ⟨v, histGet_set_same _ _ _, ?_⟩
    have := hv _ ho
    rw [Bool.eq_false_iff, Ne, ext_lt] at this
    exact not_lt.1 this
  · exact ⟨o, by rw [histGet_set_other _ hx]; exact ho, le_rfl⟩

/-! The order of the nodes -/

/-- The points that can be roots. -/
noncomputable def rootPoints (q : Query (Ext ℝ)) : List (Vec2 (Ext ℝ)) :=
  q.src.1 :: q.mesh.layers.flatMap (fun l => l.vertices.map (fun v => v.coords + l.offset))

/-- A node with the roots of the chain that led to it: they are different, and recorded with a length not above the
length to the root of the node. -/
structure Ranked (q : Query (Ext ℝ)) (hist : List (Vec2 (Ext ℝ) × Ext ℝ))
    (p : List (Vec2 ℝ) × SearchNode (Ext ℝ)) : Prop where
  gen : Gen q p.2
  nodup : p.1.Nodup
  sub : ∀ r ∈ p.1, r.fin ∈ rootPoints q
  mem : ∃ r ∈ p.1, p.2.root = r.fin
  dist : ∃ g : ℝ, p.2.distanceStartToRoot = .fin g ∧ ∀ x ∈ p.1, ∃ o : ℝ, histGet hist x.fin = some (.fin o) ∧ o ≤ g

theorem Ranked.mono {q : Query (Ext ℝ)} {h h' : List (Vec2 (Ext ℝ) × Ext ℝ)}
    {p : List (Vec2 ℝ) × SearchNode (Ext ℝ)} (hp : Ranked q h p) (hle : HistLe h' h) : Ranked q h' p := by
  obtain ⟨g, hg, hx⟩ := hp.dist
  refine { hp with dist := ⟨g, hg, fun x hx' => ?_⟩ }
  obtain ⟨o, ho, hog⟩ := hx x hx'
  obtain ⟨o', ho', hle'⟩ := hle x o ho
  exact ⟨o', ho', hle'.trans hog⟩

theorem Ranked.length_le {q : Query (Ext ℝ)} {h : List (Vec2 (Ext ℝ) × Ext ℝ)}
    {p : List (Vec2 ℝ) × SearchNode (Ext ℝ)} (hp : Ranked q h p) : p.1.length ≤ (rootPoints q).length := by
  have h1 : (p.1.map Vec2.fin).Nodup := hp.nodup.map (fun _ _ h => Vec2.fin_injective h)
  have h2 : p.1.map Vec2.fin ⊆ rootPoints q := by
    intro x hx
    obtain ⟨r, hr, rfl⟩ := List.mem_map.1 hx
    exact hp.sub r hr
  have := (List.subperm_of_subset h1 h2).length_le
  rwa [List.length_map] at this

/-- The order of ranked nodes: a new root, or the same root further on. -/
def Later (q : Query (Ext ℝ)) (p' p : List (Vec2 ℝ) × SearchNode (Ext ℝ)) : Prop :=
  (p.1.length < p'.1.length ∧ p'.1.length ≤ (rootPoints q).length) ∨ (p'.1 = p.1 ∧ SameRoot q p'.2 p.2)

variable {q : Query (Ext ℝ)} {start goal : Vec2 ℝ}

theorem later_wf (hs : EndSetting q start goal) : WellFounded (Later q) := by
  have h1 := sameRoot_wf hs.conforming hs.exact hs.dst hs.src hs.src_in hs.around hs.bends
  have h2 := (wellFounded_lt (α := Nat)).prod_lex h1
  refine Subrelation.wf (r := InvImage (Prod.Lex (· < ·) (SameRoot q))
    (fun p : List (Vec2 ℝ) × SearchNode (Ext ℝ) => ((rootPoints q).length - p.1.length, p.2))) ?_ (InvImage.wf _ h2)
  rintro p' p (⟨hl, hu⟩ | ⟨he, hsr⟩)
  · exact Prod.Lex.left _ _ (by omega)
  · change Prod.Lex _ _ (_, _) (_, _)
    rw [he]
    exact Prod.Lex.right _ hsr

/-! One expansion -/

theorem addNode_push' {q : Query (Ext ℝ)} {inst inst' : Inst (Ext ℝ)} {root : Vec2 (Ext ℝ)} {otherSide : UInt32}
    {start stop : Vec2 (Ext ℝ) × UInt32} {node : SearchNode (Ext ℝ)} (hg : inst.goal = q.dst.1)
    (h : inst.addNode q.cfg q.mesh root otherSide start stop node = .ok inst') :
    inst' = inst ∨ ∃ n, Added q root otherSide start stop node n ∧ inst' = inst.push n
      ∧ ∀ o, histGet inst.rootHistory root = some o → (o <. n.distanceStartToRoot) = false := by
  unfold Inst.addNode at h
  simp only [bind_eq_ok] at h
  obtain ⟨newF, h1, hh, h2, h⟩ := h
  rw [hg] at h2
  split at h
  · left; simp_all
  · rename_i hn
    simp only [Bool.or_eq_true, not_or, Bool.not_eq_true] at hn
    have hA : Added q root otherSide start stop node
        (mkNode q.cfg root otherSide start stop node newF hh) :=
      ⟨newF, hh, h1, h2, hn.1, hn.2, rfl⟩
    split at h
    · rename_i o ho
      split at h
      · left; simp_all
      · rename_i hlt
        right
        simp only [Except.ok.injEq] at h
        refine ⟨_, hA, h.symm, ?_⟩
        intro o' ho'
        rw [ho] at ho'
        cases ho'
        simpa [mkNode] using hlt
    · rename_i ho
      right
      simp only [Except.ok.injEq] at h
      refine ⟨_, hA, h.symm, ?_⟩
      intro o' ho'
      rw [ho] at ho'
      cases ho'

/-- The node added for a child of a ranked node is ranked, and later. -/
theorem added_ranked (hs : EndSetting q start goal) {hist : List (Vec2 (Ext ℝ) × Ext ℝ)} {roots : List (Vec2 ℝ)}
    {node n : SearchNode (Ext ℝ)} (hr : Ranked q hist (roots, node)) {root : Vec2 (Ext ℝ)} {otherSide : UInt32}
    {st sp : Vec2 (Ext ℝ) × UInt32} (hA : Added q root otherSide st sp node n) (hch : ChildNode q node n)
    (hkeep : ∀ o, histGet hist root = some o → (o <. n.distanceStartToRoot) = false) :
    HistLe (histSet hist n.root n.distanceStartToRoot) hist ∧
    ∃ roots', Ranked q (histSet hist n.root n.distanceStartToRoot) (roots', n) ∧ Later q (roots', n) (roots, node) := by
  have hgen : Gen q n := .child hr.gen hch
  obtain ⟨r0, hr0, hroot0⟩ := hr.mem
  obtain ⟨g, hg, hist0⟩ := hr.dist
  simp only at hr0 hroot0 hg hist0
  have hroot : n.root = root := (added_fields hA).2.2.2.2.2
  obtain ⟨r, hrr, hrp⟩ : ∃ r : Vec2 ℝ, root = r.fin ∧ r.fin ∈ rootPoints q := by
    rw [← hroot]
    rcases gen_root hs.conforming hs.exact hs.dst hs.src hs.src_in hgen with h | ⟨r, h, l, hl, v, hv, hvr, -⟩
    · exact ⟨start, h, by rw [← hs.src]; exact List.mem_cons_self ..⟩
    · refine ⟨r, h, List.mem_cons_of_mem _ ?_⟩
      rw [List.mem_flatMap]
      exact ⟨l, hl, List.mem_map.2 ⟨v, hv, hvr⟩⟩
  obtain ⟨newF, hh, hd, -, -, -, rfl⟩ := hA
  have hnode : (mkNode q.cfg root otherSide st sp node newF hh).distanceStartToRoot = newF := rfl
  have hnroot : (mkNode q.cfg root otherSide st sp node newF hh).root = root := rfl
  rw [hnode] at hkeep
  rw [hnode, hnroot]
  subst hrr
  replace hd := newDistance_plain hs.plain hd
  unfold newDistance at hd
  rw [hroot0] at hd
  by_cases hsame : r = r0
  · subst hsame
    rw [if_pos ((fin_beq _ _).2 rfl)] at hd
    simp only [Except.ok.injEq] at hd
    rw [hg] at hd
    subst hd
    have hle := HistLe.set (h := hist) (r := r) (v := g) hkeep
    refine ⟨hle, roots, ?_, .inr ⟨rfl, hr.gen, hch, ?_⟩⟩
    · have : Ranked q hist (roots, mkNode q.cfg r.fin otherSide st sp node (Ext.fin g) hh) :=
        { gen := hgen, nodup := hr.nodup, sub := hr.sub, mem := ⟨r, hr0, rfl⟩, dist := ⟨g, rfl, hist0⟩ }
      exact this.mono hle
    · rw [hroot0]
      rfl
  · rw [if_neg (fun h => hsame ((fin_beq _ _).1 h)), if_neg (by simp), hg, fin_distance] at hd
    simp only [Except.ok.injEq] at hd
    have hpos : 0 < dist2 r0 r := by
      refine lt_of_le_of_ne (dist2_nonneg ..) (fun h => hsame ?_)
      exact (dist2_eq_zero h.symm).symm
    have hnew : newF = Ext.fin (g + dist2 r0 r) := hd.symm
    subst hnew
    have hle := HistLe.set (h := hist) (r := r) (v := g + dist2 r0 r) hkeep
    have hnot : r ∉ roots := by
      intro hmem
      obtain ⟨o, ho, hog⟩ := hist0 r hmem
      have := hkeep _ ho
      rw [Bool.eq_false_iff, Ne, ext_lt] at this
      linarith
    have hR : Ranked q (histSet hist r.fin (.fin (g + dist2 r0 r)))
        (r :: roots, mkNode q.cfg r.fin otherSide st sp node (.fin (g + dist2 r0 r)) hh) := by
      refine { gen := hgen, nodup := List.nodup_cons.2 ⟨hnot, hr.nodup⟩, sub := ?_,
               mem := ⟨r, List.mem_cons_self .., rfl⟩, dist := ⟨_, rfl, ?_⟩ }
      · intro x hx
        rcases List.mem_cons.1 hx with rfl | hx
        · exact hrp
        · exact hr.sub x hx
      · intro x hx
        rcases List.mem_cons.1 hx with rfl | hx
        · exact ⟨_, histGet_set_same _ _ _, le_rfl⟩
        · obtain ⟨o, ho, hog⟩ := hist0 x hx
          obtain ⟨o', ho', hle'⟩ := hle x o ho
          exact ⟨o', ho', by linarith⟩
    exact ⟨hle, _, hR, .inl ⟨by simp, hR.length_le⟩⟩

/-- A state in the middle of the expansion of `top`: the queue consists of `Q`, the buffer of later nodes. -/
structure Prog (q : Query (Ext ℝ)) (Q : Multiset (List (Vec2 ℝ) × SearchNode (Ext ℝ)))
    (top cur : List (Vec2 ℝ) × SearchNode (Ext ℝ)) (inst : Inst (Ext ℝ)) : Prop where
  ok : InstOk q inst
  curRanked : Ranked q inst.rootHistory cur
  below : Relation.ReflTransGen (Later q) cur top
  queue : Q.map Prod.snd = (inst.queue : Multiset (SearchNode (Ext ℝ)))
  ranked : ∀ p ∈ Q, Ranked q inst.rootHistory p
  buffer : ∃ B : List (List (Vec2 ℝ) × SearchNode (Ext ℝ)), B.map Prod.snd = inst.nodeBuffer
    ∧ ∀ p ∈ B, Ranked q inst.rootHistory p ∧ Relation.TransGen (Later q) p top

variable {Q : Multiset (List (Vec2 ℝ) × SearchNode (Ext ℝ))} {top cur : List (Vec2 ℝ) × SearchNode (Ext ℝ)}

theorem expandOne_prog (hs : EndSetting q start goal) {succs : List (Successor (Ext ℝ))} {su : Successor (Ext ℝ)}
    {inst inst' : Inst (Ext ℝ)} (hnd : cur.2.polygonTo ≠ q.dst.2)
    (he : edgesBetween q.mesh cur.2 = .ok succs) (hsu : su ∈ succs) (hi : Prog q Q top cur inst)
    (h : expandOne q.cfg q.mesh cur.2 inst su = .ok inst') : Prog q Q top cur inst' := by
  have hok := expandOne_ok hi.curRanked.gen hnd he hsu hi.ok h
  unfold expandOne at h
  simp only [bind_eq_ok, idx_eq_ok, idxUnchecked_eq_ok] at h
  obtain ⟨layer, hl, start', h0, stop, h1, h⟩ := h
  split at h
  · simp only [Except.ok.injEq] at h; exact h ▸ hi
  rename_i hmax
  split at h
  · simp only [Except.ok.injEq] at h; exact h ▸ hi
  rename_i hb
  rw [bind_eq_ok] at h
  obtain ⟨dead, hd, h⟩ := h
  split at h
  · simp only [Except.ok.injEq] at h; exact h ▸ hi
  rename_i hdead
  split at h
  · simp only [Except.ok.injEq] at h; exact h ▸ hi
  rename_i hfrom
  rw [bind_eq_ok] at h
  obtain ⟨root?, hr, h⟩ := h
  cases root? with
  | none => simp only [Except.ok.injEq] at h; exact h ▸ hi
  | some root =>
    simp only at h
    split at h
    · simp only [Except.ok.injEq] at h; exact h ▸ hi
    rename_i htiny
    rw [hi.ok.blocked] at hb hr
    rcases addNode_push' hi.ok.goal h with rfl | ⟨n, hA, rfl, hkeep⟩
    · exact hi
    have hch : ChildNode q cur.2 n := by
      refine ⟨layer, succs, su, start', stop, root, hnd, hl, he, hsu, h0, h1, hmax, by simpa using hb, ?_, hfrom, hr,
        by simpa using htiny, hA⟩
      split at hd
      · right
        simp only [bind_eq_ok, idx_eq_ok, Except.ok.injEq] at hd
        obtain ⟨l, hl', p, hp', hd⟩ := hd
        refine ⟨l, p, hl', hp', ?_⟩
        rw [hd]; simpa using hdead
      · left
        rename_i hne
        rw [← hi.ok.polygonTo]
        exact (Decidable.not_not.1 hne).symm
    obtain ⟨hle, roots', hR, hL⟩ := added_ranked hs (roots := cur.1) (node := cur.2) hi.curRanked hA hch hkeep
    obtain ⟨B, hB, hB'⟩ := hi.buffer
    refine { ok := hok, curRanked := hi.curRanked.mono hle, below := hi.below, queue := hi.queue,
             ranked := fun p hp => (hi.ranked p hp).mono hle, buffer := ⟨B ++ [(roots', n)], ?_, ?_⟩ }
    · simp [Inst.push, hB]
    · intro p hp
      rcases List.mem_append.1 hp with hp | hp
      · exact ⟨(hB' p hp).1.mono hle, (hB' p hp).2⟩
      · rw [List.mem_singleton.1 hp]
        exact ⟨hR, .head' hL hi.below⟩

theorem successorsLoop_prog (hs : EndSetting q start goal) : ∀ (fuel : Nat) (visited : List UInt32)
    (cur : List (Vec2 ℝ) × SearchNode (Ext ℝ)) (inst inst' : Inst (Ext ℝ)), cur.2.polygonTo ≠ q.dst.2 →
    Prog q Q top cur inst → successorsLoop q.cfg q.mesh fuel visited cur.2 inst = .ok inst' →
    ∃ cur', Prog q Q top cur' inst' := by
  intro fuel
  induction fuel with
  | zero => intro _ _ _ _ _ _ h; simp [successorsLoop] at h
  | succ fuel ih =>
    intro visited cur inst inst' hnd hi h
    simp only [successorsLoop, bind_eq_ok] at h
    obtain ⟨succs, he, inst1, hf, h⟩ := h
    have h1 : Prog q Q top cur inst1 :=
      foldlM_inv (Prog q Q top cur) hi (fun s a s' ha hs' hst => expandOne_prog hs hnd he ha hs' hst) hf
    split at h
    · rename_i next hb
      split at h
      · rename_i hne
        rw [h1.ok.polygonTo] at hne
        obtain ⟨B, hB, hB'⟩ := h1.buffer
        rw [hb, List.map_eq_singleton_iff] at hB
        obtain ⟨p, rfl, hp⟩ := hB
        obtain ⟨hp1, hp2⟩ := hB' p (List.mem_singleton.2 rfl)
        have h2 : Prog q Q top p { inst1 with nodeBuffer := [] } :=
          { ok := { h1.ok with buffer := by simp }, curRanked := hp1, below := hp2.to_reflTransGen, queue := h1.queue,
            ranked := h1.ranked, buffer := ⟨[], rfl, by simp⟩ }
        split at h
        · simp only [Except.ok.injEq] at h; exact h ▸ ⟨p, h2⟩
        · split at h
          · simp only [Except.ok.injEq] at h; exact h ▸ ⟨p, h2⟩
          · subst hp
            exact ih _ p _ _ hne h2 h
      · simp only [Except.ok.injEq] at h; exact h ▸ ⟨cur, h1⟩
    · simp only [Except.ok.injEq] at h; exact h ▸ ⟨cur, h1⟩

/-- A state between two steps: the queue consists of ranked nodes. -/
structure Waits (q : Query (Ext ℝ)) (Q : Multiset (List (Vec2 ℝ) × SearchNode (Ext ℝ))) (inst : Inst (Ext ℝ)) :
    Prop where
  ok : InstOk q inst
  queue : Q.map Prod.snd = (inst.queue : Multiset (SearchNode (Ext ℝ)))
  ranked : ∀ p ∈ Q, Ranked q inst.rootHistory p
  buffer : inst.nodeBuffer = []

/-- A step that does not end the search replaces a node by later ones. -/
theorem next_waits (hs : EndSetting q start goal) {heap : Heap (Ext ℝ)} {inst inst' : Inst (Ext ℝ)}
    (hi : Waits q Q inst) (h : inst.next heap q.cfg q.mesh = .ok (.continue, inst')) :
    ∃ Q', Waits q Q' inst' ∧ Relation.CutExpand (Relation.TransGen (Later q)) Q' Q := by
  classical
  have hok := (next_ok hi.ok h).1
  unfold Inst.next at h
  split at h
  · simp at h
  · rename_i next rest hp
    have hperm := heap.pop_perm _ _ _ hp
    have hQ : Q.map Prod.snd = next ::ₘ (rest : Multiset (SearchNode (Ext ℝ))) := by
      rw [hi.queue, ← Multiset.coe_eq_coe.2 hperm]; rfl
    obtain ⟨p, hpQ, hpn, hrest⟩ := (Multiset.map_eq_cons Prod.snd Q _ next).2 hQ
    have hsub : ∀ x ∈ Q.erase p, Ranked q inst.rootHistory x := fun x hx => hi.ranked x (Multiset.mem_of_mem_erase hx)
    have hcons : Q = {p} + Q.erase p := by rw [Multiset.singleton_add, Multiset.cons_erase hpQ]
    have hi' : InstOk q { inst with queue := rest } :=
      { hi.ok with queue := fun n hn => hi.ok.queue n (hperm.subset (List.mem_cons_of_mem _ hn)) }
    simp only at h
    split at h
    · simp only [Except.ok.injEq, Prod.mk.injEq, true_and] at h
      subst h
      refine ⟨Q.erase p, ⟨hok, hrest, hsub, hi.buffer⟩, 0, p, by simp, ?_⟩
      rw [add_zero, add_comm]
      exact hcons.symm
    · split at h
      · simp [bind_eq_ok] at h
      · rename_i hto
        simp only [bind_eq_ok, Except.ok.injEq, Prod.mk.injEq, true_and] at h
        obtain ⟨i, hsucc, rfl⟩ := h
        unfold Inst.successors at hsucc
        simp only [bind_eq_ok] at hsucc
        obtain ⟨i1, h1, h⟩ := hsucc
        simp only [Except.ok.injEq] at h
        subst h
        have hP : Prog q (Q.erase p) p p { inst with queue := rest } :=
          { ok := hi', curRanked := hi.ranked p hpQ, below := .refl, queue := hrest, ranked := hsub,
            buffer := ⟨[], by simp [hi.buffer], by simp⟩ }
        obtain ⟨cur', hP'⟩ := successorsLoop_prog hs succFuel [] p _ i1
          (by rw [hpn, ← hi.ok.polygonTo]; exact hto) hP (by rw [hpn]; exact h1)
        obtain ⟨B, hB, hB'⟩ := hP'.buffer
        refine ⟨Q.erase p + (B : Multiset _), ⟨hok, ?_, ?_, rfl⟩, (B : Multiset _), p, ?_, ?_⟩
        · rw [Multiset.map_add, hP'.queue, Multiset.map_coe, hB]
          rfl
        · intro x hx
          rcases Multiset.mem_add.1 hx with hx | hx
          · exact hP'.ranked x hx
          · exact (hB' x (by simpa using hx)).1
        · intro x hx
          exact (hB' x (by simpa using hx)).2
        · conv_rhs => rw [hcons]
          rw [add_assoc, add_comm (B : Multiset _) {p}, ← add_assoc, add_comm (Q.erase p) {p}]

theorem setupEdge_waits (hs : EndSetting q start goal) {layer : Layer (Ext ℝ)}
    {edge : UInt32 × UInt32} {inst inst' : Inst (Ext ℝ)}
    (hi : InstOk q inst)
    (hh : histGet inst.rootHistory start.fin = some (.fin 0))
    (hb : ∀ n ∈ inst.nodeBuffer, n.root = start.fin ∧ n.distanceStartToRoot = .fin 0) (hq : inst.queue = [])
    (h : setupEdge q.cfg q.mesh layer q.src q.dst (emptyNode q.src) inst edge = .ok inst') :
    histGet inst'.rootHistory start.fin = some (.fin 0) ∧
      (∀ n ∈ inst'.nodeBuffer, n.root = start.fin ∧ n.distanceStartToRoot = .fin 0) ∧ inst'.queue = [] := by
  unfold setupEdge at h
  split at h
  · simp only at h
    split at h
    · simp only [Except.ok.injEq] at h; exact h ▸ ⟨hh, hb, hq⟩
    · rw [bind_eq_ok] at h
      obtain ⟨go, hgo, h⟩ := h
      split at h
      · rcases addNode_push hi.goal h with rfl | ⟨n, ⟨newF, h', hd, -, -, -, rfl⟩, rfl⟩
        · exact ⟨hh, hb, hq⟩
        · have : newF = Ext.fin 0 := by
            unfold newDistance at hd
            have e : q.src.1.beq (emptyNode q.src).root = true := by
              simp only [emptyNode]
              rw [hs.src]
              exact (fin_beq _ _).2 rfl
            rw [if_pos e] at hd
            simp only [emptyNode, Except.ok.injEq] at hd
            rw [← hd]
            exact ext_zero
          subst this
          simp only [Inst.push, mkNode]
          refine ⟨?_, ?_, hq⟩
          · rw [hs.src]
            exact histGet_set_same _ _ _
          · intro n hn
            rcases List.mem_append.1 hn with hn | hn
            · exact hb n hn
            · rw [List.mem_singleton.1 hn]
              exact ⟨hs.src, rfl⟩
      · simp only [Except.ok.injEq] at h; exact h ▸ ⟨hh, hb, hq⟩
  · simp only [Except.ok.injEq] at h; exact h ▸ ⟨hh, hb, hq⟩

theorem setup_waits (hs : EndSetting q start goal) {inst : Inst (Ext ℝ)}
    (h : Inst.setup q.cfg q.mesh q.src q.dst q.blocked = .ok inst) : ∃ Q, Waits q Q inst := by
  have hok := setup_ok h
  unfold Inst.setup at h
  simp only [bind_eq_ok, idx_eq_ok] at h
  obtain ⟨layer, hl, poly, hp, edges, he, inst', hf, h⟩ := h
  simp only [Except.ok.injEq] at h
  subst h
  obtain ⟨-, hh, hb, hq⟩ := foldlM_inv (fun i : Inst (Ext ℝ) => InstOk q i ∧
      histGet i.rootHistory start.fin = some (.fin 0) ∧
      (∀ n ∈ i.nodeBuffer, n.root = start.fin ∧ n.distanceStartToRoot = .fin 0) ∧ i.queue = [])
    (by
      refine ⟨{ start := rfl, goal := rfl, polygonTo := rfl, blocked := rfl, queue := by simp,
                 buffer := by simp }, ?_, by simp, rfl⟩
      simp only [histGet, hs.src]
      rw [List.find?_cons_of_pos (by simpa using (fin_beq start start).2 rfl)]
      simp [ext_zero])
    (fun s a s' ha hs' hstep =>
      ⟨setupEdge_ok hl hp he ha hs'.1 hstep,
        setupEdge_waits hs hs'.1 hs'.2.1 hs'.2.2.1 hs'.2.2.2 hstep⟩) hf
  refine ⟨(inst'.nodeBuffer.map (fun n => ([start], n)) : List _), hok, ?_, ?_, rfl⟩
  · rw [Multiset.map_coe, List.map_map]
    simp [Inst.flushNodes, hq]
  · intro p hp'
    simp only [Multiset.mem_coe, List.mem_map] at hp'
    obtain ⟨n, hn, rfl⟩ := hp'
    obtain ⟨h1, h2⟩ := hb n hn
    refine { gen := hok.queue n (by simp [Inst.flushNodes, hq, hn]), nodup := by simp, sub := ?_,
             mem := ⟨start, by simp, h1⟩, dist := ⟨0, h2, ?_⟩ }
    · intro r hr
      rw [List.mem_singleton.1 hr, ← hs.src]
      exact List.mem_cons_self ..
    · intro x hx
      rw [List.mem_singleton.1 hx]
      exact ⟨0, hh, le_rfl⟩

/-- A search that meets no fault ends. -/
theorem search_ends (hs : EndSetting q start goal) {heap : Heap (Ext ℝ)}
    (hsafe : ∀ inst, InstOk q inst → Safe (inst.next heap q.cfg q.mesh)) :
    ∀ (Q : Multiset (List (Vec2 ℝ) × SearchNode (Ext ℝ))) (inst : Inst (Ext ℝ)), Waits q Q inst →
      ∃ k x inst', pollSteps heap q.cfg q.mesh k inst = .ok (some x, inst') := by
  intro Q
  induction Q using (later_wf hs).transGen.cutExpand.induction with
  | _ Q ih =>
    intro inst hw
    obtain ⟨⟨st, inst1⟩, hn⟩ := (hsafe inst hw.ok).ex
    cases st with
    | found p => exact ⟨1, some p, inst1, by simp only [pollSteps, hn, res_bind_ok]⟩
    | notFound => exact ⟨1, none, inst1, by simp only [pollSteps, hn, res_bind_ok]⟩
    | «continue» =>
      obtain ⟨Q', hw', hlt⟩ := next_waits hs hw hn
      obtain ⟨k, x, i, hk⟩ := ih Q' hlt inst1 hw'
      exact ⟨k + 1, x, i, by simp only [pollSteps, hn, res_bind_ok]; exact hk⟩

end Polyanya
