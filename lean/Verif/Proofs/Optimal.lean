import Verif.Proofs.Final
import Verif.Proofs.Found
/-
The search always holds a node on a shortest route: such a node is never pruned and never dominated, it has a
child on the route, and its estimate is at most the length of the route. So the first path found is a shortest one.
-/

namespace Polyanya

section
variable {K : Type} [Scalar K]

/-! ### The history of roots -/

/-- The instance after a node is added. -/
def Inst.push (inst : Inst K) (n : SearchNode K) : Inst K :=
  { inst with
    rootHistory := histSet inst.rootHistory n.root n.distanceStartToRoot
    nodeBuffer := inst.nodeBuffer ++ [n] }

theorem addNode_push {q : Query K} {inst inst' : Inst K} {root : Vec2 K} {otherSide : UInt32}
    {start stop : Vec2 K × UInt32} {node : SearchNode K} (hg : inst.goal = q.dst.1)
    (h : inst.addNode q.cfg q.mesh root otherSide start stop node = .ok inst') :
    inst' = inst ∨ ∃ n, Added q root otherSide start stop node n ∧ inst' = inst.push n := by
  unfold Inst.addNode at h
  simp only [bind_eq_ok] at h
  obtain ⟨newF, h1, hh, h2, h⟩ := h
  rw [hg] at h2
  split at h
  · left; simp_all
  · rename_i hn
    simp only [Bool.or_eq_true, not_or, Bool.not_eq_true] at hn
    have hA : Added q root otherSide start stop node
        (mkNode q.cfg root otherSide start stop node newF hh) :=
      ⟨newF, hh, h1, h2, hn.1, hn.2, rfl⟩
    split at h
    · split at h
      · left; simp_all
      · right
        refine ⟨_, hA, ?_⟩
        simp only [Except.ok.injEq] at h
        exact h.symm
    · right
      refine ⟨_, hA, ?_⟩
      simp only [Except.ok.injEq] at h
      exact h.symm

theorem histGet_some {h : List (Vec2 K × K)} {r : Vec2 K} {o : K} (hg : histGet h r = some o) :
    ∃ e ∈ h, e.1.beq r = true ∧ e.2 = o := by
  unfold histGet at hg
  rw [Option.map_eq_some_iff] at hg
  obtain ⟨e, he, rfl⟩ := hg
  exact ⟨e, List.mem_of_find?_eq_some he, by simpa using List.find?_some he, rfl⟩

theorem histSet_mem {h : List (Vec2 K × K)} {r : Vec2 K} {v : K} {e : Vec2 K × K} (he : e ∈ histSet h r v) :
    e ∈ h ∨ e = (r, v) ∨ ∃ e0 ∈ h, e0.1.beq r = true ∧ e = (e0.1, v) := by
  induction h with
  | nil => simp only [histSet, List.mem_singleton] at he; exact .inr (.inl he)
  | cons a h ih =>
    simp only [histSet] at he
    split at he
    · rename_i hb
      rcases List.mem_cons.1 he with rfl | he
      · exact .inr (.inr ⟨a, List.mem_cons_self .., hb, rfl⟩)
      · exact .inl (List.mem_cons_of_mem _ he)
    · rcases List.mem_cons.1 he with rfl | he
      · exact .inl (List.mem_cons_self ..)
      · rcases ih he with h | h | ⟨e0, h1, h2, h3⟩
        · exact .inl (List.mem_cons_of_mem _ h)
        · exact .inr (.inl h)
        · exact .inr (.inr ⟨e0, List.mem_cons_of_mem _ h1, h2, h3⟩)

end

/-- The history records ways to reach a root: the start, or the walk of a generated node. -/
def HistOk (q : Query (Ext ℝ)) (h : List (Vec2 (Ext ℝ) × Ext ℝ)) : Prop :=
  ∀ e ∈ h, e = (q.src.1, Ext.fin 0) ∨ ∃ n, Gen q n ∧ e = (n.root, n.distanceStartToRoot)

variable {q : Query (Ext ℝ)} {start goal : Vec2 ℝ} {opt : ℝ} {node n : SearchNode (Ext ℝ)}

theorem HistOk.set (hs : Setting q start goal) {h : List (Vec2 (Ext ℝ) × Ext ℝ)} (hh : HistOk q h)
    (hn : Gen q n) : HistOk q (histSet h n.root n.distanceStartToRoot) := by
  intro e he
  rcases histSet_mem he with h1 | h1 | ⟨e0, h1, h2, h3⟩
  · exact hh e h1
  · exact .inr ⟨n, hn, h1⟩
  · right
    refine ⟨n, hn, ?_⟩
    obtain ⟨r, a, b, A, B, s, t, g, hk⟩ := hs.known hn
    have : ∃ x : Vec2 ℝ, e0.1 = x.fin := by
      rcases hh e0 h1 with rfl | ⟨n0, hn0, rfl⟩
      · exact ⟨start, hs.src⟩
      · obtain ⟨r, a, b, A, B, s, t, g, hk⟩ := hs.known hn0
        exact ⟨r, hk.geo.root⟩
    obtain ⟨x, hx⟩ := this
    rw [h3]
    rw [hx, hk.geo.root, fin_beq] at h2
    rw [hx, hk.geo.root, h2]

/-- A node on a shortest route is not dominated: no shorter way to its root is recorded. -/
theorem Covers.best (hs : Setting q start goal) (hl : Least q start goal opt) {rs : List (Crossing × Vec2 ℝ)}
    (h : Covers q start goal opt n rs) {hist : List (Vec2 (Ext ℝ) × Ext ℝ)} (hh : HistOk q hist) {o : Ext ℝ}
    (ho : histGet hist n.root = some o) : (o <. n.distanceStartToRoot) = false := by
  obtain ⟨y, r, a, b, A, B, s, t, g, hc⟩ := h
  have hk := hc.known
  obtain ⟨ws, pr, hg, hw, hst, htouch, -⟩ := hk.walk
  rw [Bool.eq_false_iff]
  intro hlt
  obtain ⟨e, he, heq, rfl⟩ := histGet_some ho
  -- another walk to the root
  have other : ∃ ws' pr', Walk q.mesh q.src.2 start pr' r ws' ∧ Touches q.mesh q.src.2 start pr' r
      ∧ e.2 = Ext.fin (polyLen (start :: ws')) := by
    rcases hh e he with rfl | ⟨n0, hn0, rfl⟩
    · simp only at heq ⊢
      rw [hs.src, hk.geo.root, fin_beq] at heq
      subst heq
      exact ⟨[], _, .nil hs.src_in, .inr ⟨rfl, rfl⟩, by simp [polyLen]⟩
    · obtain ⟨r0, a0, b0, A0, B0, s0, t0, g0, hk0⟩ := hs.known hn0
      simp only at heq ⊢
      rw [hk0.geo.root, hk.geo.root, fin_beq] at heq
      subst heq
      obtain ⟨ws0, pr0, hg0, hw0, -, ht0, -⟩ := hk0.walk
      exact ⟨ws0, pr0, hw0, ht0, by rw [hk0.length, hg0]⟩
  obtain ⟨ws', pr', hw', htouch', he'⟩ := other
  rw [he', hk.length, ext_lt] at hlt
  have hst1 := hs.nav.noPinch r pr' pr _ _ hw' hw htouch' htouch
  have hst2 := hst y hc.mid
  obtain ⟨w1, e1⟩ := hw'.append (Walk.cons hst1 (Walk.cons hst2 (.nil hst2.dst_in)))
  obtain ⟨w2, e2⟩ := hc.route.walk hs.conforming
  obtain ⟨w3, e3⟩ := w1.append w2
  have := hl _ w3
  rw [e3, e2, e1] at this
  simp only [polyLen, dist2_self] at this
  linarith [hc.cost]

/-! ### Invariants of the expansion -/

/-- The instance belongs to the query, and so does its history. -/
structure Kept (q : Query (Ext ℝ)) (inst : Inst (Ext ℝ)) : Prop where
  ok : InstOk q inst
  hist : HistOk q inst.rootHistory

theorem addNode_kept (hs : Setting q start goal) {inst inst' : Inst (Ext ℝ)} {root : Vec2 (Ext ℝ)}
    {otherSide : UInt32} {st sp : Vec2 (Ext ℝ) × UInt32} (hi : Kept q inst)
    (hgen : ∀ n, Added q root otherSide st sp node n → Gen q n)
    (h : inst.addNode q.cfg q.mesh root otherSide st sp node = .ok inst') : Kept q inst' := by
  refine ⟨addNode_ok hi.ok hgen h, ?_⟩
  rcases addNode_push hi.ok.goal h with rfl | ⟨n, hA, rfl⟩
  · exact hi.hist
  · exact hi.hist.set hs (hgen n hA)

theorem expandOne_kept (hs : Setting q start goal) {succs : List (Successor (Ext ℝ))}
    {su : Successor (Ext ℝ)} {inst inst' : Inst (Ext ℝ)} (hn : Gen q node) (hnd : node.polygonTo ≠ q.dst.2)
    (he : edgesBetween q.mesh node = .ok succs) (hsu : su ∈ succs) (hi : Kept q inst)
    (h : expandOne q.cfg q.mesh node inst su = .ok inst') : Kept q inst' := by
  have h0 := h
  refine ⟨expandOne_ok hn hnd he hsu hi.ok h0, ?_⟩
  unfold expandOne at h
  simp only [bind_eq_ok, idx_eq_ok, idxUnchecked_eq_ok] at h
  obtain ⟨layer, hl, vs, h1, ve, h2, h⟩ := h
  split at h
  · simp only [Except.ok.injEq] at h; exact h ▸ hi.hist
  rename_i hmax
  split at h
  · simp only [Except.ok.injEq] at h; exact h ▸ hi.hist
  rename_i hb
  rw [bind_eq_ok] at h
  obtain ⟨dead, hd, h⟩ := h
  split at h
  · simp only [Except.ok.injEq] at h; exact h ▸ hi.hist
  rename_i hdead
  split at h
  · simp only [Except.ok.injEq] at h; exact h ▸ hi.hist
  rename_i hfrom
  rw [bind_eq_ok] at h
  obtain ⟨root?, hr, h⟩ := h
  cases root? with
  | none => simp only [Except.ok.injEq] at h; exact h ▸ hi.hist
  | some root =>
    simp only at h
    split at h
    · simp only [Except.ok.injEq] at h; exact h ▸ hi.hist
    rcases addNode_push hi.ok.goal h with rfl | ⟨n, hA, rfl⟩
    · exact hi.hist
    · exact hi.hist.set hs ((expandOne_ok hn hnd he hsu hi.ok h0).buffer n (by simp [Inst.push]))

theorem setupEdge_kept (hs : Setting q start goal) {layer : Layer (Ext ℝ)} {poly : Polygon}
    {edges : List (UInt32 × UInt32)} {edge : UInt32 × UInt32} {inst inst' : Inst (Ext ℝ)}
    (hl : q.mesh.layers[(layerOf q.src.2).toNat]? = some layer)
    (hp : layer.polygons[(polygonOf q.src.2).toNat]? = some poly)
    (he : poly.edgesIndex = .ok edges) (hm : edge ∈ edges) (hi : Kept q inst)
    (h : setupEdge q.cfg q.mesh layer q.src q.dst (emptyNode q.src) inst edge = .ok inst') :
    Kept q inst' := by
  have h0 := h
  refine ⟨setupEdge_ok hl hp he hm hi.ok h0, ?_⟩
  unfold setupEdge at h
  split at h
  · simp only at h
    split at h
    · simp only [Except.ok.injEq] at h; exact h ▸ hi.hist
    · rw [bind_eq_ok] at h
      obtain ⟨go, hgo, h⟩ := h
      split at h
      · rcases addNode_push hi.ok.goal h with rfl | ⟨n, hA, rfl⟩
        · exact hi.hist
        · exact hi.hist.set hs ((setupEdge_ok hl hp he hm hi.ok h0).buffer n (by simp [Inst.push]))
      · simp only [Except.ok.injEq] at h; exact h ▸ hi.hist
  · simp only [Except.ok.injEq] at h; exact h ▸ hi.hist

/-- Expanding the successors in turn keeps what is made from one of them. -/
theorem foldlM_expand (hs : Setting q start goal) (hl : Least q start goal opt)
    {succs : List (Successor (Ext ℝ))} (hn : Gen q node) (hnd : node.polygonTo ≠ q.dst.2)
    (he : edgesBetween q.mesh node = .ok succs) {su : Successor (Ext ℝ)} {rs : List (Crossing × Vec2 ℝ)}
    (hm : Makes q node su n) (hc : Covers q start goal opt n rs) :
    ∀ (l : List (Successor (Ext ℝ))), l ⊆ succs → ∀ inst inst', Kept q inst →
      l.foldlM (expandOne q.cfg q.mesh node) inst = .ok inst' →
      Kept q inst' ∧ inst.nodeBuffer ⊆ inst'.nodeBuffer ∧ inst'.queue = inst.queue
        ∧ (su ∈ l → n ∈ inst'.nodeBuffer) := by
  intro l
  induction l with
  | nil =>
    intro _ inst inst' hk h
    simp only [List.foldlM_nil, pure, Except.pure, Except.ok.injEq] at h
    subst h
    exact ⟨hk, fun _ h => h, rfl, by simp⟩
  | cons a l ih =>
    intro hsub inst inst' hk h
    simp only [List.foldlM_cons, bind_eq_ok] at h
    obtain ⟨inst1, h1, h⟩ := h
    have hk1 := expandOne_kept hs hn hnd he (hsub (List.mem_cons_self ..)) hk h1
    obtain ⟨b1, b2⟩ := expandOne_buffer hk.ok.goal h1
    obtain ⟨k, c1, c2, c3⟩ := ih (fun x hx => hsub (List.mem_cons_of_mem _ hx)) inst1 inst' hk1 h
    refine ⟨k, fun x hx => c1 (b1 hx), c2.trans b2, ?_⟩
    intro hmem
    rcases List.mem_cons.1 hmem with rfl | hmem
    · apply c1
      rcases expandOne_keeps hk.ok hm h1 with ⟨o, ho, hlt⟩ | h
      · rw [hc.best hs hl hk.hist ho] at hlt
        cases hlt
      · exact h
    · exact c3 hmem

/-- Some node of the list is on a shortest route. -/
def Held (q : Query (Ext ℝ)) (start goal : Vec2 ℝ) (opt : ℝ) (l : List (SearchNode (Ext ℝ))) : Prop :=
  ∃ n ∈ l, ∃ rs, Covers q start goal opt n rs

theorem Held.mono {l l' : List (SearchNode (Ext ℝ))} (h : Held q start goal opt l) (hl : l ⊆ l') :
    Held q start goal opt l' := by
  obtain ⟨n, hn, h⟩ := h
  exact ⟨n, hl hn, h⟩

/-- The loop of the expansion keeps the invariants and the queue. -/
theorem successorsLoop_kept (hs : Setting q start goal) : ∀ (fuel : Nat) (visited : List UInt32)
    (node : SearchNode (Ext ℝ)) (inst inst' : Inst (Ext ℝ)), Gen q node → node.polygonTo ≠ q.dst.2 →
    Kept q inst → successorsLoop q.cfg q.mesh fuel visited node inst = .ok inst' →
    Kept q inst' ∧ inst'.queue = inst.queue := by
  intro fuel
  induction fuel with
  | zero => intro _ _ _ _ _ _ _ h; simp [successorsLoop] at h
  | succ fuel ih =>
    intro visited node inst inst' hn hnd hi h
    simp only [successorsLoop, bind_eq_ok] at h
    obtain ⟨succs, he, inst1, hf, h⟩ := h
    have h1 : Kept q inst1 ∧ inst1.queue = inst.queue :=
      foldlM_inv (fun i => Kept q i ∧ i.queue = inst.queue) ⟨hi, rfl⟩
        (fun s a s' ha hk hst => ⟨expandOne_kept hs hn hnd he ha hk.1 hst,
          (expandOne_buffer hk.1.ok.goal hst).2.trans hk.2⟩) hf
    obtain ⟨h1, hq⟩ := h1
    split at h
    · rename_i next hb
      have hnext : Gen q next := h1.ok.buffer next (by simp [hb])
      have h2 : Kept q { inst1 with nodeBuffer := [] } := ⟨{ h1.ok with buffer := by simp }, h1.hist⟩
      split at h
      · rename_i hne
        rw [h1.ok.polygonTo] at hne
        split at h
        · simp only [Except.ok.injEq] at h; exact h ▸ ⟨h2, hq⟩
        · split at h
          · simp only [Except.ok.injEq] at h; exact h ▸ ⟨h2, hq⟩
          · obtain ⟨k1, k2⟩ := ih _ _ _ _ hnext hne h2 h
            exact ⟨k1, k2.trans hq⟩
      · simp only [Except.ok.injEq] at h; exact h ▸ ⟨h1, hq⟩
    · simp only [Except.ok.injEq] at h; exact h ▸ ⟨h1, hq⟩

/-- Expanding a node on a shortest route leaves a node on it. -/
theorem successorsLoop_held (hs : Setting q start goal) (hl : Least q start goal opt) (hso : StraightOn q start goal opt) :
    ∀ (fuel : Nat) (visited : List UInt32) (node : SearchNode (Ext ℝ)) (inst inst' : Inst (Ext ℝ))
    (rs : List (Crossing × Vec2 ℝ)), Covers q start goal opt node rs → node.polygonTo ≠ q.dst.2 →
    Kept q inst → (∀ x ∈ visited, x ∉ rs.map (·.1.dst)) →
    successorsLoop q.cfg q.mesh fuel visited node inst = .ok inst' →
    Held q start goal opt inst'.nodeBuffer := by
  intro fuel
  induction fuel with
  | zero => intro _ _ _ _ _ _ _ _ _ h; simp [successorsLoop] at h
  | succ fuel ih =>
    intro visited node inst inst' rs hc hnd hi hvis h
    simp only [successorsLoop, bind_eq_ok] at h
    obtain ⟨succs, he, inst1, hf, h⟩ := h
    obtain ⟨y, r, a, b, A, B, s, t, g, hcov⟩ := hc
    have hn := hcov.known.gen
    cases rs with
    | nil => exact absurd hcov.route.nil_eq hnd
    | cons cy rs =>
      obtain ⟨c, y'⟩ := cy
      obtain ⟨su, hsu, n, hm, hcn, hto⟩ := hcov.child hs hl hso hnd he
      obtain ⟨k1, -, -, hin⟩ := foldlM_expand hs hl hn hnd he hm hcn succs (fun _ h => h) inst inst1 hi hf
      have hmem := hin hsu
      have hnod := hcov.nodup
      simp only [List.map_cons] at hnod
      split at h
      · rename_i next hb
        have hnext : n = next := by
          rw [hb] at hmem
          exact List.mem_singleton.1 hmem
        subst hnext
        split at h
        · rename_i hne
          rw [k1.ok.polygonTo] at hne
          split at h
          · rename_i hrev
            exfalso
            simp only [isReverse, Bool.and_eq_true, beq_iff_eq] at hrev
            have : c.dst = node.polygonFrom := by rw [← hto]; exact hrev.1.1.1.2
            rw [← this] at hnod
            simp at hnod
          · split at h
            · rename_i hv
              exfalso
              rw [List.contains_iff_mem, hto] at hv
              exact hvis _ hv (by simp)
            · have h2 : Kept q { inst1 with nodeBuffer := [] } := ⟨{ k1.ok with buffer := by simp }, k1.hist⟩
              refine ih _ _ _ _ rs hcn hne h2 ?_ h
              intro x hx
              rcases List.mem_cons.1 hx with rfl | hx
              · rw [hto]
                intro h
                simp only [List.nodup_cons] at hnod
                exact hnod.2.2.1 h
              · intro h
                exact hvis x hx (List.mem_cons_of_mem _ h)
        · simp only [Except.ok.injEq] at h
          exact h ▸ ⟨n, hmem, rs, hcn⟩
      · simp only [Except.ok.injEq] at h
        exact h ▸ ⟨n, hmem, rs, hcn⟩

theorem successors_kept (hs : Setting q start goal) {inst inst' : Inst (Ext ℝ)} (hn : Gen q node)
    (hnd : node.polygonTo ≠ q.dst.2) (hi : Kept q inst) (h : inst.successors q.cfg q.mesh node = .ok inst') :
    Kept q inst' ∧ inst.queue ⊆ inst'.queue := by
  unfold Inst.successors at h
  simp only [bind_eq_ok] at h
  obtain ⟨i, h1, h⟩ := h
  simp only [Except.ok.injEq] at h
  subst h
  obtain ⟨k1, k2⟩ := successorsLoop_kept hs _ _ _ _ _ hn hnd hi h1
  refine ⟨⟨flushNodes_ok k1.ok, k1.hist⟩, ?_⟩
  simp only [Inst.flushNodes, k2]
  exact List.subset_append_left _ _

theorem successors_held (hs : Setting q start goal) (hl : Least q start goal opt) (hso : StraightOn q start goal opt) {inst inst' : Inst (Ext ℝ)}
    {rs : List (Crossing × Vec2 ℝ)} (hc : Covers q start goal opt node rs)
    (hnd : node.polygonTo ≠ q.dst.2) (hi : Kept q inst) (h : inst.successors q.cfg q.mesh node = .ok inst') :
    Held q start goal opt inst'.queue := by
  unfold Inst.successors at h
  simp only [bind_eq_ok] at h
  obtain ⟨i, h1, h⟩ := h
  simp only [Except.ok.injEq] at h
  subst h
  exact (successorsLoop_held hs hl hso _ _ _ _ _ rs hc hnd hi (by simp) h1).mono (List.subset_append_right _ _)

/-! ### The first nodes -/

theorem setupEdge_keeps {edge : UInt32 × UInt32} {inst inst' : Inst (Ext ℝ)} {layer : Layer (Ext ℝ)}
    {vs ve : Vertex (Ext ℝ)} (hi : InstOk q inst)
    (h0 : layer.vertices[edge.1.toNat]? = some vs) (h1 : layer.vertices[edge.2.toNat]? = some ve)
    (hb : q.blocked.contains (layerOf (otherSideOf vs ve q.src.2)) = false)
    (hgo : otherSideOf vs ve q.src.2 = q.dst.2 ∨
      (otherSideOf vs ve q.src.2 ≠ u32Max ∧ Open q.mesh (otherSideOf vs ve q.src.2)))
    (hA : Added q q.src.1 (otherSideOf vs ve q.src.2) (vs.coords + layer.offset, edge.1)
      (ve.coords + layer.offset, edge.2) (emptyNode q.src) n)
    (h : setupEdge q.cfg q.mesh layer q.src q.dst (emptyNode q.src) inst edge = .ok inst') :
    (∃ o, histGet inst.rootHistory n.root = some o ∧ (o <. n.distanceStartToRoot) = true)
      ∨ n ∈ inst'.nodeBuffer := by
  unfold setupEdge at h
  rw [h0, h1] at h
  simp only at h
  rw [hi.blocked] at h
  simp only [hb, Bool.false_eq_true, if_false] at h
  rw [bind_eq_ok] at h
  obtain ⟨go, hgo', h⟩ := h
  have : go = true := by
    split at hgo'
    · simpa using hgo'.symm
    · rename_i hne
      obtain ⟨hm, l, p, hl', hp', ho⟩ := hgo.resolve_left hne
      rw [if_neg hm, idx_eq_ok.2 hl'] at hgo'
      simp only [res_bind_ok] at hgo'
      rw [idx_eq_ok.2 hp'] at hgo'
      simp only [res_bind_ok, Except.ok.injEq, ho] at hgo'
      exact hgo'.symm
  subst this
  simp only [if_true] at h
  exact addNode_keeps hi.goal hA h

theorem setupEdge_buffer {edge : UInt32 × UInt32} {inst inst' : Inst (Ext ℝ)} {layer : Layer (Ext ℝ)}
    (hg : inst.goal = q.dst.1)
    (h : setupEdge q.cfg q.mesh layer q.src q.dst (emptyNode q.src) inst edge = .ok inst') :
    inst.nodeBuffer ⊆ inst'.nodeBuffer := by
  have same : ∀ {i : Inst (Ext ℝ)}, (Except.ok inst : Res (Inst (Ext ℝ))) = .ok i →
      inst.nodeBuffer ⊆ i.nodeBuffer := by
    intro i h
    cases h
    exact fun _ h => h
  unfold setupEdge at h
  split at h
  · simp only at h
    split at h
    · exact same h
    · rw [bind_eq_ok] at h
      obtain ⟨go, -, h⟩ := h
      split at h
      · rcases addNode_push hg h with rfl | ⟨n, -, rfl⟩
        · exact fun _ h => h
        · exact fun x hx => List.mem_append_left _ hx
      · exact same h
  · exact same h

/-- The first edge of a shortest route has a first node. -/
theorem setup_node (hs : Setting q start goal) (hfl : Flagged q.mesh start) {c : Crossing} {y : Vec2 ℝ} {rs : List (Crossing × Vec2 ℝ)}
    (hr : Route q.mesh q.src.2 start q.dst.2 goal ((c, y) :: rs)) (hcost : routeLen start goal ((c, y) :: rs) ≤ opt)
    (hnd : (q.src.2 :: ((c, y) :: rs).map (·.1.dst)).Nodup) (hcalm : Calm q.mesh goal ((c, y) :: rs))
    {l : Layer (Ext ℝ)} {p : Polygon}
    (hp : HasPolygon q.mesh q.src.2 l p) {edges : List (UInt32 × UInt32)} (hedges : p.edgesIndex = .ok edges) :
    (c.a, c.b) ∈ edges ∧ ∃ vs ve n, l.vertices[c.a.toNat]? = some vs ∧ l.vertices[c.b.toNat]? = some ve
      ∧ q.blocked.contains (layerOf (otherSideOf vs ve q.src.2)) = false
      ∧ (otherSideOf vs ve q.src.2 = q.dst.2 ∨
        (otherSideOf vs ve q.src.2 ≠ u32Max ∧ Open q.mesh (otherSideOf vs ve q.src.2)))
      ∧ Added q q.src.1 (otherSideOf vs ve q.src.2) (vs.coords + l.offset, c.a)
          (ve.coords + l.offset, c.b) (emptyNode q.src) n
      ∧ Covers q start goal opt n rs := by
  obtain ⟨hsrc, hyin, hv, ⟨C, D, hat, hy⟩, hrest⟩ := hr.uncons
  simp only [List.map_cons] at hnd
  have hgo := open_of_route hs hv hrest (by rw [hsrc]; exact hnd)
  obtain ⟨l', p', vs, ve, hp', he, h0, h1, m1, m2, hmax, m4⟩ := id hv
  rw [hsrc] at hp'
  obtain rfl : l' = l := Option.some.inj (hp'.1.symm.trans hp.1)
  obtain rfl : p' = p := Option.some.inj (hp'.2.symm.trans hp.2)
  have hother : otherSideOf vs ve q.src.2 = c.dst := by
    rw [← hsrc]; exact otherSide_valid hs.nav.unique hv (by rw [hsrc]; exact hp.1) h0 h1
  have hmem := (mem_edgesIndex hedges c.a c.b).2 he
  refine ⟨hmem, vs, ve, ?_⟩
  obtain ⟨l2, hl2, ⟨vs', hvs, hvs'⟩, ⟨ve', hve, hve'⟩⟩ := id hat
  rw [hsrc] at hl2
  obtain rfl : l2 = l' := Option.some.inj (hl2.symm.trans hp.1)
  obtain rfl : vs' = vs := Option.some.inj (hvs.symm.trans h0)
  obtain rfl : ve' = ve := Option.some.inj (hve.symm.trans h1)
  -- the edge
  obtain ⟨ps, hring, hins⟩ := hs.src_in
  obtain ⟨l3, p3, hp3, hf⟩ := id hring
  obtain rfl : l3 = l2 := Option.some.inj (hp3.1.symm.trans hp.1)
  obtain rfl : p3 = p' := Option.some.inj (hp3.2.symm.trans hp.2)
  obtain ⟨i, hi, hia, hib⟩ := he
  obtain ⟨A, hA1, hA2⟩ := forall₂_getElem hf hia
  obtain ⟨B, hB1, hB2⟩ := forall₂_getElem hf hib
  have hcons : Consecutive ps A B :=
    ⟨i, by rw [← hf.length_eq]; exact hi, hA1, by rw [← hf.length_eq]; exact hB1⟩
  obtain rfl : A = C := hA2.unique ⟨vs', hvs, hvs'⟩
  obtain rfl : B = D := hB2.unique ⟨ve', hve, hve'⟩
  have hE : IsEdgeAt q.mesh A B := ⟨_, ps, hring, hcons⟩
  obtain ⟨psd, kd, hringd, hconvd, hconsd, hfand⟩ := hs.conforming.fan hv hat
  have hAB : A ≠ B := by
    rintro rfl
    have hlen := hfand.len
    have := hconvd.rotate kd |>.injective hfand.first hfand.last
    omega
  obtain ⟨c1, c2⟩ := hs.clear (w := start) (C := A) (D := B) (.inl rfl) ⟨hE, .inl rfl⟩ ⟨hE, .inr (.inl rfl)⟩
  have hdist : newDistance q.cfg q.mesh q.src.1 (emptyNode q.src) = .ok (Ext.fin 0) := by
    unfold newDistance
    rw [if_pos (by simp only [emptyNode]; rw [hs.src, fin_beq])]
    simp only [emptyNode]
    rw [show (Scalar.lit 0 0 : Ext ℝ) = Ext.fin (Scalar.lit 0 0) from rfl]
    simp [Scalar.lit]
  have hheur : newHeuristic q.cfg q.mesh q.dst.1 q.src.1 (vs'.coords + l3.offset, c.a) (ve'.coords + l3.offset, c.b)
      = .ok (Ext.fin (heuristic start goal (A, B))) := by
    rw [newHeuristic_of_plain hs.plain (List.mem_of_getElem? hp.1) (List.getElem?_eq_some_iff.1 hvs).1
      (List.getElem?_eq_some_iff.1 hve).1]
    unfold newHeuristic
    rw [hvs', hve', hs.src, hs.goalAt]
    simp only [Bool.false_eq_true, if_false]
    rw [fin_heuristic hAB c1 c2]
  obtain ⟨n, hA, hnl⟩ : ∃ n, Added q q.src.1 (otherSideOf vs' ve' q.src.2) (vs'.coords + l3.offset, c.a)
      (ve'.coords + l3.offset, c.b) (emptyNode q.src) n ∧ n.distanceStartToRoot = Ext.fin 0 :=
    ⟨_, ⟨_, _, hdist, hheur, rfl, rfl, rfl⟩, rfl⟩
  have hbl : q.blocked.contains (layerOf (otherSideOf vs' ve' q.src.2)) = false := by rw [hs.free]; rfl
  have hgo' : otherSideOf vs' ve' q.src.2 = q.dst.2 ∨
        (otherSideOf vs' ve' q.src.2 ≠ u32Max ∧ Open q.mesh (otherSideOf vs' ve' q.src.2)) := by
    rw [hother]
    exact hgo.imp id (fun h => ⟨hmax, h⟩)
  refine ⟨n, h0, h1, hbl, hgo', hA, ?_⟩
  have hgen : Gen q n := Gen.setup ⟨l3, p3, edges, (c.a, c.b), vs', ve', by rw [layerOf_toNat]; exact hp.1,
    by rw [polygonOf_toNat]; exact hp.2, hedges, hmem, h0, h1, hbl, hgo', hA⟩
  obtain ⟨f1, f2, f3, f4, -, f6⟩ := added_fields hA
  obtain ⟨r', a', b', A', B', s', t', g', hk⟩ := hs.known hgen
  obtain rfl : r' = start := Vec2.fin_injective (hk.geo.root.symm.trans (f6.trans hs.src))
  have e2 : (a'.fin, b'.fin) = (A.fin, B.fin) := by
    rw [← hvs', ← hve']; exact hk.geo.interval.symm.trans f3
  simp only [Prod.mk.injEq] at e2
  obtain rfl := Vec2.fin_injective e2.1
  obtain rfl := Vec2.fin_injective e2.2
  have hcr : n.crossing = c := by
    unfold SearchNode.crossing
    rw [f1, f2, f4, hother]
    simp only [emptyNode, ← hsrc]
  have hat' := hk.geo.at_
  rw [hcr] at hat'
  obtain ⟨rfl, rfl⟩ := hat.unique hat'
  obtain rfl : g' = 0 := by
    have := hk.length.symm.trans hnl
    simpa using this
  have hside : ∀ ρ, ρ < 0 ∨ 1 < ρ → r' ≠ along A' B' ρ := by
    intro ρ hρ hr
    obtain ⟨qs, hq, hqc⟩ := hs.conforming.convex _ _ _ hp
    obtain rfl := hq.unique hring
    obtain ⟨j, hj, hj1, hj2⟩ := hcons
    obtain ⟨u, u0, u1, hu⟩ := (fan_of_consecutive hqc hj hj1 hj2).on_base ((inside_rotate _).2 hins)
      (by rw [hr, tri_along]; simp only [tri]; ring)
    have e : u = 1 - ρ := by
      by_contra hne
      apply along_ne hAB.symm hne
      rw [← hu, hr]
      simp only [along, Vec2.mk.injEq]
      constructor <;> ring
    rcases hρ with h | h <;> linarith
  have hto : n.polygonTo = c.dst := f2.trans hother
  have hfr : n.polygonFrom = q.src.2 := f1
  refine ⟨y, r', A', B', A', B', s', t', 0, ?_⟩
  refine { known := hk, mid := hy, route := by rw [hto]; exact hrest, cost := ?_,
           jA := fun _ h => absurd rfl h, jB := fun _ h => absurd rfl h, nodup := by rw [hto, hfr]; exact hnd,
           root := hfl, calm := hcalm.2, passes := hcalm.1 _ _ hat, behindA := ?_, behindB := ?_ }
  rotate_left
  · intro ρ hρ hr
    exact absurd hr (hside ρ (.inl hρ))
  · intro ρ hρ hr
    exact absurd hr (hside ρ (.inr hρ))
  simp only [routeLen] at hcost
  linarith

/-- After the setup, a node on a shortest route is held. -/
theorem setup_held (hs : Setting q start goal) (hl : Least q start goal opt) (hfl : Flagged q.mesh start)
    (hse : q.src.2 ≠ q.dst.2)
    {rs : List (Crossing × Vec2 ℝ)} (hr : Route q.mesh q.src.2 start q.dst.2 goal rs)
    (hcost : routeLen start goal rs ≤ opt) (hnd : (q.src.2 :: rs.map (·.1.dst)).Nodup)
    (hcalm : Calm q.mesh goal rs) {inst : Inst (Ext ℝ)} (h : Inst.setup q.cfg q.mesh q.src q.dst q.blocked = .ok inst) :
    Kept q inst ∧ Held q start goal opt inst.queue := by
  cases rs with
  | nil => exact absurd hr.nil_eq hse
  | cons cy rs =>
  obtain ⟨c, y⟩ := cy
  unfold Inst.setup at h
  simp only [bind_eq_ok, idx_eq_ok] at h
  obtain ⟨layer, hlay, poly, hpoly, edges, he, inst', hf, h⟩ := h
  simp only [Except.ok.injEq] at h
  subst h
  have hp : HasPolygon q.mesh q.src.2 layer poly :=
    ⟨by rw [← layerOf_toNat]; exact hlay, by rw [← polygonOf_toNat]; exact hpoly⟩
  obtain ⟨hmem, vs, ve, n, h0, h1, hb, hgo, hA, hcov⟩ := setup_node hs hfl hr hcost hnd hcalm hp he
  have key : ∀ (es : List (UInt32 × UInt32)), es ⊆ edges → ∀ i i', Kept q i →
      es.foldlM (setupEdge q.cfg q.mesh layer q.src q.dst (emptyNode q.src)) i = .ok i' →
      Kept q i' ∧ i.nodeBuffer ⊆ i'.nodeBuffer ∧ ((c.a, c.b) ∈ es → n ∈ i'.nodeBuffer) := by
    intro es
    induction es with
    | nil =>
      intro _ i i' hk h
      simp only [List.foldlM_nil, pure, Except.pure, Except.ok.injEq] at h
      subst h
      exact ⟨hk, fun _ h => h, by simp⟩
    | cons e es ih =>
      intro hsub i i' hk h
      simp only [List.foldlM_cons, bind_eq_ok] at h
      obtain ⟨i1, hi1, h⟩ := h
      have hk1 := setupEdge_kept hs hlay hpoly he (hsub (List.mem_cons_self ..)) hk hi1
      obtain ⟨k, c1, c2⟩ := ih (fun x hx => hsub (List.mem_cons_of_mem _ hx)) i1 i' hk1 h
      refine ⟨k, fun x hx => c1 (setupEdge_buffer hk.ok.goal hi1 hx), ?_⟩
      intro hm
      rcases List.mem_cons.1 hm with rfl | hm
      · apply c1
        rcases setupEdge_keeps hk.ok h0 h1 hb hgo hA hi1 with ⟨o, ho, hlt⟩ | h
        · rw [hcov.best hs hl hk.hist ho] at hlt
          cases hlt
        · exact h
      · exact c2 hm
  obtain ⟨k, -, hin⟩ := key edges (fun _ h => h) _ _
    ⟨{ start := rfl, goal := rfl, polygonTo := rfl, blocked := rfl, queue := by simp, buffer := by simp },
      by
        intro e he
        simp only [List.mem_singleton] at he
        left
        rw [he, show (Scalar.lit 0 0 : Ext ℝ) = Ext.fin (Scalar.lit 0 0) from rfl]
        simp [Scalar.lit]⟩ hf
  refine ⟨⟨flushNodes_ok k.ok, k.hist⟩, n, ?_, rs, hcov⟩
  exact List.mem_append_right _ (hin hmem)

/-! ### The search -/

/-- A path found by the search, whose polyline is a walk of length at most `opt`. -/
def FoundLeast (q : Query (Ext ℝ)) (start goal : Vec2 ℝ) (opt : ℝ) (p : Path (Ext ℝ)) : Prop :=
  FoundBy q p ∧ ∃ ws, p.path = ws.map Vec2.fin ∧ Walk q.mesh q.src.2 start q.dst.2 goal ws
    ∧ (q.cfg.detailed = false → p.length = Ext.fin (polyLen (start :: ws))) ∧ polyLen (start :: ws) ≤ opt

/-- A popped node has a least estimate. -/
theorem pop_le (hs : Setting q start goal) {heap : Heap (Ext ℝ)} (hmax : heap.Max)
    {queue rest : List (SearchNode (Ext ℝ))} {top : SearchNode (Ext ℝ)} (hpop : heap.pop queue = some (top, rest))
    {rs : List (Crossing × Vec2 ℝ)} (hn : n ∈ queue) (hc : Covers q start goal opt n rs) {r a b A B : Vec2 ℝ}
    {s t g : ℝ} (hk : Known q start goal top r a b A B s t g) : g + heuristic r goal (a, b) ≤ opt := by
  obtain ⟨y, r', a', b', A', B', s', t', g', hcov⟩ := hc
  have h1 := hcov.estimate_le hs.exactly
  have h2 := hmax queue top rest hpop n hn
  unfold SearchNode.cmp at h2
  rw [hk.estimate hs.exactly, hcov.known.estimate hs.exactly] at h2
  by_contra hlt
  apply h2
  have : Scalar.totalCmp (Ext.fin (g' + heuristic r' goal (a', b'))) (Ext.fin (g + heuristic r goal (a, b)))
      = Ordering.lt := by
    change Scalar.totalCmp (g' + heuristic r' goal (a', b')) (g + heuristic r goal (a, b)) = Ordering.lt
    simp only [Scalar.totalCmp]
    rw [if_pos (by linarith)]
  rw [this]

/-- One step of the search: either it finds a path, of least length, or the search still holds a node on a shortest
route. -/
theorem next_held (hs : Setting q start goal) (hl : Least q start goal opt) (hso : StraightOn q start goal opt) {heap : Heap (Ext ℝ)}
    (hmax : heap.Max) {inst inst' : Inst (Ext ℝ)} {st : Step (Ext ℝ)} (hk : Kept q inst)
    (hh : Held q start goal opt inst.queue) (h : inst.next heap q.cfg q.mesh = .ok (st, inst')) :
    (∃ p, st = .found p ∧ FoundLeast q start goal opt p)
      ∨ (st = .continue ∧ Kept q inst' ∧ Held q start goal opt inst'.queue) := by
  unfold Inst.next at h
  obtain ⟨n, hn, rs, hc⟩ := hh
  split at h
  · rename_i hpop
    exfalso
    obtain ⟨a, b, hab⟩ := heap.pop_some inst.queue (List.ne_nil_of_mem hn)
    rw [hab] at hpop
    cases hpop
  · rename_i top rest hpop
    have hperm := heap.pop_perm _ _ _ hpop
    have htop : Gen q top := hk.ok.queue top (hperm.subset (List.mem_cons_self ..))
    have hk' : Kept q { inst with queue := rest } :=
      ⟨{ hk.ok with queue := fun n hn => hk.ok.queue n (hperm.subset (List.mem_cons_of_mem _ hn)) }, hk.hist⟩
    have hin : n = top ∨ n ∈ rest := by
      have := hperm.symm.subset hn
      simpa using this
    simp only at h
    split at h
    · rename_i hdom
      simp only [Except.ok.injEq, Prod.mk.injEq] at h
      obtain ⟨rfl, rfl⟩ := h
      right
      refine ⟨rfl, hk', ?_⟩
      rcases hin with rfl | hin
      · exfalso
        unfold isDominated at hdom
        split at hdom
        · rename_i o ho
          rw [hc.best hs hl hk'.hist ho] at hdom
          cases hdom
        · cases hdom
      · exact ⟨n, hin, rs, hc⟩
    · split at h
      · rename_i hto
        simp only [bind_eq_ok, Except.ok.injEq, Prod.mk.injEq] at h
        obtain ⟨p, hfp, rfl, rfl⟩ := h
        left
        refine ⟨p, rfl, ?_⟩
        obtain ⟨r, a, b, A, B, s, t, g, hkn⟩ := hs.known htop
        obtain ⟨ws, w1, w2, w3, w4⟩ := hkn.final hs.exactly (hto.trans hk.ok.polygonTo) hk'.ok.goal hfp
        exact ⟨⟨_, top, hk'.ok, htop, hto.trans hk.ok.polygonTo, hfp⟩, ws, w1, w2, w3, by rw [w4]; exact pop_le hs hmax hpop hn hc hkn⟩
      · rename_i hto
        simp only [bind_eq_ok, Except.ok.injEq, Prod.mk.injEq] at h
        obtain ⟨i, hsu, rfl, rfl⟩ := h
        have hnd : top.polygonTo ≠ q.dst.2 := by rw [← hk.ok.polygonTo]; exact hto
        obtain ⟨k1, k2⟩ := successors_kept hs htop hnd hk' hsu
        right
        refine ⟨rfl, k1, ?_⟩
        rcases hin with rfl | hin
        · exact successors_held hs hl hso hc hnd hk' hsu
        · exact ⟨n, k2 hin, rs, hc⟩

/-- The search of `path`: it finds a path of least length, or it uses up its steps. -/
theorem searchLoop_held (hs : Setting q start goal) (hplain : q.cfg.detailed = false) (hl : Least q start goal opt) (hso : StraightOn q start goal opt) {heap : Heap (Ext ℝ)}
    (hmax : heap.Max) : ∀ (k : Nat) (inst : Inst (Ext ℝ)) (r : Path (Ext ℝ) ⊕ List (Path (Ext ℝ))), Kept q inst →
    Held q start goal opt inst.queue → searchLoop heap q.cfg q.mesh k inst [] = .ok r →
    (∃ p, r = .inl p ∧ FoundLeast q start goal opt p)
      ∨ (r = .inr [] ∧ ∃ inst', pollSteps heap q.cfg q.mesh k inst = .ok (none, inst')) := by
  intro k
  induction k with
  | zero =>
    intro inst r _ _ h
    simp only [searchLoop, Except.ok.injEq] at h
    exact .inr ⟨h.symm, inst, rfl⟩
  | succ k ih =>
    intro inst r hk hh h
    simp only [searchLoop, bind_eq_ok] at h
    obtain ⟨⟨st, inst'⟩, hn, h⟩ := h
    rcases next_held hs hl hso hmax hk hh hn with ⟨p, rfl, hp⟩ | ⟨rfl, k1, k2⟩
    · simp only [hplain, Bool.false_eq_true, if_false, Except.ok.injEq] at h
      exact .inl ⟨p, h.symm, hp⟩
    · rcases ih inst' r k1 k2 h with h | ⟨h1, i, h2⟩
      · exact .inl h
      · refine .inr ⟨h1, i, ?_⟩
        simp only [pollSteps, hn, res_bind_ok]
        exact h2

theorem pollSteps_held (hs : Setting q start goal) (hl : Least q start goal opt) (hso : StraightOn q start goal opt) {heap : Heap (Ext ℝ)}
    (hmax : heap.Max) : ∀ (k : Nat) (inst inst' : Inst (Ext ℝ)) (r : Option (Option (Path (Ext ℝ)))), Kept q inst →
    Held q start goal opt inst.queue → pollSteps heap q.cfg q.mesh k inst = .ok (r, inst') →
    (∃ p, r = some (some p) ∧ FoundLeast q start goal opt p)
      ∨ (r = none ∧ Kept q inst' ∧ Held q start goal opt inst'.queue) := by
  intro k
  induction k with
  | zero =>
    intro inst inst' r hk hh h
    simp only [pollSteps, Except.ok.injEq, Prod.mk.injEq] at h
    obtain ⟨rfl, rfl⟩ := h
    exact .inr ⟨rfl, hk, hh⟩
  | succ k ih =>
    intro inst inst' r hk hh h
    simp only [pollSteps, bind_eq_ok] at h
    obtain ⟨⟨st, inst1⟩, hn, h⟩ := h
    rcases next_held hs hl hso hmax hk hh hn with ⟨p, rfl, hp⟩ | ⟨rfl, k1, k2⟩
    · simp only [Except.ok.injEq, Prod.mk.injEq] at h
      exact .inl ⟨p, h.1.symm, hp⟩
    · exact ih inst1 inst' r k1 k2 h

end Polyanya
