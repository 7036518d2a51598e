import Verif.Proofs.Res
/-
Which search nodes a query can create: every node in the queue is generated (`Gen`) from the start
polygon by a chain of legal expansions. All properties of returned paths are proved by induction on `Gen`.
-/

namespace Polyanya

variable {K : Type} [Scalar K]

/-- The parameters of a query that do not change during the search. -/
structure Query (K : Type) where
  cfg : Cfg
  mesh : Mesh K
  src : Vec2 K × UInt32
  dst : Vec2 K × UInt32
  blocked : List UInt8

/-- The node `add_node` builds. -/
def mkNode (cfg : Cfg) (root : Vec2 K) (otherSide : UInt32) (start stop : Vec2 K × UInt32)
    (node : SearchNode K) (newF h : K) : SearchNode K :=
  { path := if root.beq node.root then node.path else node.path ++ [root]
    pathWithLayers := newPathWithLayers cfg root otherSide start.1 stop.1 node
    root := root
    interval := (start.1, stop.1)
    edge := (start.2, stop.2)
    polygonFrom := node.polygonTo
    polygonTo := otherSide
    previousPolygonLayer := layerOf node.polygonTo
    distanceStartToRoot := newF
    heuristic := h }

/-- What `add_node` may add to the buffer. -/
structure Added (q : Query K) (root : Vec2 K) (otherSide : UInt32) (start stop : Vec2 K × UInt32)
    (node n : SearchNode K) : Prop where
  ex : ∃ newF h, newDistance q.cfg q.mesh root node = .ok newF
    ∧ newHeuristic q.cfg q.mesh q.dst.1 root start stop = .ok h
    ∧ Scalar.isNan newF = false ∧ Scalar.isNan h = false
    ∧ n = mkNode q.cfg root otherSide start stop node newF h

/-- The polygon with this id exists and is not a dead end. -/
def Open (m : Mesh K) (id : UInt32) : Prop :=
  ∃ l p, m.layers[(layerOf id).toNat]? = some l ∧ l.polygons[(polygonOf id).toNat]? = some p
    ∧ p.isOneWay = false

/-- Nodes created by `setup`. -/
structure SetupNode (q : Query K) (n : SearchNode K) : Prop where
  ex : ∃ layer poly edges edge start stop,
    q.mesh.layers[(layerOf q.src.2).toNat]? = some layer
    ∧ layer.polygons[(polygonOf q.src.2).toNat]? = some poly
    ∧ poly.edgesIndex = .ok edges ∧ edge ∈ edges
    ∧ layer.vertices[edge.1.toNat]? = some start ∧ layer.vertices[edge.2.toNat]? = some stop
    ∧ q.blocked.contains (layerOf (otherSideOf start stop q.src.2)) = false
    ∧ (otherSideOf start stop q.src.2 = q.dst.2 ∨
        (otherSideOf start stop q.src.2 ≠ u32Max ∧ Open q.mesh (otherSideOf start stop q.src.2)))
    ∧ Added q q.src.1 (otherSideOf start stop q.src.2) (start.coords + layer.offset, edge.1)
        (stop.coords + layer.offset, edge.2) (emptyNode q.src) n

/-- Nodes created by expanding `node`. -/
structure ChildNode (q : Query K) (node n : SearchNode K) : Prop where
  ex : ∃ layer succs s start stop root,
    node.polygonTo ≠ q.dst.2
    ∧ q.mesh.layers[(layerOf node.polygonTo).toNat]? = some layer
    ∧ edgesBetween q.mesh node = .ok succs ∧ s ∈ succs
    ∧ layer.vertices[s.edge.1.toNat]? = some start ∧ layer.vertices[s.edge.2.toNat]? = some stop
    ∧ otherSideOf start stop node.polygonTo ≠ u32Max
    ∧ q.blocked.contains (layerOf (otherSideOf start stop node.polygonTo)) = false
    ∧ (otherSideOf start stop node.polygonTo = q.dst.2 ∨
        Open q.mesh (otherSideOf start stop node.polygonTo))
    ∧ node.polygonFrom ≠ otherSideOf start stop node.polygonTo
    ∧ successorRoot q.mesh q.blocked node layer start stop s = .ok (some root)
    ∧ (s.interval.1.distanceSquared s.interval.2 <. tol10) = false
    ∧ Added q root (otherSideOf start stop node.polygonTo) (s.interval.1, s.edge.1)
        (s.interval.2, s.edge.2) node n

/-- The nodes a query can create. -/
inductive Gen (q : Query K) : SearchNode K → Prop where
  | setup {n : SearchNode K} : SetupNode q n → Gen q n
  | child {node n : SearchNode K} : Gen q node → ChildNode q node n → Gen q n

/-- The instance belongs to the query, and its nodes are generated. -/
structure InstOk (q : Query K) (inst : Inst K) : Prop where
  start : inst.start = (q.src.1, layerOf q.src.2)
  goal : inst.goal = q.dst.1
  polygonTo : inst.polygonTo = q.dst.2
  blocked : inst.blocked = q.blocked
  queue : ∀ n ∈ inst.queue, Gen q n
  buffer : ∀ n ∈ inst.nodeBuffer, Gen q n

theorem addNode_cases {q : Query K} {inst inst' : Inst K} {root : Vec2 K} {otherSide : UInt32}
    {start stop : Vec2 K × UInt32} {node : SearchNode K} (hg : inst.goal = q.dst.1)
    (h : inst.addNode q.cfg q.mesh root otherSide start stop node = .ok inst') :
    inst' = inst ∨ ∃ n hist, Added q root otherSide start stop node n ∧
      inst' = { inst with rootHistory := hist, nodeBuffer := inst.nodeBuffer ++ [n] } := by
  unfold Inst.addNode at h
  simp only [bind_eq_ok] at h
  obtain ⟨newF, h1, hh, h2, h⟩ := h
  rw [hg] at h2
  split at h
  · left; simp_all
  · rename_i hn
    simp only [Bool.or_eq_true, not_or, Bool.not_eq_true] at hn
    have hA : Added q root otherSide start stop node
        (mkNode q.cfg root otherSide start stop node newF hh) :=
      ⟨newF, hh, h1, h2, hn.1, hn.2, rfl⟩
    split at h
    · split at h
      · left; simp_all
      · right
        refine ⟨_, histSet inst.rootHistory root newF, hA, ?_⟩
        simp only [Except.ok.injEq] at h
        exact h.symm
    · right
      refine ⟨_, histSet inst.rootHistory root newF, hA, ?_⟩
      simp only [Except.ok.injEq] at h
      exact h.symm

theorem addNode_ok {q : Query K} {inst inst' : Inst K} {root : Vec2 K} {otherSide : UInt32}
    {start stop : Vec2 K × UInt32} {node : SearchNode K} (hi : InstOk q inst)
    (hgen : ∀ n, Added q root otherSide start stop node n → Gen q n)
    (h : inst.addNode q.cfg q.mesh root otherSide start stop node = .ok inst') : InstOk q inst' := by
  rcases addNode_cases hi.goal h with rfl | ⟨n, hist, hA, rfl⟩
  · exact hi
  · have hb : ∀ m ∈ inst.nodeBuffer ++ [n], Gen q m := by
      intro m hm
      rcases List.mem_append.1 hm with hm | hm
      · exact hi.buffer m hm
      · rw [List.mem_singleton.1 hm]; exact hgen n hA
    exact { hi with buffer := hb }

theorem flushNodes_ok {q : Query K} {inst : Inst K} (hi : InstOk q inst) :
    InstOk q inst.flushNodes :=
  { hi with
    queue := by
      intro m hm
      rcases List.mem_append.1 hm with hm | hm
      · exact hi.queue m hm
      · exact hi.buffer m hm
    buffer := by intro m hm; simp [Inst.flushNodes] at hm }

theorem setupEdge_ok {q : Query K} {layer : Layer K} {poly : Polygon}
    {edges : List (UInt32 × UInt32)} {edge : UInt32 × UInt32} {inst inst' : Inst K}
    (hl : q.mesh.layers[(layerOf q.src.2).toNat]? = some layer)
    (hp : layer.polygons[(polygonOf q.src.2).toNat]? = some poly)
    (he : poly.edgesIndex = .ok edges) (hm : edge ∈ edges) (hi : InstOk q inst)
    (h : setupEdge q.cfg q.mesh layer q.src q.dst (emptyNode q.src) inst edge = .ok inst') :
    InstOk q inst' := by
  unfold setupEdge at h
  split at h
  · rename_i start stop h0 h1
    simp only at h
    split at h
    · simp only [Except.ok.injEq] at h; exact h ▸ hi
    · rename_i hb
      rw [hi.blocked] at hb
      rw [bind_eq_ok] at h
      obtain ⟨go, hgo, h⟩ := h
      split at h
      · rename_i hgt
        refine addNode_ok hi (fun n hA => Gen.setup ⟨layer, poly, edges, edge, start, stop, hl, hp, he,
          hm, h0, h1, by simpa using hb, ?_, hA⟩) h
        split at hgo
        · left; assumption
        · split at hgo
          · simp_all
          · right
            refine ⟨by assumption, ?_⟩
            simp only [bind_eq_ok, idx_eq_ok] at hgo
            obtain ⟨l, hl', p, hp', hgo⟩ := hgo
            refine ⟨l, p, hl', hp', ?_⟩
            subst hgt
            simpa using hgo
      · simp only [Except.ok.injEq] at h; exact h ▸ hi
  · simp only [Except.ok.injEq] at h; exact h ▸ hi

theorem setup_ok {q : Query K} {inst : Inst K}
    (h : Inst.setup q.cfg q.mesh q.src q.dst q.blocked = .ok inst) : InstOk q inst := by
  unfold Inst.setup at h
  simp only [bind_eq_ok, idx_eq_ok] at h
  obtain ⟨layer, hl, poly, hp, edges, he, inst', hf, h⟩ := h
  simp only [Except.ok.injEq] at h
  subst h
  apply flushNodes_ok
  refine foldlM_inv (InstOk q) ?_ ?_ hf
  · exact { start := rfl, goal := rfl, polygonTo := rfl, blocked := rfl,
            queue := by simp, buffer := by simp }
  · intro s a s' ha hs hstep
    exact setupEdge_ok hl hp he ha hs hstep

theorem expandOne_ok {q : Query K} {node : SearchNode K} {succs : List (Successor K)}
    {s : Successor K} {inst inst' : Inst K} (hn : Gen q node) (hnd : node.polygonTo ≠ q.dst.2)
    (he : edgesBetween q.mesh node = .ok succs) (hs : s ∈ succs) (hi : InstOk q inst)
    (h : expandOne q.cfg q.mesh node inst s = .ok inst') : InstOk q inst' := by
  unfold expandOne at h
  simp only [bind_eq_ok, idx_eq_ok, idxUnchecked_eq_ok] at h
  obtain ⟨layer, hl, start, h0, stop, h1, h⟩ := h
  split at h
  · simp only [Except.ok.injEq] at h; exact h ▸ hi
  rename_i hmax
  split at h
  · simp only [Except.ok.injEq] at h; exact h ▸ hi
  rename_i hb
  rw [bind_eq_ok] at h
  obtain ⟨dead, hd, h⟩ := h
  split at h
  · simp only [Except.ok.injEq] at h; exact h ▸ hi
  rename_i hdead
  split at h
  · simp only [Except.ok.injEq] at h; exact h ▸ hi
  rename_i hfrom
  rw [bind_eq_ok] at h
  obtain ⟨root?, hr, h⟩ := h
  cases root? with
  | none => simp only [Except.ok.injEq] at h; exact h ▸ hi
  | some root =>
    simp only at h
    split at h
    · simp only [Except.ok.injEq] at h; exact h ▸ hi
    rename_i htiny
    rw [hi.blocked] at hb hr
    refine addNode_ok hi (fun n hA => Gen.child hn ⟨layer, succs, s, start, stop, root, hnd, hl, he, hs, h0,
      h1, hmax, by simpa using hb, ?_, hfrom, hr, by simpa using htiny, hA⟩) h
    split at hd
    · right
      simp only [bind_eq_ok, idx_eq_ok, Except.ok.injEq] at hd
      obtain ⟨l, hl', p, hp', hd⟩ := hd
      refine ⟨l, p, hl', hp', ?_⟩
      rw [hd]; simpa using hdead
    · left
      rename_i hne
      rw [← hi.polygonTo]
      exact (Decidable.not_not.1 hne).symm

theorem successorsLoop_ok {q : Query K} : ∀ (fuel : Nat) (visited : List UInt32)
    (node : SearchNode K) (inst inst' : Inst K), Gen q node → node.polygonTo ≠ q.dst.2 → InstOk q inst →
    successorsLoop q.cfg q.mesh fuel visited node inst = .ok inst' → InstOk q inst' := by
  intro fuel
  induction fuel with
  | zero => intro _ _ _ _ _ _ _ h; simp [successorsLoop] at h
  | succ fuel ih =>
    intro visited node inst inst' hn hnd hi h
    simp only [successorsLoop, bind_eq_ok] at h
    obtain ⟨succs, he, inst1, hf, h⟩ := h
    have h1 : InstOk q inst1 :=
      foldlM_inv (InstOk q) hi (fun s a s' ha hs hst => expandOne_ok hn hnd he ha hs hst) hf
    split at h
    · rename_i next hb
      have hnext : Gen q next := h1.buffer next (by simp [hb])
      have h2 : InstOk q { inst1 with nodeBuffer := [] } := { h1 with buffer := by simp }
      split at h
      · rename_i hne
        rw [h1.polygonTo] at hne
        split at h
        · simp only [Except.ok.injEq] at h; exact h ▸ h2
        · split at h
          · simp only [Except.ok.injEq] at h; exact h ▸ h2
          · exact ih _ _ _ _ hnext hne h2 h
      · simp only [Except.ok.injEq] at h; exact h ▸ h1
    · simp only [Except.ok.injEq] at h; exact h ▸ h1

theorem successors_ok {q : Query K} {node : SearchNode K} {inst inst' : Inst K} (hn : Gen q node)
    (hnd : node.polygonTo ≠ q.dst.2) (hi : InstOk q inst) (h : inst.successors q.cfg q.mesh node = .ok inst') : InstOk q inst' := by
  unfold Inst.successors at h
  simp only [bind_eq_ok] at h
  obtain ⟨i, h1, h⟩ := h
  simp only [Except.ok.injEq] at h
  subst h
  exact flushNodes_ok (successorsLoop_ok _ _ _ _ _ hn hnd hi h1)

/-- A path found by the search comes from a generated node that enters the target polygon. -/
def FoundBy (q : Query K) (p : Path K) : Prop :=
  ∃ inst n, InstOk q inst ∧ Gen q n ∧ n.polygonTo = q.dst.2 ∧ foundPath q.cfg q.mesh inst n = .ok p

theorem next_ok {q : Query K} {heap : Heap K} {inst inst' : Inst K} {st : Step K}
    (hi : InstOk q inst) (h : inst.next heap q.cfg q.mesh = .ok (st, inst')) :
    InstOk q inst' ∧ ∀ p, st = .found p → FoundBy q p := by
  unfold Inst.next at h
  split at h
  · simp only [Except.ok.injEq, Prod.mk.injEq] at h
    obtain ⟨rfl, rfl⟩ := h
    exact ⟨hi, by simp⟩
  · rename_i next rest hp
    have hperm := heap.pop_perm _ _ _ hp
    have hn : Gen q next := hi.queue next (hperm.subset (List.mem_cons_self ..))
    have hi' : InstOk q { inst with queue := rest } :=
      { hi with queue := fun n hn => hi.queue n (hperm.subset (List.mem_cons_of_mem _ hn)) }
    simp only at h
    split at h
    · simp only [Except.ok.injEq, Prod.mk.injEq] at h
      obtain ⟨rfl, rfl⟩ := h
      exact ⟨hi', by simp⟩
    · split at h
      · rename_i hto
        simp only [bind_eq_ok, Except.ok.injEq, Prod.mk.injEq] at h
        obtain ⟨p, hfp, rfl, rfl⟩ := h
        refine ⟨hi', ?_⟩
        intro p' hp'
        cases hp'
        exact ⟨_, next, hi', hn, hto.trans hi.polygonTo, hfp⟩
      · rename_i hto
        simp only [bind_eq_ok, Except.ok.injEq, Prod.mk.injEq] at h
        obtain ⟨i, hs, rfl, rfl⟩ := h
        exact ⟨successors_ok hn (by rw [← hi.polygonTo]; exact hto) hi' hs, by simp⟩

theorem searchLoop_ok {q : Query K} {heap : Heap K} : ∀ (n : Nat) (inst : Inst K)
    (paths : List (Path K)) (r : Path K ⊕ List (Path K)), InstOk q inst →
    (∀ p ∈ paths, FoundBy q p) → searchLoop heap q.cfg q.mesh n inst paths = .ok r →
    (∀ p, r = .inl p → FoundBy q p) ∧ (∀ l, r = .inr l → ∀ p ∈ l, FoundBy q p) := by
  intro n
  induction n with
  | zero =>
    intro inst paths r hi hp h
    simp only [searchLoop, Except.ok.injEq] at h
    subst h
    exact ⟨by simp, by intro l hl; cases hl; exact hp⟩
  | succ n ih =>
    intro inst paths r hi hp h
    simp only [searchLoop, bind_eq_ok] at h
    obtain ⟨⟨st, inst'⟩, hn, h⟩ := h
    obtain ⟨hi', hf⟩ := next_ok hi hn
    cases st with
    | found p =>
      simp only at h
      split at h
      · refine ih _ _ _ hi' ?_ h
        intro p' hp'
        rcases List.mem_append.1 hp' with hp' | hp'
        · exact hp p' hp'
        · rw [List.mem_singleton.1 hp']; exact hf p rfl
      · simp only [Except.ok.injEq] at h
        subst h
        exact ⟨by intro p' hp'; cases hp'; exact hf p rfl, by simp⟩
    | notFound =>
      simp only at h
      split at h
      · exact ih _ _ _ hi' (by simp) h
      · refine ih _ _ _ hi' ?_ h
        intro p' hp'
        apply hp
        split at hp'
        · rcases List.mem_append.1 hp' with h | h
          · exact List.mem_cons_of_mem _ h
          · rw [List.mem_singleton.1 h]; exact List.mem_cons_self ..
        · exact List.mem_cons_of_mem _ hp'
    | «continue» => exact ih _ _ _ hi' hp h

/-- The cases of a successful path query between known polygons. -/
theorem pathBetween_some {heap : Heap K} {cfg : Cfg} {m : Mesh K} {src dst : Vec2 K} {s e : UInt32}
    {blocked : List UInt8} {p : Path K}
    (h : m.pathBetween heap cfg src dst s e blocked = .ok (some p)) :
    (s = e ∧ p = { length := src.distance dst, path := [dst],
                   pathWithLayers := if cfg.detailed then [(dst, layerOf e)] else [] })
    ∨ (s ≠ e ∧ FoundBy ⟨cfg, m, (src, s), (dst, e), blocked⟩ p) := by
  unfold Mesh.pathBetween at h
  simp only [bind_eq_ok] at h
  obtain ⟨b, -, h⟩ := h
  split at h
  · simp at h
  · split at h
    · rename_i hse
      simp only [Except.ok.injEq, Option.some.injEq] at h
      exact .inl ⟨hse, h.symm⟩
    · rename_i hse
      simp only [bind_eq_ok] at h
      obtain ⟨inst, hs, r, hl, h⟩ := h
      have hi := setup_ok (q := ⟨cfg, m, (src, s), (dst, e), blocked⟩) hs
      obtain ⟨h1, h2⟩ := searchLoop_ok (q := ⟨cfg, m, (src, s), (dst, e), blocked⟩) _ _ _ _ hi
        (by simp) hl
      refine .inr ⟨hse, ?_⟩
      cases r with
      | inl p' =>
        simp only [Except.ok.injEq, Option.some.injEq] at h
        exact h ▸ h1 p' rfl
      | inr l =>
        simp only [pickPath] at h
        split at h
        · split at h
          · simp at h
          · simp only [Except.ok.injEq] at h
            have := List.mem_of_head? h
            exact h2 l rfl p ((List.mergeSort_perm l _).subset this)
        · simp only [Except.ok.injEq] at h
          exact h2 l rfl p (List.mem_of_head? h)

theorem pathOnLayers_some {bvh : Bvh K} {heap : Heap K} {cfg : Cfg} {m : Mesh K} {src dst : Coords K}
    {blocked : List UInt8} {p : Path K}
    (h : m.pathOnLayers bvh heap cfg src dst blocked = .ok (some p)) :
    ∃ s e, m.endpointPolygon bvh src = .ok (some s) ∧ m.endpointPolygon bvh dst = .ok (some e)
      ∧ m.pathBetween heap cfg src.pos dst.pos s e blocked = .ok (some p) := by
  unfold Mesh.pathOnLayers at h
  simp only [bind_eq_ok] at h
  obtain ⟨s?, hs, h⟩ := h
  cases s? with
  | none => simp at h
  | some s =>
    simp only [bind_eq_ok] at h
    obtain ⟨e?, he, h⟩ := h
    cases e? with
    | none => simp at h
    | some e => exact ⟨s, e, hs, he, h⟩

end Polyanya
