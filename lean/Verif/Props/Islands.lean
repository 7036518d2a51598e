import Verif.Proofs.Flood
import Verif.Props.Safety
/-
Properties C12 (baked islands do not change query results), C13 (baked islands are the connected
components) and C43 (validation by the constructors).
-/

namespace Polyanya

variable {K : Type} [Scalar K]

/-! ### C13 -/

/-- C13: on a consistent layer, island baking succeeds and labels every polygon; the labels of two polygons
are equal iff the polygons are connected through shared vertices; a label is the least index of a
polygon of its component; everything else in the layer is unchanged. -/
theorem C13_islands_are_components (l : Layer K) (hc : l.Consistent) :
    ∃ isl, l.bakeIslands = .ok { l with islands := some isl } ∧ isl.length = l.polygons.length
      ∧ (∀ a b la lb, isl[a]? = some la → isl[b]? = some lb → (la = lb ↔ Connected l a b))
      ∧ (∀ a la, isl[a]? = some la → Connected l a la ∧ ∀ b, Connected l a b → la ≤ b) := by
  obtain ⟨isl, h1, h2, h3⟩ := floodAll_spec hc (l.polygons.length + 1)
    (List.replicate l.polygons.length none)
    ⟨by simp, by intro k r h; unfold Lab at h; rw [List.getElem?_replicate] at h; split at h <;> simp at h,
      by intro k r h; unfold Lab at h; rw [List.getElem?_replicate] at h; split at h <;> simp at h⟩
    (by simp)
  have hlab : ∀ (a la : Nat), (isl.map (·.getD 0))[a]? = some la → Lab isl a la := by
    intro a la h
    rw [List.getElem?_map, Option.map_eq_some_iff] at h
    obtain ⟨x, hx, rfl⟩ := h
    cases x with
    | none => exact absurd (List.mem_of_getElem? hx) h3
    | some x => exact hx
  refine ⟨isl.map (·.getD 0), ?_, by simp [h2.len], ?_, ?_⟩
  · unfold Layer.bakeIslands
    rw [h1]
    rfl
  · intro a b la lb ha hb
    obtain ⟨ha1, ha2⟩ := h2.least a la (hlab a la ha)
    obtain ⟨hb1, hb2⟩ := h2.least b lb (hlab b lb hb)
    constructor
    · rintro rfl
      exact ha1.symm.trans hb1
    · intro hab
      exact Nat.le_antisymm (ha2 lb (hab.trans hb1.symm)) (hb2 la (hab.symm.trans ha1.symm))
  · intro a la ha
    obtain ⟨ha1, ha2⟩ := h2.least a la (hlab a la ha)
    exact ⟨ha1.symm, ha2⟩

/-- Consistency, decided by running through the layer (used for examples only). -/
def consistentCheck (l : Layer Rat) : Bool :=
  decide (l.polygons.length ≤ 2 ^ 24 - 1) && decide (l.vertices.length ≤ 2 ^ 32) &&
  l.polygons.zipIdx.all (fun pk => pk.1.vertices.all (fun v =>
    match l.vertices[v.toNat]? with
    | some vx => vx.polygons.contains (UInt32.ofNat pk.2)
    | none => false)) &&
  l.vertices.zipIdx.all (fun vk => vk.1.polygons.all (fun id => id == u32Max ||
    match l.polygons[id.toNat]? with
    | some p => p.vertices.contains (UInt32.ofNat vk.2)
    | none => false))

theorem consistent_of_check {l : Layer Rat} (h : consistentCheck l = true) : l.Consistent := by
  simp only [consistentCheck, Bool.and_eq_true, List.all_eq_true, decide_eq_true_eq, Bool.or_eq_true,
    beq_iff_eq] at h
  obtain ⟨⟨⟨h1, h2⟩, h3⟩, h4⟩ := h
  refine ⟨h1, ?_, ?_⟩
  · intro k p hk v hv
    have := h3 (p, k) (by rw [List.mem_zipIdx_iff_getElem?]; exact hk) v hv
    split at this
    · rename_i vx hvx
      exact ⟨vx, hvx, by simpa using this⟩
    · simp at this
  · intro v vx hv id hid hne
    have := (h4 (vx, v.toNat) (by rw [List.mem_zipIdx_iff_getElem?]; exact hv) id hid).resolve_left hne
    split at this
    · rename_i p hp
      exact ⟨p, hp, by simpa using this⟩
    · simp at this

/-- Two triangles that do not touch: the layer has two islands. -/
def twoIslands : Layer Rat := Layer.mk'
  [ Vertex.new (v2 0 0) [0, u32Max], Vertex.new (v2 1 0) [0, u32Max], Vertex.new (v2 0 1) [0, u32Max],
    Vertex.new (v2 5 0) [1, 2, u32Max], Vertex.new (v2 6 0) [1, u32Max], Vertex.new (v2 6 1) [1, 2, u32Max],
    Vertex.new (v2 5 1) [2, u32Max] ]
  [ Polygon.new [0, 1, 2] false, Polygon.new [3, 4, 5] false, Polygon.new [3, 5, 6] false ]

/-- Non-vacuity: a consistent layer with two islands, and its labels. -/
example : twoIslands.Consistent := consistent_of_check (by decide +kernel)
example : (match twoIslands.bakeIslands with | .ok l => l.islands | .error _ => none) = some [0, 1, 1] := by
  decide +kernel

/-! ### C12 -/

/-- The layer without island labels. -/
def Layer.noIslands (l : Layer K) : Layer K := { l with islands := none }

/-- The mesh without island labels. -/
def Mesh.noIslands (m : Mesh K) : Mesh K := { m with layers := m.layers.map Layer.noIslands }

omit [Scalar K] in
theorem idx_noIslands {β : Type} (ls : List (Layer K)) (i : Nat) (k : Layer K → Res β) :
    (idx (ls.map Layer.noIslands) i >>= k) = idx ls i >>= fun l => k l.noIslands := by
  unfold idx
  rw [List.getElem?_map]
  cases ls[i]? <;> rfl

theorem edgesBetween_noIslands (m : Mesh K) (n : SearchNode K) :
    edgesBetween m.noIslands n = edgesBetween m n := by
  unfold edgesBetween Mesh.noIslands
  simp only [idx_noIslands]
  rfl

theorem addNode_noIslands (cfg : Cfg) (m : Mesh K) :
    Inst.addNode cfg m.noIslands = Inst.addNode cfg m := by
  funext inst root o s e n
  unfold Inst.addNode newDistance newHeuristic Mesh.noIslands
  simp only [idx_noIslands]
  rfl

theorem expandOne_noIslands (cfg : Cfg) (m : Mesh K) (n : SearchNode K) :
    expandOne cfg m.noIslands n = expandOne cfg m n := by
  funext inst s
  unfold expandOne successorRoot
  simp only [addNode_noIslands]
  unfold Mesh.noIslands
  simp only [idx_noIslands]
  rfl

theorem successorsLoop_noIslands (cfg : Cfg) (m : Mesh K) : ∀ fuel visited n inst,
    successorsLoop cfg m.noIslands fuel visited n inst = successorsLoop cfg m fuel visited n inst := by
  intro fuel
  induction fuel with
  | zero => intros; rfl
  | succ fuel ih =>
    intro visited n inst
    simp only [successorsLoop, edgesBetween_noIslands, expandOne_noIslands, ih]

theorem detailedLength_noIslands (m : Mesh K) : ∀ ps acc cur,
    detailedLength m.noIslands acc cur ps = detailedLength m acc cur ps := by
  intro ps
  induction ps with
  | nil => intros; rfl
  | cons p ps ih =>
    intro acc cur
    simp only [detailedLength, ih]
    rw [show m.noIslands.layers = m.layers.map Layer.noIslands from rfl, idx_noIslands]
    rfl

theorem next_noIslands (heap : Heap K) (cfg : Cfg) (m : Mesh K) (inst : Inst K) :
    inst.next heap cfg m.noIslands = inst.next heap cfg m := by
  unfold Inst.next foundPath Inst.successors
  simp only [successorsLoop_noIslands, detailedLength_noIslands]

theorem searchLoop_noIslands (heap : Heap K) (cfg : Cfg) (m : Mesh K) : ∀ n inst ps,
    searchLoop heap cfg m.noIslands n inst ps = searchLoop heap cfg m n inst ps := by
  intro n
  induction n with
  | zero => intros; rfl
  | succ n ih =>
    intro inst ps
    simp only [searchLoop, next_noIslands, ih]

theorem setup_noIslands (cfg : Cfg) (m : Mesh K) (s e : Vec2 K × UInt32) (blocked : List UInt8) :
    Inst.setup cfg m.noIslands s e blocked = Inst.setup cfg m s e blocked := by
  have : ∀ l a, setupEdge cfg m.noIslands (Layer.noIslands l) s e a = setupEdge cfg m l s e a := by
    intro l a
    funext inst ed
    unfold setupEdge
    simp only [addNode_noIslands]
    unfold Mesh.noIslands
    simp only [idx_noIslands]
    rfl
  unfold Inst.setup
  rw [show m.noIslands.layers = m.layers.map Layer.noIslands from rfl, idx_noIslands]
  simp only [this]
  rfl

theorem pointInPolygon_noIslands (l : Layer K) (pt : Vec2 K) (p : Polygon) :
    l.noIslands.pointInPolygon pt p = l.pointInPolygon pt p := by
  have : ∀ es, l.noIslands.pointInEdges pt es = l.pointInEdges pt es := by
    intro es
    induction es with
    | nil => rfl
    | cons e es ih => simp only [Layer.pointInEdges, ih]; rfl
  unfold Layer.pointInPolygon
  simp only [this]

theorem locate_noIslands (bvh : Bvh K) (l : Layer K) (pt : Vec2 K) :
    l.noIslands.locate bvh pt = l.locate bvh pt := by
  have : ∀ ps i, l.noIslands.scanPolygons pt i ps = l.scanPolygons pt i ps := by
    intro ps
    induction ps with
    | nil => intro i; rfl
    | cons p ps ih => intro i; simp only [Layer.scanPolygons, ih, pointInPolygon_noIslands]
  unfold Layer.locate Layer.locationUnit Layer.locationUnitBaked
  simp only [this, pointInPolygon_noIslands]
  rfl

theorem getClosestPoint_noIslands (bvh : Bvh K) (m : Mesh K) (c : Coords K) :
    m.noIslands.getClosestPoint bvh c = m.getClosestPoint bvh c := by
  have hn : m.noIslands.numbered = m.numbered.map (fun il => (il.1, il.2.noIslands)) := by
    unfold Mesh.numbered Mesh.noIslands
    simp only [List.zipIdx_map, List.map_map]
    rfl
  have hff : ∀ {α β γ : Type} (f : β → Res (Option γ)) (g : α → β) (l : List α),
      findFirst f (l.map g) = findFirst (fun a => f (g a)) l := by
    intro α β γ f g l
    induction l with
    | nil => rfl
    | cons a l ih => simp only [List.map_cons, findFirst, ih]
  unfold Mesh.getClosestPoint Mesh.closestLoop closestInLayer Layer.closestInner
  split
  · rw [show m.noIslands.layers = m.layers.map Layer.noIslands from rfl, idx_noIslands]
    simp only [locate_noIslands]
    rfl
  · simp only [hn, hff, locate_noIslands]
    rfl

theorem endpointPolygon_noIslands (bvh : Bvh K) (m : Mesh K) (c : Coords K) :
    m.noIslands.endpointPolygon bvh c = m.endpointPolygon bvh c := by
  unfold Mesh.endpointPolygon
  rw [getClosestPoint_noIslands]

theorem pathBetween_noIslands (heap : Heap K) (cfg : Cfg) (m : Mesh K) (a b : Vec2 K) (s e : UInt32)
    (blocked : List UInt8) (h : m.islandsDiffer s e = .ok false) :
    m.noIslands.pathBetween heap cfg a b s e blocked = m.pathBetween heap cfg a b s e blocked := by
  have hl : m.noIslands.layers = m.layers.map Layer.noIslands := rfl
  have h' : m.noIslands.islandsDiffer s e = .ok false := by
    unfold Mesh.islandsDiffer at h ⊢
    rw [hl, idx_noIslands, List.length_map]
    split
    · rw [if_pos ‹_›] at h
      unfold idx at h ⊢
      split at h
      · rfl
      · simp at h
    · rfl
  unfold Mesh.pathBetween
  have hb : m.noIslands.stepBudget = m.stepBudget := by
    unfold Mesh.stepBudget
    rw [hl, List.map_map]
    rfl
  rw [h, h', setup_noIslands]
  simp only [searchLoop_noIslands, hb]

theorem corridor_connected {m : Mesh K} {l : Layer K} (hm : m.layers = [l]) (hc : l.Consistent)
    {s e : UInt32} {cs : List Crossing} (h : Corridor m s e cs) :
    Connected l (idPolygon s) (idPolygon e) := by
  induction h with
  | nil => exact .refl
  | @cons c e cs hv _ ih =>
    refine .head ?_ ih
    obtain ⟨l', p, va, vb, ⟨h1, h2⟩, h3, h4, h5, h6, h7, h8, h9⟩ := hv
    have hl' : l' = l := by
      rw [hm] at h1
      have := lt_of_getElem? h1
      simp only [List.length_singleton, Nat.lt_one_iff] at this
      rw [this] at h1
      simpa using h1.symm
    subst hl'
    obtain ⟨p', hp', hv'⟩ := hc.vertexPolygon c.a va h4 c.dst h6 h8
    have hlt := lt_of_getElem? hp'
    have hs := hc.sized
    have : idPolygon c.dst = c.dst.toNat := by
      unfold idPolygon; omega
    rw [this]
    exact ⟨p, p', c.a, h2, hp', (isEdge_mem h3).1, hv'⟩

/-- C12: on a single-layer mesh with consistent references, a path query returns the same result with and
without baked island information. (With `detailed-layers` the sort by length must not meet a NaN.) -/
theorem C12_islands_do_not_change_results [NanLaws K] (bvh : Bvh K) (heap : Heap K) (cfg : Cfg)
    (m baked : Mesh K) (l l' : Layer K) (src dst : Coords K) (blocked : List UInt8)
    (hm : m.layers = [l]) (hno : l.islands = none) (hc : l.Consistent)
    (hbake : l.bakeIslands = .ok l') (hbaked : baked = { m with layers := [l'] })
    (hb : bvh.InRange) (hwf : m.WF cfg) (hn : m.NoNan) (hs : src.WF m) (hd : dst.WF m)
    (hlen : cfg.detailed = true → ∀ s e p, Located m bvh src s → Located m bvh dst e →
      FoundBy ⟨cfg, m, (src.pos, s), (dst.pos, e), blocked⟩ p → Scalar.isNan p.length = false) :
    baked.pathOnLayers bvh heap cfg src dst blocked = m.pathOnLayers bvh heap cfg src dst blocked := by
  obtain ⟨isl, h1, h2, h3, -⟩ := C13_islands_are_components l hc
  rw [hbake] at h1
  simp only [Except.ok.injEq] at h1
  have hmm : baked.noIslands = m := by
    rw [hbaked, h1]
    unfold Mesh.noIslands Layer.noIslands
    cases m
    cases l
    simp only at hm hno
    subst hm hno
    rfl
  have hep : ∀ c, baked.endpointPolygon bvh c = m.endpointPolygon bvh c := by
    intro c
    rw [← endpointPolygon_noIslands, hmm]
  unfold Mesh.pathOnLayers
  rw [hep src]
  cases hs' : m.endpointPolygon bvh src with
  | error e => rw [res_bind_error, res_bind_error]
  | ok s =>
    cases s with
    | none => rw [res_bind_ok, res_bind_ok]
    | some s =>
      simp only [res_bind_ok, hep dst]
      cases he' : m.endpointPolygon bvh dst with
      | error e => rw [res_bind_error, res_bind_error]
      | ok e =>
        cases e with
        | none => rw [res_bind_ok, res_bind_ok]
        | some e =>
          simp only [res_bind_ok]
          have hex : ∀ id, Exists m id → layerOf id = 0 ∧ idPolygon id < isl.length := by
            rintro id ⟨l1, p, g1, g2⟩
            rw [hm] at g1
            have hlt := lt_of_getElem? g1
            simp only [List.length_singleton, Nat.lt_one_iff] at hlt
            rw [hlt] at g1
            simp only [List.getElem?_cons_zero, Option.some.injEq] at g1
            subst g1
            refine ⟨?_, by rw [h2]; exact lt_of_getElem? g2⟩
            rw [← UInt8.toNat_inj, layerOf_toNat, hlt]
            rfl
          have hes := located_hasPolygon hwf hs (endpointPolygon_located.1 hs')
          have hee := located_hasPolygon hwf hd (endpointPolygon_located.1 he')
          obtain ⟨s1, s2⟩ := hex s hes
          obtain ⟨e1, e2⟩ := hex e hee
          have hdiff : baked.islandsDiffer s e = .ok (isl[idPolygon s] ≠ isl[idPolygon e]) := by
            unfold Mesh.islandsDiffer
            rw [hbaked, h1]
            simp only [List.length_singleton, if_true, s1, polygonOf_toNat]
            simp only [idx, UInt8.toNat_zero, List.getElem?_cons_zero, res_bind_ok,
              List.getElem?_eq_getElem s2, List.getElem?_eq_getElem e2]
          by_cases heq : isl[idPolygon s] = isl[idPolygon e]
          · rw [← pathBetween_noIslands heap cfg baked _ _ s e blocked (by rw [hdiff, heq]; simp), hmm]
          · have hncon : ¬ Connected l (idPolygon s) (idPolygon e) := fun hcon =>
              heq ((h3 _ _ _ _ (List.getElem?_eq_getElem s2) (List.getElem?_eq_getElem e2)).2 hcon)
            have hnone : baked.pathBetween heap cfg src.pos dst.pos s e blocked = .ok none := by
              unfold Mesh.pathBetween
              rw [hdiff]
              simp [heq]
            rw [hnone]
            obtain ⟨r, hr⟩ := (safe_pathBetween (heap := heap) hwf hn src.pos dst.pos hes hee blocked
              (fun h p => hlen h s e p (endpointPolygon_located.1 hs') (endpointPolygon_located.1 he'))).ex
            rw [hr]
            cases r with
            | none => rfl
            | some p =>
              exfalso
              rcases pathBetween_some hr with ⟨rfl, -⟩ | ⟨-, hf⟩
              · exact hncon .refl
              · have hsz : m.Sized := fun l1 hl1 => (hwf.layer l1 hl1).sized
                have hne := located_ne_max hsz (endpointPolygon_located.1 he')
                obtain ⟨cs, hR, -⟩ := foundBy_realises hne hf
                exact hncon (corridor_connected hm hc hR.corridor)

def twoIslandsMesh : Mesh Rat := Mesh.ofLayers [twoIslands]

/-- Non-vacuity: on the mesh with two islands, queries give the same answer before and after baking. -/
example (a b : Vec2 Rat) (l' : Layer Rat) (h : twoIslands.bakeIslands = .ok l') :
    (Mesh.ofLayers [l']).path allBvh ratHeap ⟨false⟩ (Coords.onMesh a) (Coords.onMesh b) =
      twoIslandsMesh.path allBvh ratHeap ⟨false⟩ (Coords.onMesh a) (Coords.onMesh b) :=
  C12_islands_do_not_change_results _ _ _ twoIslandsMesh _ twoIslands l' _ _ _ rfl rfl
    (consistent_of_check (by decide +kernel)) h rfl allBvh_inRange (wf_of_check (by decide +kernel) _)
    ⟨fun _ _ _ _ _ _ _ _ => rfl⟩ ⟨by simp [Coords.onMesh], by simp [Coords.onMesh]⟩
    ⟨by simp [Coords.onMesh], by simp [Coords.onMesh]⟩ (fun h => by simp at h)

/-! ### C43 -/

/-- C43: `Layer::new` fails with `EmptyMesh` exactly for empty input, with `TooManyPolygons` exactly when
there are more than `2^24 - 1` polygons, and never with another error. -/
theorem C43_layer_new_errors (vs : List (Vertex K)) (ps : List Polygon) :
    (Layer.new vs ps = .ok (.error .emptyMesh) ↔ vs = [] ∨ ps = []) ∧
    (Layer.new vs ps = .ok (.error .tooManyPolygons) ↔
      vs ≠ [] ∧ ps ≠ [] ∧ ps.length > 2 ^ 24 - 1) ∧
    Layer.new vs ps ≠ .ok (.error .invalidMesh) := by
  unfold Layer.new
  by_cases h1 : vs = [] ∨ ps = []
  · have : (vs.isEmpty || ps.isEmpty) = true := by simpa using h1
    rw [if_pos this]
    refine ⟨by simp [h1], ?_, by simp⟩
    simp only [Except.ok.injEq, Except.error.injEq, reduceCtorEq, false_iff]
    rintro ⟨h2, h3, -⟩
    exact h1.elim h2 h3
  · have : ¬ (vs.isEmpty || ps.isEmpty) = true := by simpa using h1
    rw [if_neg this]
    have hv : vs ≠ [] ∧ ps ≠ [] := by
      constructor
      · intro h; exact h1 (.inl h)
      · intro h; exact h1 (.inr h)
    split
    · rename_i h2
      refine ⟨by simp [hv], by simp [hv, h2], by simp⟩
    · rename_i h2
      have : ∀ e : MeshError, ((Layer.mk' vs ps : Layer K).bake >>= fun l =>
          (Except.ok (Except.ok l) : Res (Except MeshError (Layer K)))) ≠ .ok (.error e) := by
        intro e
        cases (Layer.mk' vs ps : Layer K).bake <;> simp
      refine ⟨?_, ?_, this _⟩
      · simp only [this, hv.1, hv.2, or_self]
      · simp only [this, h2, and_false]

/-- C43: a layer that is constructed has exactly the given vertices and polygons, zero offset and unit
scale, and is baked. -/
theorem C43_layer_new_keeps (vs : List (Vertex K)) (ps : List Polygon) (l : Layer K)
    (h : Layer.new vs ps = .ok (.ok l)) :
    l.vertices = vs ∧ l.polygons = ps ∧ l.offset = ⟨Scalar.lit 0 0, Scalar.lit 0 0⟩
      ∧ l.scale = ⟨Scalar.lit 1 0, Scalar.lit 1 0⟩ ∧ l.baked.isSome ∧ l.islands.isSome
      ∧ vs ≠ [] ∧ ps ≠ [] ∧ ps.length ≤ 2 ^ 24 - 1 := by
  unfold Layer.new at h
  split at h
  · simp at h
  · rename_i hne
    split at h
    · simp at h
    · rename_i hsz
      rw [bind_eq_ok] at h
      obtain ⟨l1, h1, h2⟩ := h
      simp only [Except.ok.injEq] at h2
      subst h2
      unfold Layer.bake Layer.bakeIslands at h1
      rw [bind_eq_ok] at h1
      obtain ⟨isl, -, h2⟩ := h1
      simp only [Except.ok.injEq] at h2
      subst h2
      have : vs ≠ [] ∧ ps ≠ [] := by simpa using hne
      exact ⟨rfl, rfl, rfl, rfl, rfl, rfl, this.1, this.2, by omega⟩

/-- C43: given non-empty input of admissible size whose references are consistent, construction succeeds. -/
theorem C43_layer_new_succeeds (vs : List (Vertex K)) (ps : List Polygon) (hv : vs ≠ []) (hp : ps ≠ [])
    (hc : (Layer.mk' vs ps : Layer K).Consistent) : ∃ l, Layer.new vs ps = .ok (.ok l) := by
  unfold Layer.new
  have hsz := hc.sized
  have h2 : ps.length ≤ 2 ^ 24 - 1 := hsz
  rw [if_neg (by simp [hv, hp]), if_neg (by omega)]
  have hc' : ((Layer.mk' vs ps : Layer K).bakePolygonFinder).Consistent :=
    ⟨hc.sized, hc.polygonVertex, hc.vertexPolygon⟩
  obtain ⟨isl, h, -⟩ := C13_islands_are_components _ hc'
  unfold Layer.bake
  rw [h]
  exact ⟨_, rfl⟩

/-- C43: `Mesh::new` fails exactly like `Layer::new`, and otherwise gives the mesh with that single layer,
search distance 0.1 and 2 search steps. -/
theorem C43_mesh_new (vs : List (Vertex K)) (ps : List Polygon) :
    (∀ e, Mesh.new vs ps = .ok (.error e) ↔ Layer.new vs ps = .ok (.error e)) ∧
    (∀ m, Mesh.new vs ps = .ok (.ok m) ↔ ∃ l, Layer.new vs ps = .ok (.ok l) ∧
      m = { layers := [l], searchDelta := Scalar.lit 1 1, searchSteps := 2 }) := by
  unfold Mesh.new
  cases Layer.new vs ps with
  | error e => simp
  | ok r =>
    cases r with
    | error e => simp
    | ok l => simp [Mesh.ofLayers, eq_comm]

/-- Non-vacuity: the example layer is accepted. -/
example : ∃ l, Layer.new exVertices exPolygons = .ok (.ok l) :=
  C43_layer_new_succeeds _ _ (by simp [exVertices]) (by simp [exPolygons])
    (consistent_of_check (l := exLayer) (by decide +kernel))

end Polyanya
