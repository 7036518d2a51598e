import Verif.Proofs.AlikeLoc
import Verif.Props.Cleanup
import Verif.Props.Paths
import Verif.Spec.RatScalar
/-
C62: answers do not depend on how the vertices of a layer are numbered, nor on vertices that are in no polygon;
removing useless vertices does not change any answer.
-/

namespace Polyanya

set_option linter.unusedSectionVars false

variable {K : Type} [Scalar K] {m m' : Mesh K}

/-- C62: path queries give the same answer in meshes that differ in the numbering of their vertices: the same path,
no path in both, or the same fault in both. The heap may break ties between nodes by costs and positions in the
queue, but not by vertex numbers (the comparison of the code looks at costs only). -/
theorem C62_path (bvh : Bvh K) {heap : Heap K} (hh : heap.ByCost) (cfg : Cfg) (h : SameMesh m m')
    (hd : cfg.detailed = true → m.SmallNumbers ∧ m'.SmallNumbers) (src dst : Coords K) (blocked : List UInt8) :
    m'.pathOnLayers bvh heap cfg src dst blocked = m.pathOnLayers bvh heap cfg src dst blocked := by
  unfold Mesh.pathOnLayers Mesh.endpointPolygon
  simp only [getClosestPoint_alike bvh h, pathBetween_alike hh (h.alike hd)]

/-- C62: point location and the searches for a close point do not depend on the numbering. -/
theorem C62_location (bvh : Bvh K) (h : SameMesh m m') (c : Coords K) (towards : Vec2 K) :
    m'.getPointLocation bvh c = m.getPointLocation bvh c ∧
      m'.getPointLocations bvh c = m.getPointLocations bvh c ∧
      m'.pointInMesh bvh c = m.pointInMesh bvh c ∧
      m'.getPointLayer bvh c = m.getPointLayer bvh c ∧
      m'.getClosestPoint bvh c = m.getClosestPoint bvh c ∧
      m'.getClosestPointTowards bvh c towards = m.getClosestPointTowards bvh c towards := by
  refine ⟨getPointLocation_alike bvh h c, getPointLocations_alike bvh h c, ?_, ?_, getClosestPoint_alike bvh h c,
    getClosestPointTowards_alike bvh h c towards⟩
  · unfold Mesh.pointInMesh
    rw [getPointLocation_alike bvh h]
  · unfold Mesh.getPointLayer
    rw [getPointLocations_alike bvh h]

theorem resolves_alike (bvh : Bvh K) {heap : Heap K} (hh : heap.ByCost) {cfg : Cfg} (h : SameMesh m m')
    (hm : MeshAlike cfg m m') {f f' : FuturePath K} (hf : FutureAlike cfg m m' f f') {r : Option (Path K)}
    (hr : Resolves bvh heap cfg m f r) : Resolves bvh heap cfg m' f' r := by
  induction hr generalizing f' with
  | @ready f g r hp =>
    have := poll_alike bvh hh h hm hf
    rw [hp] at this
    cases hq : f'.poll bvh heap cfg m' with
    | error e => rw [hq] at this; cases this
    | ok x =>
      rw [hq] at this
      obtain ⟨p, g'⟩ := x
      cases this with
      | ok h => obtain ⟨h1, -⟩ := h; simp only at h1; subst h1; exact .ready hq
  | @pending f g w r hp _ ih =>
    have := poll_alike bvh hh h hm hf
    rw [hp] at this
    cases hq : f'.poll bvh heap cfg m' with
    | error e => rw [hq] at this; cases this
    | ok x =>
      rw [hq] at this
      obtain ⟨p, g'⟩ := x
      cases this with
      | ok h => obtain ⟨h1, h2⟩ := h; simp only at h1; subst h1; exact .pending hq (ih h2)

theorem resolves_alike' (bvh : Bvh K) {heap : Heap K} (hh : heap.ByCost) {cfg : Cfg} (h : SameMesh m m')
    (hm : MeshAlike cfg m m') {f f' : FuturePath K} (hf : FutureAlike cfg m m' f f') {r : Option (Path K)}
    (hr : Resolves bvh heap cfg m' f' r) : Resolves bvh heap cfg m f r := by
  induction hr generalizing f with
  | @ready f' g r hp =>
    have := poll_alike bvh hh h hm hf
    rw [hp] at this
    cases hq : f.poll bvh heap cfg m with
    | error e => rw [hq] at this; cases this
    | ok x =>
      rw [hq] at this
      obtain ⟨p, g'⟩ := x
      cases this with
      | ok h => obtain ⟨h1, -⟩ := h; simp only at h1; subst h1; exact .ready hq
  | @pending f' g w r hp _ ih =>
    have := poll_alike bvh hh h hm hf
    rw [hp] at this
    cases hq : f.poll bvh heap cfg m with
    | error e => rw [hq] at this; cases this
    | ok x =>
      rw [hq] at this
      obtain ⟨p, g'⟩ := x
      cases this with
      | ok h => obtain ⟨h1, h2⟩ := h; simp only at h1; subst h1; exact .pending hq (ih h2)

/-- C62: futures resolve to the same answers. -/
theorem C62_future (bvh : Bvh K) {heap : Heap K} (hh : heap.ByCost) (cfg : Cfg) (h : SameMesh m m')
    (hd : cfg.detailed = true → m.SmallNumbers ∧ m'.SmallNumbers) (src dst : Vec2 K) (r : Option (Path K)) :
    Resolves bvh heap cfg m' (Mesh.getPath src dst) r ↔ Resolves bvh heap cfg m (Mesh.getPath src dst) r := by
  have hf : FutureAlike cfg m m' (Mesh.getPath src dst) (Mesh.getPath src dst) := ⟨rfl, .inl ⟨rfl, rfl⟩⟩
  exact ⟨resolves_alike' bvh hh h (h.alike hd) hf, resolves_alike bvh hh h (h.alike hd) hf⟩

/-- C62: baking does not depend on the numbering: both bakings fault alike, or give meshes that differ in the
numbering only. -/
theorem C62_bake (h : SameMesh m m') :
    (∃ b b', m.bake = .ok b ∧ m'.bake = .ok b' ∧ SameMesh b b') ∨ (∃ e, m.bake = .error e ∧ m'.bake = .error e) := by
  have := mesh_bake_alike h
  cases hb : m.bake with
  | ok b =>
    rw [hb] at this
    cases hb' : m'.bake with
    | ok b' => rw [hb'] at this; cases this with | ok h => exact .inl ⟨b, b', rfl, rfl, h⟩
    | error e => rw [hb'] at this; cases this
  | error e =>
    rw [hb] at this
    cases hb' : m'.bake with
    | ok b' => rw [hb'] at this; cases this
    | error e' => rw [hb'] at this; cases this with | error e => exact .inr ⟨e, rfl, rfl⟩

/-! ### Removing useless vertices -/

theorem Cleaned.same {l l' : Layer K} (h : Cleaned l l') (hc : l.CornersUsed) : SameLayer l l' := by
  have key : ∀ ps ps' : List Polygon, (∀ p ∈ ps, ∀ v ∈ p.vertices, ∃ vx, l.vertices[v.toNat]? = some vx ∧ ¬ Unused vx) →
      List.Forall₂ (fun p p' : Polygon => p'.isOneWay = p.isOneWay ∧
        List.Forall₂ (fun u u' : UInt32 => ∃ vx, l.vertices[u.toNat]? = some vx ∧
          (¬ Unused vx → l'.vertices[u'.toNat]? = some vx) ∧ (Unused vx → u' = u32Max)) p.vertices p'.vertices) ps ps' →
      List.Forall₂ (fun p p' : Polygon => p'.isOneWay = p.isOneWay ∧
        List.Forall₂ (fun u u' : UInt32 => ∃ vx, l.vertices[u.toNat]? = some vx ∧ l'.vertices[u'.toNat]? = some vx)
          p.vertices p'.vertices) ps ps' := by
    intro ps ps' hu hp
    induction hp with
    | nil => exact .nil
    | @cons p p' ps ps' hpp _ ih =>
      refine .cons ⟨hpp.1, ?_⟩ (ih fun q hq => hu q (List.mem_cons_of_mem _ hq))
      have hv := hpp.2
      have hu := hu p (List.mem_cons_self ..)
      revert hv hu
      generalize p.vertices = vs
      generalize p'.vertices = vs'
      intro hv hu
      induction hv with
      | nil => exact .nil
      | @cons v v' vs vs' hvv _ ihv =>
        refine .cons ?_ (ihv fun u hu' => hu u (List.mem_cons_of_mem _ hu'))
        obtain ⟨x, h1, h2, -⟩ := hvv
        obtain ⟨y, k1, k2⟩ := hu v (List.mem_cons_self ..)
        rw [h1] at k1
        cases k1
        exact ⟨x, h1, h2 k2⟩
  have hp := key _ _ hc h.polygons
  have ho : l'.offset = l.offset := by rw [h.rest]
  refine ⟨⟨hp.imp fun p p' h => ⟨h.1, h.2.imp ?_⟩, by rw [h.rest], by rw [h.rest]⟩, ho, by rw [h.rest],
    hp.imp fun p p' h => h.2.imp ?_⟩
  · rintro v v' ⟨x, h1, h2⟩
    exact ⟨x, x, h1, h2, by rw [ho], rfl, rfl⟩
  · rintro v v' ⟨x, h1, h2⟩
    rw [h1, h2]

theorem SameLayer.refl {l : Layer K} (h : ∀ p ∈ l.polygons, ∀ v ∈ p.vertices, v.toNat < l.vertices.length) :
    SameLayer l l := by
  refine ⟨⟨?_, rfl, rfl⟩, rfl, rfl, ?_⟩
  · exact List.forall₂_same.2 fun p hp => ⟨rfl, List.forall₂_same.2 fun v hv =>
      ⟨_, _, List.getElem?_eq_getElem (h p hp v hv), List.getElem?_eq_getElem (h p hp v hv), rfl, rfl, rfl⟩⟩
  · exact List.forall₂_same.2 fun p hp => List.forall₂_same.2 fun v hv => rfl

theorem Layer.CornersUsed.range {l : Layer K} (h : l.CornersUsed) :
    ∀ p ∈ l.polygons, ∀ v ∈ p.vertices, v.toNat < l.vertices.length := by
  intro p hp v hv
  obtain ⟨vx, h, -⟩ := h p hp v hv
  exact lt_of_getElem? h

/-- C62: `remove_useless_vertices` succeeds and gives a mesh that differs in the numbering only, when the corners of
the polygons list some polygon. By `C62_path`, `C62_location` and `C62_future` no answer changes. -/
theorem C62_remove_useless (m : Mesh K) (hs : ∀ l ∈ m.layers, l.vertices.length < 2 ^ 32)
    (hc : ∀ l ∈ m.layers, l.CornersUsed) :
    ∃ m' removed, m.removeUseless = .ok (m', removed) ∧ SameMesh m m' ∧
      (∀ l ∈ m'.layers, l.vertices.length < 2 ^ 32) ∧ (∀ l ∈ m'.layers, l.CornersUsed) := by
  have hrefl : ∀ l ∈ m.layers, SameLayer l l := fun l hl => SameLayer.refl (hc l hl).range
  rcases C28_mesh_partial m ⟨hs, fun l hl => (hc l hl).range⟩ with ⟨-, h⟩ | ⟨b, d, a, d', h0, h1, h2, h3, h4⟩
  · exact ⟨m, false, h, ⟨List.forall₂_same.2 hrefl, rfl, rfl⟩, hs, hc⟩
  · have hd : d ∈ m.layers := by rw [h0]; simp
    refine ⟨_, true, h4, ⟨?_, rfl, rfl⟩, ?_, ?_⟩
    · rw [h0]
      refine List.rel_append (List.forall₂_same.2 fun l hl => hrefl l (by rw [h0]; simp [hl])) (.cons (h3.same (hc d hd))
        (List.forall₂_same.2 fun l hl => hrefl l (by rw [h0]; simp [hl])))
    · intro l hl
      simp only [List.mem_append, List.mem_cons] at hl
      rcases hl with hl | rfl | hl
      · exact hs l (by rw [h0]; simp [hl])
      · rw [h3.vertices]
        exact lt_of_le_of_lt (List.length_filter_le _ _) (hs d hd)
      · exact hs l (by rw [h0]; simp [hl])
    · intro l hl
      simp only [List.mem_append, List.mem_cons] at hl
      rcases hl with hl | rfl | hl
      · exact hc l (by rw [h0]; simp [hl])
      · exact h3.cornersUsed (hc d hd)
      · exact hc l (by rw [h0]; simp [hl])

/-- C62: calling `remove_useless_vertices` any number of times does not change the answer of any path query. -/
theorem C62_remove_path (bvh : Bvh K) {heap : Heap K} (hh : heap.ByCost) (cfg : Cfg) (hcfg : cfg.detailed = false)
    {k : Nat} {m m' : Mesh K} (hs : ∀ l ∈ m.layers, l.vertices.length < 2 ^ 32)
    (hc : ∀ l ∈ m.layers, l.CornersUsed) (h : RemovalCalls k m m') (src dst : Coords K) (blocked : List UInt8) :
    m'.pathOnLayers bvh heap cfg src dst blocked = m.pathOnLayers bvh heap cfg src dst blocked := by
  induction h with
  | none m => rfl
  | more h1 _ ih =>
    obtain ⟨m', r, h, hsame, hs', hc'⟩ := C62_remove_useless _ hs hc
    rw [h1] at h
    cases h
    rw [ih hs' hc', C62_path bvh hh cfg hsame (fun h => by rw [hcfg] at h; cases h)]

/-! ### A heap that compares costs -/

theorem popMax_byCost (R : SearchNode K → SearchNode K → Prop)
    (hR : ∀ n n', R n n' → n'.distanceStartToRoot = n.distanceStartToRoot ∧ n'.heuristic = n.heuristic)
    {q q' : List (SearchNode K)} (h : List.Forall₂ R q q') :
    (popMax q = none ∧ popMax q' = none) ∨
      ∃ n r n' r', popMax q = some (n, r) ∧ popMax q' = some (n', r') ∧ R n n' ∧ List.Forall₂ R r r' := by
  induction h with
  | nil => exact .inl ⟨rfl, rfl⟩
  | @cons a a' q q' ha hq ih =>
    right
    rcases ih with ⟨h1, h2⟩ | ⟨n, r, n', r', h1, h2, hn, hr⟩
    · refine ⟨a, q, a', q', ?_, ?_, ha, hq⟩
      · simp only [popMax, h1]
      · simp only [popMax, h2]
    · simp only [popMax, h1, h2]
      have e : n'.cmp a' = n.cmp a := by
        unfold SearchNode.cmp
        rw [(hR _ _ ha).1, (hR _ _ ha).2, (hR _ _ hn).1, (hR _ _ hn).2]
      rw [e]
      split
      · exact ⟨_, _, _, _, rfl, rfl, hn, .cons ha hr⟩
      · exact ⟨_, _, _, _, rfl, rfl, ha, hq⟩

theorem maxHeap_byCost : (maxHeap : Heap K).ByCost := fun R hR _ _ h => popMax_byCost R hR h

/-! ### Examples -/

/-- The mesh `exMesh` with its vertices in the opposite order, after a vertex that is in no polygon. -/
def exTurned : Mesh Rat :=
  { exMesh with layers := [{ exLayer with
      vertices := Vertex.new (v2 9 9) [u32Max] :: exVertices.reverse
      polygons := [ Polygon.new [8, 7, 4, 5] false, Polygon.new [7, 6, 3, 4] false, Polygon.new [5, 4, 1, 2] false ] }] }

theorem exTurned_same : SameMesh exMesh exTurned := by
  refine ⟨.cons ⟨⟨?_, rfl, rfl⟩, rfl, rfl, ?_⟩ .nil, rfl, rfl⟩
  · refine .cons ⟨rfl, ?_⟩ (.cons ⟨rfl, ?_⟩ (.cons ⟨rfl, ?_⟩ .nil))
    all_goals
      refine .cons ⟨_, _, rfl, rfl, rfl, rfl, rfl⟩ (.cons ⟨_, _, rfl, rfl, rfl, rfl, rfl⟩
        (.cons ⟨_, _, rfl, rfl, rfl, rfl, rfl⟩ (.cons ⟨_, _, rfl, rfl, rfl, rfl, rfl⟩ .nil)))
  · refine .cons ?_ (.cons ?_ (.cons ?_ .nil))
    all_goals exact .cons rfl (.cons rfl (.cons rfl (.cons rfl .nil)))

/-- Non-vacuity of C62: the query around the corner has the same answer in the renumbered mesh, with
`detailed-layers`. -/
theorem C62_example : exTurned.pathOnLayers allBvh ratHeap ⟨true⟩ (Coords.onMesh (v2 (3/2) (1/2)))
    (Coords.onMesh (v2 (3/4) (3/2))) [] =
    .ok (some ⟨633061/500000, [⟨1,1⟩, ⟨3/4,3/2⟩], [(⟨1,1⟩,0), (⟨3/4,3/2⟩,0)]⟩) := by
  rw [C62_path allBvh (heap := ratHeap) maxHeap_byCost ⟨true⟩ exTurned_same (fun _ => ⟨?_, ?_⟩)]
  · exact exPath
  · unfold Mesh.SmallNumbers
    decide +kernel
  · unfold Mesh.SmallNumbers
    decide +kernel

/-- Non-vacuity of `C62_remove_useless`: the renumbered mesh has a vertex in no polygon, which is removed. -/
example : ∃ m', exTurned.removeUseless = .ok (m', true) ∧ SameMesh exTurned m' := by
  have hs : ∀ l ∈ exTurned.layers, l.vertices.length < 2 ^ 32 := by
    decide +kernel
  have hc : ∀ l ∈ exTurned.layers, l.CornersUsed := by
    have hu : ∀ vx : Vertex Rat, Unused vx → vx.useless = true := by
      intro vx h
      rcases h with h | h <;> simp [Vertex.useless, h]
    have hall : ∀ l ∈ exTurned.layers, ∀ p ∈ l.polygons, ∀ v ∈ p.vertices,
        ((l.vertices[v.toNat]?).map fun x : Vertex Rat => !x.useless) = some true := by decide +kernel
    intro l hl p hp v hv
    have := hall l hl p hp v hv
    cases hx : l.vertices[v.toNat]? with
    | none => rw [hx] at this; simp at this
    | some x =>
      rw [hx] at this
      refine ⟨x, rfl, fun h => ?_⟩
      have := hu x h
      simp_all
  obtain ⟨m', r, h, hsame, -⟩ := C62_remove_useless exTurned hs hc
  have hr : resIs exTurned.removeUseless (fun x => x.2) = true := by decide +kernel
  rw [h] at hr
  simp only [resIs] at hr
  subst hr
  exact ⟨m', h, hsame⟩

end Polyanya
