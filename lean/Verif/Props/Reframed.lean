import Verif.Proofs.Reframed
import Verif.Props.Moved
import Verif.Props.WalkableExample
/-
C66: the answers depend on where the vertices of a layer are in the world, not on how their place is divided between
the coordinates of the vertices and the offset of the layer.
-/

namespace Polyanya

set_option linter.unusedSectionVars false

variable {K : Type} [Scalar K] {bvh : Bvh K} {m m' : Mesh K}

/-- C66: meshes that are the same in the world give the same answer to every path query, with all features, all
scales. -/
theorem C66_path {heap : Heap K} (hh : heap.ByCost) (cfg : Cfg) (h : SameWorld bvh m m') (hr : m.InRange)
    (src dst : Coords K) (blocked : List UInt8) :
    m'.pathOnLayers bvh heap cfg src dst blocked = m.pathOnLayers bvh heap cfg src dst blocked := by
  unfold Mesh.pathOnLayers Mesh.endpointPolygon
  simp only [getClosestPoint_framed h, pathBetween_alike hh (h.alike hr cfg)]

/-- C66: and to every search for the place of a point. -/
theorem C66_location (h : SameWorld bvh m m') (c : Coords K) (towards : Vec2 K) :
    m'.getPointLocation bvh c = m.getPointLocation bvh c ∧
      m'.getPointLocations bvh c = m.getPointLocations bvh c ∧
      m'.pointInMesh bvh c = m.pointInMesh bvh c ∧
      m'.getPointLayer bvh c = m.getPointLayer bvh c ∧
      m'.getClosestPoint bvh c = m.getClosestPoint bvh c ∧
      m'.getClosestPointTowards bvh c towards = m.getClosestPointTowards bvh c towards := by
  refine ⟨getPointLocation_framed h c, getPointLocations_framed h c, ?_, ?_, getClosestPoint_framed h c,
    getClosestPointTowards_framed h c towards⟩
  · unfold Mesh.pointInMesh
    rw [getPointLocation_framed h]
  · unfold Mesh.getPointLayer
    rw [getPointLocations_framed h]

theorem resolves_framed {heap : Heap K} (hh : heap.ByCost) {cfg : Cfg} (h : SameWorld bvh m m')
    (hm : MeshAlike cfg m m') {f f' : FuturePath K} (hf : FutureAlike cfg m m' f f') {r : Option (Path K)}
    (hr : Resolves bvh heap cfg m f r) : Resolves bvh heap cfg m' f' r := by
  induction hr generalizing f' with
  | @ready f g r hp =>
    have := poll_framed h hm hh hf
    rw [hp] at this
    cases hq : f'.poll bvh heap cfg m' with
    | error e => rw [hq] at this; cases this
    | ok x =>
      rw [hq] at this
      obtain ⟨p, g'⟩ := x
      cases this with
      | ok h => obtain ⟨h1, -⟩ := h; simp only at h1; subst h1; exact .ready hq
  | @pending f g w r hp _ ih =>
    have := poll_framed h hm hh hf
    rw [hp] at this
    cases hq : f'.poll bvh heap cfg m' with
    | error e => rw [hq] at this; cases this
    | ok x =>
      rw [hq] at this
      obtain ⟨p, g'⟩ := x
      cases this with
      | ok h => obtain ⟨h1, h2⟩ := h; simp only at h1; subst h1; exact .pending hq (ih h2)

theorem resolves_framed' {heap : Heap K} (hh : heap.ByCost) {cfg : Cfg} (h : SameWorld bvh m m')
    (hm : MeshAlike cfg m m') {f f' : FuturePath K} (hf : FutureAlike cfg m m' f f') {r : Option (Path K)}
    (hr : Resolves bvh heap cfg m' f' r) : Resolves bvh heap cfg m f r := by
  induction hr generalizing f with
  | @ready f' g r hp =>
    have := poll_framed h hm hh hf
    rw [hp] at this
    cases hq : f.poll bvh heap cfg m with
    | error e => rw [hq] at this; cases this
    | ok x =>
      rw [hq] at this
      obtain ⟨p, g'⟩ := x
      cases this with
      | ok h => obtain ⟨h1, -⟩ := h; simp only at h1; subst h1; exact .ready hq
  | @pending f' g w r hp _ ih =>
    have := poll_framed h hm hh hf
    rw [hp] at this
    cases hq : f.poll bvh heap cfg m with
    | error e => rw [hq] at this; cases this
    | ok x =>
      rw [hq] at this
      obtain ⟨p, g'⟩ := x
      cases this with
      | ok h => obtain ⟨h1, h2⟩ := h; simp only at h1; subst h1; exact .pending hq (ih h2)

/-- C66: futures resolve to the same answers. -/
theorem C66_future {heap : Heap K} (hh : heap.ByCost) (cfg : Cfg) (h : SameWorld bvh m m') (hr : m.InRange)
    (src dst : Vec2 K) (r : Option (Path K)) :
    Resolves bvh heap cfg m' (Mesh.getPath src dst) r ↔ Resolves bvh heap cfg m (Mesh.getPath src dst) r := by
  have hf : FutureAlike cfg m m' (Mesh.getPath src dst) (Mesh.getPath src dst) := ⟨rfl, .inl ⟨rfl, rfl⟩⟩
  exact ⟨resolves_framed' hh h (h.alike hr cfg) hf, resolves_framed hh h (h.alike hr cfg) hf⟩

/-! ### In exact arithmetic -/

section
variable {F : Type} [Field F] [LinearOrder F] [IsStrictOrderedRing F] [Scalar F] [ExactField F]

/-- The layer with its offset added to the coordinates of its vertices, and no offset. -/
def Layer.settled {K : Type} [Scalar K] (l : Layer K) : Layer K :=
  { l with
    vertices := l.vertices.map (fun v => { v with coords := v.coords + l.offset })
    offset := Vec2.zero }

/-- The mesh with the offset of every layer added to the coordinates of its vertices. -/
def Mesh.settled {K : Type} [Scalar K] (m : Mesh K) : Mesh K := { m with layers := m.layers.map Layer.settled }

/-- The mesh with `t` added to the coordinates of all vertices. -/
def Mesh.verticesMoved {K : Type} [Scalar K] (t : Vec2 K) (m : Mesh K) : Mesh K :=
  { m with layers := m.layers.map fun l =>
      { l with vertices := l.vertices.map (fun v => { v with coords := v.coords + t }) } }

theorem settled_world {bvh : Bvh (Ext F)} {m : Mesh (Ext F)} (hb : ∀ l ∈ m.layers, l.baked = none)
    (ho : ∀ l ∈ m.layers, ∃ o : Vec2 F, l.offset = o.fin) : SameWorld bvh m m.settled := by
  refine ⟨?_, rfl, rfl⟩
  change List.Forall₂ _ m.layers (m.layers.map Layer.settled)
  rw [List.forall₂_map_right_iff]
  refine List.forall₂_same.2 fun l hl => ?_
  obtain ⟨o, h⟩ := ho l hl
  refine ⟨o.fin, frame_ext o, ?_, .inl ⟨hb l hl, hb l hl⟩⟩
  have hz : ∀ x : F, (Ext.fin x -. Ext.fin x : Ext F) = Scalar.lit 0 0 := by
    intro x
    change Ext.fin (x -. x) = Ext.fin (Scalar.lit 0 0)
    rw [ExactField.sub, ExactField.lit, sub_self]
    norm_num
  have hzero : (o.fin - o.fin : Vec2 (Ext F)) = Vec2.zero := vec_ext (hz _) (hz _)
  unfold Layer.settled Layer.reframed
  rw [h, hzero]

/-- C66 in exact arithmetic: an offset gives the same answers as vertices with the offset added to their
coordinates. -/
theorem C66_offset {bvh : Bvh (Ext F)} {heap : Heap (Ext F)} (hh : heap.ByCost) (cfg : Cfg) {m : Mesh (Ext F)}
    (hb : ∀ l ∈ m.layers, l.baked = none) (ho : ∀ l ∈ m.layers, ∃ o : Vec2 F, l.offset = o.fin) (hr : m.InRange)
    (src dst : Coords (Ext F)) (blocked : List UInt8) :
    m.settled.pathOnLayers bvh heap cfg src dst blocked = m.pathOnLayers bvh heap cfg src dst blocked :=
  C66_path hh cfg (settled_world hb ho) hr src dst blocked

theorem verticesMoved_world {bvh : Bvh (Ext F)} {m : Mesh (Ext F)} (hb : ∀ l ∈ m.layers, l.baked = none) (t : Vec2 F) :
    SameWorld bvh (m.moved t.fin) (m.verticesMoved t.fin) := by
  refine ⟨?_, rfl, rfl⟩
  change List.Forall₂ _ (m.layers.map _) (m.layers.map _)
  rw [List.forall₂_map_left_iff, List.forall₂_map_right_iff]
  refine List.forall₂_same.2 fun l hl => ?_
  refine ⟨t.fin, frame_ext t, ?_, .inl ⟨hb l hl, hb l hl⟩⟩
  have hz : ∀ (a : Ext F) (x : F), (a +. Ext.fin x) -. Ext.fin x = a := by
    intro a x
    cases a with
    | fin a =>
      change Ext.fin ((a +. x) -. x) = Ext.fin a
      rw [ExactField.sub, ExactField.add, add_sub_cancel_right]
    | inf b => rfl
    | nan => rfl
  have ho : (l.offset + t.fin) - t.fin = l.offset := vec_ext (hz _ _) (hz _ _)
  unfold Layer.moved Layer.reframed
  simp only [ho]

/-- C65 and C66 in exact arithmetic: adding `t` to the coordinates of all vertices and to the query points adds `t` to
the points of the path, and changes nothing else. -/
theorem C66_vertices {bvh : Bvh (Ext F)} {heap : Heap (Ext F)} (hh : heap.ByCost) (cfg : Cfg) {m : Mesh (Ext F)}
    (hb : ∀ l ∈ m.layers, l.baked = none) (hs : cfg.detailed = true → ∀ l ∈ m.layers, l.scale = Vec2.one)
    (hr : m.InRange) (t : Vec2 F) (src dst : Coords (Ext F)) (blocked : List UInt8) :
    (m.verticesMoved t.fin).pathOnLayers bvh heap cfg (src.moved t.fin) (dst.moved t.fin) blocked =
      (m.pathOnLayers bvh heap cfg src dst blocked).map (Option.map (Path.moved t.fin)) := by
  have hr' : (m.moved t.fin).InRange := by
    intro l hl
    obtain ⟨k, hk, rfl⟩ := List.mem_map.1 hl
    exact hr k hk
  rw [C66_path hh cfg (verticesMoved_world hb t) hr',
    C65_path (shift_ext t) bvh hh cfg m (fun hc => unitScale_ext (hs hc))]

end

/-! ### Examples -/

/-- The L of side 8, with an offset. -/
def offMesh : Mesh (Ext ℚ) := Mesh.ofLayers [{ lLayer 8 with offset := e2 5 (-7) }]

/-- Non-vacuity of `C66_offset`: a path around the corner in the mesh with the offset, and in the mesh with moved
vertices. -/
example : ∃ p, offMesh.pathOnLayers everyIndex maxHeap ⟨false⟩ (Coords.onMesh (e2 17 (-3))) (Coords.onMesh (e2 11 5)) []
      = .ok (some p) ∧ p.path = [e2 13 1, e2 11 5] ∧
    offMesh.settled.pathOnLayers everyIndex maxHeap ⟨false⟩ (Coords.onMesh (e2 17 (-3))) (Coords.onMesh (e2 11 5)) []
      = .ok (some p) := by
  have h : resIs (offMesh.pathOnLayers everyIndex maxHeap ⟨false⟩ (Coords.onMesh (e2 17 (-3)))
      (Coords.onMesh (e2 11 5)) []) (fun r => (r.map (·.path)) = some [e2 13 1, e2 11 5]) = true := by decide +kernel
  obtain ⟨r, h1, h2⟩ := of_resIs h
  cases r with
  | none => simp at h2
  | some p =>
    refine ⟨p, h1, by simpa using h2, ?_⟩
    rw [C66_offset maxHeap_byCost ⟨false⟩ (m := offMesh), h1]
    · decide +kernel
    · intro l hl
      simp only [offMesh, Mesh.ofLayers, List.mem_singleton] at hl
      rw [hl]
      exact ⟨_, rfl⟩
    · unfold Mesh.InRange
      decide +kernel

/-- Non-vacuity of `C66_vertices`: the same path, from the L of side 8 at the origin. -/
example : ∃ p, ((Mesh.ofLayers [lLayer 8]).verticesMoved (e2 5 (-7))).pathOnLayers everyIndex maxHeap ⟨false⟩
    ((Coords.onMesh (e2 12 4)).moved (e2 5 (-7))) ((Coords.onMesh (e2 6 12)).moved (e2 5 (-7))) [] = .ok (some p) ∧
    p.path = [e2 13 1, e2 11 5] := by
  have h : resIs ((Mesh.ofLayers [lLayer 8]).pathOnLayers everyIndex maxHeap ⟨false⟩ (Coords.onMesh (e2 12 4))
      (Coords.onMesh (e2 6 12)) []) (fun r => (r.map (·.path)) = some [e2 8 8, e2 6 12]) = true := by decide +kernel
  obtain ⟨r, h1, h2⟩ := of_resIs h
  cases r with
  | none => simp at h2
  | some p =>
    have h3 : p.path = [e2 8 8, e2 6 12] := by simpa using h2
    refine ⟨p.moved (e2 5 (-7)), ?_, ?_⟩
    · have := C66_vertices (bvh := everyIndex) (heap := maxHeap) maxHeap_byCost ⟨false⟩ (m := Mesh.ofLayers [lLayer 8]) ?_ ?_ ?_
        (⟨5, -7⟩ : Vec2 ℚ) (Coords.onMesh (e2 12 4)) (Coords.onMesh (e2 6 12)) []
      · rw [h1] at this
        exact this
      · decide +kernel
      · intro h; cases h
      · unfold Mesh.InRange
        decide +kernel
    · change p.path.map (· + e2 5 (-7)) = _
      rw [h3]
      decide +kernel

end Polyanya
