import Verif.Proofs.NoUb
import Verif.Spec.RatScalar
/-
Properties C10 (no panic, no out-of-bounds access on well-formed meshes), C11 (unchecked accesses) and
C44 (empty polygons). All for every arithmetic satisfying the NaN laws.
-/

namespace Polyanya

variable {K : Type} [Scalar K]

/-- C10: on a well-formed mesh every path query returns normally: no panic, no out-of-bounds access, no
endless loop. With `detailed-layers` the found paths are sorted by length, so no such length may be NaN. -/
theorem C10_path [NanLaws K] (bvh : Bvh K) (heap : Heap K) (cfg : Cfg) (m : Mesh K) (src dst : Coords K)
    (blocked : List UInt8) (hb : bvh.InRange) (hm : m.WF cfg) (hn : m.NoNan) (hs : src.WF m)
    (hd : dst.WF m)
    (hlen : cfg.detailed = true → ∀ s e p, Located m bvh src s → Located m bvh dst e →
      FoundBy ⟨cfg, m, (src.pos, s), (dst.pos, e), blocked⟩ p → Scalar.isNan p.length = false) :
    ∃ r, m.pathOnLayers bvh heap cfg src dst blocked = .ok r := by
  have hE : ∀ c : Coords K, c.WF m → Safe (m.endpointPolygon bvh c) ∧
      ∀ id, m.endpointPolygon bvh c = .ok (some id) → Exists m id := by
    intro c hc
    refine ⟨?_, fun id hid => located_hasPolygon hm hc (endpointPolygon_located.1 hid)⟩
    unfold Mesh.endpointPolygon
    split
    · exact safe_ok _
    · exact safe_bind (safe_getClosestPoint hb (fun l hl => (hm.layer l hl).toFindable) hc.layer) (fun _ _ => safe_ok _)
  refine Safe.ex ?_
  unfold Mesh.pathOnLayers
  refine safe_bind (hE src hs).1 (fun s hs' => ?_)
  cases s with
  | none => exact safe_ok _
  | some s =>
    refine safe_bind (hE dst hd).1 (fun e he' => ?_)
    cases e with
    | none => exact safe_ok _
    | some e =>
      exact safe_pathBetween hm hn _ _ ((hE src hs).2 s hs') ((hE dst hd).2 e he') _
        (fun h p => hlen h s e p (endpointPolygon_located.1 hs') (endpointPolygon_located.1 he'))

/-- C10: polling the future of `get_path` returns normally, for the first poll and for every later one. -/
theorem C10_poll [NanLaws K] (bvh : Bvh K) (heap : Heap K) (cfg : Cfg) (m : Mesh K) (src dst : Vec2 K)
    (hb : bvh.InRange) (hm : m.WF cfg) (hn : m.NoNan) (f : FuturePath K)
    (hf : Polls bvh heap cfg m (Mesh.getPath src dst) f) :
    ∃ r f', f.poll bvh heap cfg m = .ok (r, f') := by
  have hok : FutOk bvh cfg m src dst f := by
    induction hf with
    | refl => exact ⟨rfl, rfl, by intro inst hinst; simp [Mesh.getPath] at hinst⟩
    | step _ hp ih => exact (poll_ok ih hp).1
  obtain ⟨⟨r, f'⟩, h⟩ := (safe_poll (heap := heap) hb hm hn hok).ex
  exact ⟨r, f', h⟩

/-- C10: point queries return normally on a mesh whose polygons are non-empty; vertex indices may even be
out of range. -/
theorem C10_point_queries (bvh : Bvh K) (m : Mesh K) (c : Coords K) (hb : bvh.InRange)
    (hm : ∀ l ∈ m.layers, (∀ p ∈ l.polygons, p.vertices ≠ []) ∧ l.polygons.length ≤ 2 ^ 24 - 1 ∧
      ∀ boxes, l.baked = some boxes → boxes.length = l.polygons.length) :
    (∃ r, m.pointInMesh bvh c = .ok r) ∧ (∃ r, m.getPointLayer bvh c = .ok r) ∧
    ((∀ i, c.layer = some i → i.toNat < m.layers.length) →
      (∃ r, m.getClosestPoint bvh c = .ok r) ∧
      ∀ t, ∃ r, m.getClosestPointTowards bvh c t = .ok r) := by
  have hF : ∀ l ∈ m.layers, l.Findable := fun l hl =>
    ⟨(hm l hl).2.1, (hm l hl).1, (hm l hl).2.2⟩
  refine ⟨?_, ?_, fun hc => ⟨?_, fun t => ?_⟩⟩
  · exact (safe_bind (safe_getPointLocation hb hF c) (fun _ _ => safe_ok _)).ex
  · exact (safe_bind (safe_getPointLocations hb hF c) (fun _ _ => safe_ok _)).ex
  · exact (safe_getClosestPoint hb hF hc).ex
  · exact (safe_getClosestPointTowards hb hF hc t).ex

/-- Well-formedness, decided by running through the mesh (used for examples only). -/
def wfCheck {K : Type} (m : Mesh K) : Bool :=
  decide (m.layers.length ≤ 256) &&
  m.layers.all (fun l => decide (l.polygons.length ≤ 2 ^ 24 - 1)
    && l.polygons.all (fun p => !p.vertices.isEmpty
      && p.vertices.all (fun v => decide (v.toNat < l.vertices.length)))
    && (match l.baked with | none => true | some b => decide (b.length = l.polygons.length))
    && decide (l.vertices.length ≤ 2 ^ 24)
    && l.vertices.all (fun v => v.polygons.all (fun id => id == u32Max ||
        (match m.layers[idLayer id]? with
          | some l' => (l'.polygons[idPolygon id]?).isSome
          | none => false))))

theorem wf_of_check {K : Type} [Scalar K] {m : Mesh K} (h : wfCheck m = true) (cfg : Cfg) : m.WF cfg := by
  simp only [wfCheck, Bool.and_eq_true, List.all_eq_true, decide_eq_true_eq, Bool.not_eq_true',
    List.isEmpty_eq_false_iff, Bool.or_eq_true, beq_iff_eq] at h
  obtain ⟨h1, h2⟩ := h
  refine ⟨h1, fun l hl => ⟨⟨(h2 l hl).1.1.1.1, fun p hp => ((h2 l hl).1.1.1.2 p hp).1, ?_⟩,
    fun p hp v hv => ((h2 l hl).1.1.1.2 p hp).2 v hv⟩, ?_, fun _ l hl => (h2 l hl).1.2⟩
  · intro boxes hb
    have := (h2 l hl).1.1.2
    rw [hb] at this
    simpa using this
  · intro l hl v hv id hid hne
    have := ((h2 l hl).2 v hv id hid).resolve_left hne
    split at this
    · rename_i l' hl'
      obtain ⟨p, hp⟩ := Option.isSome_iff_exists.1 this
      exact ⟨l', p, hl', hp⟩
    · simp at this

theorem allBvh_inRange : allBvh.InRange := by
  intro boxes pt i hi
  simpa [allBvh, everyIndex] using hi

/-- Non-vacuity: the example mesh is well-formed and C10 applies to every query on it (also to
`detailed-layers`, as rationals have no NaN). -/
example (cfg : Cfg) (a b : Vec2 Rat) : ∃ r, exMesh.path allBvh ratHeap cfg (Coords.onMesh a) (Coords.onMesh b) = .ok r :=
  C10_path _ _ _ _ _ _ _ allBvh_inRange (wf_of_check (by decide +kernel) cfg)
    ⟨fun _ _ _ _ _ _ _ _ => rfl⟩ ⟨by simp [Coords.onMesh], by simp [Coords.onMesh]⟩
    ⟨by simp [Coords.onMesh], by simp [Coords.onMesh]⟩ (fun _ _ _ _ _ _ _ => rfl)

/-! ### C11 -/

/-- C11 (part): point queries never read out of bounds, on any mesh, however broken. -/
theorem C11_point_queries (bvh : Bvh K) (m : Mesh K) (c : Coords K) :
    m.getPointLocation bvh c ≠ .error .ub ∧ m.getClosestPoint bvh c ≠ .error .ub :=
  ⟨(noUb_getPointLocation ..).ne, (noUb_getClosestPoint ..).ne⟩

/-- C11, partial: a path query, and every poll of the future in every state of the future, can only read
out of bounds if some polygon contains the vertex index that equals the number of vertices of its layer.
Missing for the full claim: that very index, see `C11_false`. -/
theorem C11_path_partial (bvh : Bvh K) (heap : Heap K) (cfg : Cfg) (m : Mesh K)
    (hm : NoBoundaryIndex m) :
    (∀ src dst blocked, m.pathOnLayers bvh heap cfg src dst blocked ≠ .error .ub) ∧
    (∀ f : FuturePath K, f.poll bvh heap cfg m ≠ .error .ub) := by
  refine ⟨fun src dst blocked => NoUb.ne ?_, fun f => (noUb_poll bvh heap cfg hm f).ne⟩
  unfold Mesh.pathOnLayers
  refine noUb_bind (noUb_endpointPolygon ..) (fun s _ => ?_)
  cases s with
  | none => exact noUb_ok _
  | some s =>
    refine noUb_bind (noUb_endpointPolygon ..) (fun e _ => ?_)
    cases e with
    | none => exact noUb_ok _
    | some e => exact noUb_pathBetween _ _ hm ..

/-- The example mesh with one bad index: the first square gets a fifth vertex number 8 = number of
vertices. -/
def ubMesh : Mesh Rat := Mesh.ofLayers [Layer.mk' exVertices
  [ Polygon.new [0, 1, 4, 3, 8] false, Polygon.new [1, 2, 5, 4] false, Polygon.new [3, 4, 7, 6] false ]]

/-- C11 is false of the code as it is: the bounds guard of `edges_between` is `>` where `>=` is needed
(`instance.rs:399`), so a path query on `ubMesh` reads out of bounds. -/
theorem C11_false : ubMesh.path allBvh ratHeap ⟨false⟩ (Coords.onMesh (v2 (3/2) (1/2)))
    (Coords.onMesh (v2 (3/4) (3/2))) = .error .ub := by decide +kernel

/-- Non-vacuity of `C11_path_partial`: it covers the broken mesh whose bad index is larger. -/
example : NoBoundaryIndex (Mesh.ofLayers [Layer.mk' exVertices
    [ Polygon.new [0, 1, 4, 3, 9] false, Polygon.new [1, 2, 5, 4] false ]]) := by
  simp [NoBoundaryIndex, Mesh.ofLayers, Layer.mk', Polygon.new, exVertices]

/-! ### C44 -/

theorem pointInPolygon_nonempty {l : Layer K} {pt : Vec2 K} {p : Polygon} {b : Bool}
    (h : l.pointInPolygon pt p = .ok b) : p.vertices ≠ [] := by
  intro hp
  simp [Layer.pointInPolygon, Polygon.edgesIndex, hp] at h

/-- C44 (part): a lookup that succeeds never reports an empty polygon, baked or not. -/
theorem C44_never_found (l : Layer K) (bvh : Bvh K) (pt : Vec2 K) (i : UInt32)
    (hl : l.polygons.length ≤ 2 ^ 24 - 1) (h : l.locate bvh pt = .ok i) (hi : i ≠ u32Max) :
    ∃ p, l.polygons[i.toNat]? = some p ∧ p.vertices ≠ [] := by
  obtain ⟨j, p, hp, rfl, hin⟩ := locate_found h hi
  have := lt_of_getElem? hp
  exact ⟨p, by rw [UInt32.toNat_ofNat_of_lt' (show j < 2 ^ 32 by omega)]; exact hp,
    pointInPolygon_nonempty hin⟩

/-- C44, partial: when the layer is baked and the BVH only proposes boxes that contain the point, lookups
never fail, even if the layer contains empty polygons. Missing: lookups in layers that are not baked,
which do fail, see `C44_false`. -/
theorem C44_baked_partial (hmax : MaxPositive K) (l : Layer K) (bvh : Bvh K) (hb : bvh.Sound)
    (hbk : l.baked = some (l.polygons.map l.polygonAabb)) (pt : Vec2 K) :
    ∃ i, l.locate bvh pt = .ok i := by
  refine Safe.ex ?_
  unfold Layer.locate
  rw [hbk]
  unfold Layer.locationUnitBaked
  refine safe_bind (safe_findFirst _ (fun i hi => ?_)) (fun _ _ => safe_ok _)
  obtain ⟨b, hbx, h1, -, h2, -⟩ := hb _ _ i hi
  rw [List.getElem?_map, Option.map_eq_some_iff] at hbx
  obtain ⟨p, hp, rfl⟩ := hbx
  refine safe_bind (safe_idx (lt_of_getElem? hp)) (fun p' hp' => ?_)
  rw [idx_eq_ok, hp] at hp'
  obtain rfl := Option.some.inj hp'
  refine safe_bind (safe_pointInPolygon _ ?_) (fun _ _ => ?_)
  · intro hnil
    rw [show l.polygonAabb p = (⟨Scalar.maxVal, Scalar.maxVal⟩, Vec2.zero) by
      simp [Layer.polygonAabb, hnil]] at h1 h2
    exact hmax _ ⟨h1, h2⟩
  · split <;> exact safe_ok _

/-- `l.baked` is what `Layer::bake` stores. -/
theorem C44_baked_reachable (l l' : Layer K) (h : l.bake = .ok l') :
    l'.baked = some (l'.polygons.map l'.polygonAabb) := by
  unfold Layer.bake Layer.bakeIslands at h
  simp only [bind_eq_ok, Except.ok.injEq] at h
  obtain ⟨isl, -, rfl⟩ := h
  rfl

/-- A mesh with an empty polygon before a square. -/
def emptyPolyMesh : Mesh Rat := Mesh.ofLayers [Layer.mk' exVertices
  [ Polygon.empty, Polygon.new [1, 2, 5, 4] false, Polygon.new [3, 4, 7, 6] false ]]

/-- C44 is false for meshes that are not baked: the lookup panics (`primitives.rs:94-102`). -/
theorem C44_false : emptyPolyMesh.pointInMesh allBvh (Coords.onMesh (v2 (3/2) (1/2))) = .error .panic := by
  decide +kernel

/-- The same point is found once the mesh is baked, with a sound BVH. -/
example : ∃ m', emptyPolyMesh.bake = .ok m' ∧
    m'.pointInMesh (fun boxes pt => (List.range boxes.length).filter (fun i =>
      match boxes[i]? with
      | some b => (b.1.x <=. pt.x) && (b.1.y <=. pt.y) && (pt.x <=. b.2.x) && (pt.y <=. b.2.y)
      | none => false)) (Coords.onMesh (v2 (3/2) (1/2))) = .ok true := by
  obtain ⟨m', h1, h2⟩ := of_resIs (x := emptyPolyMesh.bake)
    (f := fun m' => m'.pointInMesh (fun boxes pt => (List.range boxes.length).filter (fun i =>
      match boxes[i]? with
      | some b => (b.1.x <=. pt.x) && (b.1.y <=. pt.y) && (pt.x <=. b.2.x) && (pt.y <=. b.2.y)
      | none => false)) (Coords.onMesh (v2 (3/2) (1/2))) = .ok true) (by decide +kernel)
  exact ⟨m', h1, by simpa using h2⟩

end Polyanya
