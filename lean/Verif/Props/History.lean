import Verif.Proofs.History
import Verif.Props.Safety
import Verif.Props.Trimesh
import Verif.Props.TriangulationLayer
import Verif.Props.CleanupExamples
/-
C78: every mesh made by the library's own operations can be queried.
-/

namespace Polyanya

variable {K : Type} [Scalar K]

theorem idLayer_small {id : UInt32} (h : id.toNat < 2 ^ 24) : idLayer id = 0 ∧ idPolygon id = id.toNat := by
  unfold idLayer idPolygon
  constructor
  · exact Nat.div_eq_of_lt h
  · exact Nat.mod_eq_of_lt h

/-- **C78** (well-formed): after any history of operations, a mesh that is stitched, or that has a single layer, has
all its references in range. The geometry library rejects the empty ring. -/
theorem C78_well_formed (geo : Geo K) (hg : geo.ccwConvex [] = false) (sorter : Sorter) (hsort : sorter.Ok) (ph : Phase)
    (m : Mesh K) (h : Built geo sorter ph m) (hph : ph = .joined ∨ (ph = .loose ∧ m.layers.length = 1)) (cfg : Cfg)
    (hv : cfg.detailed = true → ∀ l ∈ m.layers, l.vertices.length ≤ 2 ^ 24) : m.WF cfg := by
  have hk := built_kept hg hsort h
  refine ⟨hk.layers, fun l hl => ⟨(hk.plain l hl).toFindable, hk.range l hl⟩, ?_, hv⟩
  intro l hl v hvl id hid hne
  obtain ⟨a, ha⟩ := List.mem_iff_getElem?.1 hl
  obtain ⟨i, hi⟩ := List.mem_iff_getElem?.1 hvl
  have hr := hk.refs a i id ⟨l, v, ha, hi, hid⟩ hne
  rcases hph with rfl | ⟨rfl, h1⟩
  · exact (hr.2 (fun hh => hh)).1
  · obtain ⟨l', h2, h3⟩ := hr.1 trivial
    have ha0 : a = 0 := by have := lt_of_getElem? ha; omega
    subst ha0
    have hsz := (hk.plain l' (List.mem_of_getElem? h2)).sized
    obtain ⟨h4, h5⟩ := idLayer_small (id := id) (by omega)
    exact ⟨l', l'.polygons[id.toNat], by rw [h4]; exact h2, by rw [h5]; exact List.getElem?_eq_getElem h3⟩

/-- **C78** (paths): after any history of operations, path queries on a mesh that is stitched, or that has a single layer,
return normally. -/
theorem C78_path [NanLaws K] (geo : Geo K) (hg : geo.ccwConvex [] = false) (sorter : Sorter) (hsort : sorter.Ok) (ph : Phase)
    (m : Mesh K) (h : Built geo sorter ph m) (hph : ph = .joined ∨ (ph = .loose ∧ m.layers.length = 1)) (cfg : Cfg)
    (hv : cfg.detailed = true → ∀ l ∈ m.layers, l.vertices.length ≤ 2 ^ 24) (hn : m.NoNan)
    (bvh : Bvh K) (hb : bvh.InRange) (heap : Heap K) (src dst : Coords K) (hs : src.WF m) (hd : dst.WF m)
    (blocked : List UInt8)
    (hlen : cfg.detailed = true → ∀ s e p, Located m bvh src s → Located m bvh dst e →
      FoundBy ⟨cfg, m, (src.pos, s), (dst.pos, e), blocked⟩ p → Scalar.isNan p.length = false) :
    ∃ r, m.pathOnLayers bvh heap cfg src dst blocked = .ok r :=
  C10_path bvh heap cfg m src dst blocked hb (C78_well_formed geo hg sorter hsort ph m h hph cfg hv) hn hs hd hlen

/-- **C78** (futures): polling a future returns normally, the first time and every later time. -/
theorem C78_poll [NanLaws K] (geo : Geo K) (hg : geo.ccwConvex [] = false) (sorter : Sorter) (hsort : sorter.Ok) (ph : Phase)
    (m : Mesh K) (h : Built geo sorter ph m) (hph : ph = .joined ∨ (ph = .loose ∧ m.layers.length = 1)) (cfg : Cfg)
    (hv : cfg.detailed = true → ∀ l ∈ m.layers, l.vertices.length ≤ 2 ^ 24) (hn : m.NoNan)
    (bvh : Bvh K) (hb : bvh.InRange) (heap : Heap K) (src dst : Vec2 K) (f : FuturePath K)
    (hf : Polls bvh heap cfg m (Mesh.getPath src dst) f) : ∃ r f', f.poll bvh heap cfg m = .ok (r, f') :=
  C10_poll bvh heap cfg m src dst hb (C78_well_formed geo hg sorter hsort ph m h hph cfg hv) hn f hf

/-- **C78** (point queries): after any history, in every phase, point queries return normally. -/
theorem C78_point_queries (geo : Geo K) (hg : geo.ccwConvex [] = false) (sorter : Sorter) (hsort : sorter.Ok) (ph : Phase)
    (m : Mesh K) (h : Built geo sorter ph m) (bvh : Bvh K) (hb : bvh.InRange) (c : Coords K) :
    (∃ r, m.pointInMesh bvh c = .ok r) ∧ (∃ r, m.getPointLayer bvh c = .ok r) ∧
    ((∀ i, c.layer = some i → i.toNat < m.layers.length) →
      (∃ r, m.getClosestPoint bvh c = .ok r) ∧ ∀ t, ∃ r, m.getClosestPointTowards bvh c t = .ok r) := by
  have hk := built_kept hg hsort h
  exact C10_point_queries bvh m c hb (fun l hl => ⟨(hk.plain l hl).nonempty, (hk.plain l hl).sized, (hk.plain l hl).baked⟩)

/-- **C78** (operations): after any history, the operations that clean, stitch and restitch return normally, and the mesh
they return continues the history. -/
theorem C78_operations (geo : Geo K) (hg : geo.ccwConvex [] = false) (sorter : Sorter) (hsort : sorter.Ok) (m : Mesh K) :
    (∀ ph, Built geo sorter ph m → ∃ m' b, m.removeUseless = .ok (m', b) ∧ Built geo sorter ph m') ∧
    (∀ s oneWay, Built geo sorter .loose m → StitchesExist m s →
      ∃ m', m.stitchAtVertices sorter s oneWay = .ok m' ∧ Built geo sorter .joined m') ∧
    (∀ t s oneWay, Built geo sorter (.opened t) m → StitchesExist m s →
      ∃ m', m.restitchAtVertices sorter t s oneWay = .ok m' ∧ Built geo sorter .joined m') := by
  refine ⟨fun ph h => ?_, fun s oneWay h hs => ?_, fun t s oneWay h hs => ?_⟩
  · have hk := built_kept hg hsort h
    rcases C28_mesh_partial m ⟨fun l hl => (hk.plain l hl).size, hk.range⟩ with ⟨-, h1⟩ | ⟨_, _, _, _, -, -, -, -, h1⟩
    · exact ⟨_, _, h1, h.clean h1⟩
    · exact ⟨_, _, h1, h.clean h1⟩
  · obtain ⟨m', e, -⟩ := stitch_kept oneWay hsort (built_kept hg hsort h) loose_lifted hs
    exact ⟨m', e, h.stitch hs e⟩
  · obtain ⟨m', e, -⟩ := stitch_kept oneWay hsort (built_kept hg hsort h) (opened_lifted t) hs
    exact ⟨m', e, h.restitch hs e⟩

/-! ### Where histories start -/

theorem proper_of_consistent {l : Layer K} (hc : l.Consistent) (hne : ∀ p ∈ l.polygons, p.vertices ≠ [])
    (hsz : l.vertices.length < 2 ^ 32) (hb : ∀ boxes, l.baked = some boxes → boxes.length = l.polygons.length) : l.Proper := by
  refine ⟨⟨hc.sized, hne, hb⟩, hsz, ?_, ?_⟩
  · intro p hp v hv
    obtain ⟨k, hk⟩ := List.mem_iff_getElem?.1 hp
    obtain ⟨vx, h1, h2⟩ := hc.polygonVertex k p hk v hv
    refine ⟨vx, h1, _, h2, ?_⟩
    have := lt_of_getElem? hk
    have := hc.sized
    intro hh
    have hh := congrArg UInt32.toNat hh
    rw [UInt32.toNat_ofNat_of_lt' (by show k < 2 ^ 32; omega), show u32Max.toNat = 4294967295 from rfl] at hh
    omega
  · intro v hv id hid hne
    obtain ⟨i, hi⟩ := List.mem_iff_getElem?.1 hv
    have hlt := lt_of_getElem? hi
    obtain ⟨p, hp, -⟩ := hc.vertexPolygon (UInt32.ofNat i) v
      (by rw [UInt32.toNat_ofNat_of_lt' (by show i < 2 ^ 32; omega)]; exact hi) id hid hne
    exact lt_of_getElem? hp

theorem new_baked {vs : List (Vertex K)} {ps : List Polygon} {l : Layer K} (h : Layer.new vs ps = .ok (.ok l)) :
    ∀ boxes, l.baked = some boxes → boxes.length = l.polygons.length := by
  unfold Layer.new at h
  split at h
  · simp at h
  · split at h
    · simp at h
    · rw [bind_eq_ok] at h
      obtain ⟨l1, h1, h2⟩ := h
      simp only [Except.ok.injEq] at h2
      subst h2
      unfold Layer.bake Layer.bakeIslands at h1
      rw [bind_eq_ok] at h1
      obtain ⟨isl, -, h2⟩ := h1
      simp only [Except.ok.injEq] at h2
      subst h2
      intro boxes hb
      simp only [Layer.bakePolygonFinder, Option.some.injEq] at hb
      subst hb
      simp [Layer.bakePolygonFinder]

/-- **C78** (new meshes): `Mesh::new` on vertices and polygons that refer to each other consistently. -/
theorem C78_new (geo : Geo K) (sorter : Sorter) (vs : List (Vertex K)) (ps : List Polygon)
    (hc : (Layer.mk' vs ps : Layer K).Consistent) (hne : ∀ p ∈ ps, p.vertices ≠ []) (hv : vs.length < 2 ^ 32) (m : Mesh K)
    (h : Mesh.new vs ps = .ok (.ok m)) : Built geo sorter .loose m ∧ m.layers.length = 1 := by
  obtain ⟨l, h1, rfl⟩ := ((C43_mesh_new vs ps).2 m).1 h
  obtain ⟨rfl, rfl, -⟩ := C43_layer_new_keeps vs ps l h1
  refine ⟨.start (by simp) ?_, by simp⟩
  intro x hx
  simp only [List.mem_singleton] at hx
  subst hx
  exact proper_of_consistent ⟨hc.sized, hc.polygonVertex, hc.vertexPolygon⟩ hne hv (new_baked h1)

/-- **C78** (triangle meshes): what the conversion of a valid triangle mesh returns can start a history. -/
theorem C78_trimesh (geo : Geo K) (sorter : Sorter) (t : Trimesh K) (ht : t.Valid) (hv : t.vertices.length < 2 ^ 32)
    (tsorter : TriSorter) (hs : tsorter.Permutes) (m : Mesh K) (h : t.toMesh tsorter = .ok (.ok m)) :
    Built geo sorter .loose m ∧ m.layers.length = 1 := by
  have hbk : ∀ l ∈ m.layers, ∀ boxes, l.baked = some boxes → boxes.length = l.polygons.length := by
    unfold Trimesh.toMesh at h
    simp only at h
    rw [bind_eq_ok] at h
    obtain ⟨r, -, h⟩ := h
    cases r with
    | error e => simp at h
    | ok vs =>
      obtain ⟨l, h1, rfl⟩ := ((C43_mesh_new _ _).2 m).1 h
      intro x hx
      simp only [List.mem_singleton] at hx
      subst hx
      exact new_baked h1
  rcases C31_trimesh t ht tsorter hs with ⟨h1, -⟩ | ⟨r, h1, -, -, -, h2⟩
  · rw [h1] at h; simp at h
  · rw [h1, Except.ok.injEq] at h
    obtain ⟨l, rfl, -, hc, hp, hvl, -⟩ := h2 m h
    refine ⟨.start (by simp [Mesh.ofLayers]) ?_, by simp [Mesh.ofLayers]⟩
    intro x hx
    have hb := hbk x hx
    simp only [Mesh.ofLayers, List.mem_singleton] at hx
    subst hx
    refine proper_of_consistent hc ?_ (by rw [hvl]; exact hv) hb
    intro p hpm
    rw [hp, List.mem_map] at hpm
    obtain ⟨k, -, rfl⟩ := hpm
    exact List.cons_ne_nil _ _

/-- **C78** (triangulations): the layer made of a consistent triangulation with at most 2^24 - 1 retained triangles. -/
theorem C78_triangulation (d : TriData K) (hd : d.Consistent) (hdv : d.vertices.length < 2 ^ 32) (keeps : Vec2 K → Res Bool)
    (l : Layer K) (h : d.toLayer keeps = .ok l) (hsize : l.polygons.length ≤ 2 ^ 24 - 1)
    (hk : ∀ f ∈ d.inner, ∃ b, keeps f.center = .ok b) : l.Proper := by
  obtain ⟨kept, l', e, hsub, -, hm⟩ := C34_layer d hd keeps hk
  rw [h, Except.ok.injEq] at e
  subst e
  have hlen : kept.length ≤ 2 ^ 24 - 1 := by
    rw [hm.polygons, List.length_map] at hsize
    exact hsize
  refine proper_of_consistent (C34_consistent hd hsub hm hlen) ?_ (by rw [hm.vertices]; exact hdv) (by simp [hm.bare.2.1])
  rw [hm.polygons]
  simp

/-! ### Baking stitched layers -/

theorem flood_stack {l : Layer K} {root : Nat} : ∀ {fuel : Nat} {stack : List Nat} {isl isl' : List (Option Nat)},
    l.flood root fuel stack isl = .ok isl' → ∀ x ∈ stack, x < isl.length
  | 0, _, _, _, h => by simp [Layer.flood] at h
  | fuel + 1, [], _, _, _ => by simp
  | fuel + 1, next :: stack, isl, isl', h => by
    unfold Layer.flood at h
    rw [bind_eq_ok] at h
    obtain ⟨label, h1, h⟩ := h
    have hn := lt_of_getElem? (idx_eq_ok.1 h1)
    intro x hx
    rcases List.mem_cons.1 hx with rfl | hx
    · exact hn
    · split at h
      · rw [bind_eq_ok] at h
        obtain ⟨p, -, h⟩ := h
        simp only at h
        rw [bind_eq_ok] at h
        obtain ⟨nb, -, h⟩ := h
        have := flood_stack h x (by simp [hx])
        simpa using this
      · exact flood_stack h x hx

theorem bakeIslands_refs {l l' : Layer K} (h : l.bakeIslands = .ok l') (p : Polygon) (hp : l.polygons[0]? = some p)
    (v : UInt32) (hv : v ∈ p.vertices) (vx : Vertex K) (hvx : l.vertices[v.toNat]? = some vx) (id : UInt32)
    (hid : id ∈ vx.polygons) (hne : id ≠ u32Max) : id.toNat < l.polygons.length := by
  unfold Layer.bakeIslands at h
  rw [bind_eq_ok] at h
  obtain ⟨isl, h, -⟩ := h
  obtain ⟨n, hn⟩ : ∃ n, l.polygons.length = n + 1 := ⟨l.polygons.length - 1, by have := lt_of_getElem? hp; omega⟩
  unfold Layer.floodAll at h
  have hfi : (List.replicate l.polygons.length (none : Option Nat)).findIdx? (· == none) = some 0 := by
    rw [hn, List.replicate_succ]
    rfl
  rw [hfi] at h
  simp only at h
  rw [bind_eq_ok] at h
  obtain ⟨isl1, h, -⟩ := h
  unfold Layer.floodFuel at h
  unfold Layer.flood at h
  rw [bind_eq_ok] at h
  obtain ⟨label, h1, h⟩ := h
  rw [idx_eq_ok, hn, List.replicate_succ] at h1
  simp only [List.getElem?_cons_zero, Option.some.injEq] at h1
  subst h1
  rw [if_pos rfl, bind_eq_ok] at h
  obtain ⟨p', h2, h⟩ := h
  rw [idx_eq_ok, hp, Option.some.injEq] at h2
  subst h2
  simp only at h
  rw [bind_eq_ok] at h
  obtain ⟨nb, h3, h⟩ := h
  unfold Layer.neighbours at h3
  rw [bind_eq_ok] at h3
  obtain ⟨vs, h4, h3⟩ := h3
  rw [mapM_ok_iff] at h4
  simp only [Except.ok.injEq] at h3
  have hmem : vx ∈ vs := by
    obtain ⟨j, hj, rfl⟩ := List.getElem_of_mem hv
    have hl := h4.length_eq
    have := (List.forall₂_iff_get.1 h4).2 j hj (by omega)
    simp only [List.get_eq_getElem] at this
    rw [idx_eq_ok, hvx, Option.some.injEq] at this
    rw [this]
    exact List.getElem_mem _
  have := flood_stack h id.toNat (by
    rw [List.mem_append, List.mem_reverse, ← h3]
    refine .inl (List.mem_map.2 ⟨id, List.mem_filter.2 ⟨List.mem_flatMap.2 ⟨vx, hmem, hid⟩, by simpa using hne⟩, rfl⟩))
  simpa using this

/-- **C78** (limit): baking after stitching, which the documentation of `Mesh::bake` excludes, does not return: whenever a
layer other than the first has a polygon. -/
theorem C78_bake_stitched (geo : Geo K) (hg : geo.ccwConvex [] = false) (sorter : Sorter) (hsort : sorter.Ok)
    (m : Mesh K) (h : Built geo sorter .joined m) (a : Nat) (ha : 0 < a) (l : Layer K) (hl : m.layers[a]? = some l)
    (hp : l.polygons ≠ []) (m' : Mesh K) : m.bake ≠ .ok m' := by
  intro hb
  have hk := built_kept hg hsort h
  unfold Mesh.bake at hb
  simp only [bind_eq_ok, Except.ok.injEq] at hb
  obtain ⟨ls, hls, -⟩ := hb
  rw [mapM_ok_iff] at hls
  obtain ⟨hi, rfl⟩ := List.getElem?_eq_some_iff.1 hl
  have hlen := hls.length_eq
  have hbk := (List.forall₂_iff_get.1 hls).2 a hi (by omega)
  simp only [List.get_eq_getElem] at hbk
  have hpl := (hk.plain _ (List.mem_of_getElem? hl))
  obtain ⟨p, hp0⟩ : ∃ p, m.layers[a].polygons[0]? = some p := by
    cases hc : m.layers[a].polygons with
    | nil => exact absurd hc hp
    | cons p ps => exact ⟨p, by simp⟩
  have hpm := List.mem_of_getElem? hp0
  obtain ⟨v, hv⟩ := List.exists_mem_of_ne_nil _ (hpl.nonempty p hpm)
  obtain ⟨id, hne, ⟨l2, vx, h1, h2, h3⟩, hown⟩ := hk.corners a _ hl p hpm v hv
  rw [hl, Option.some.injEq] at h1
  subst h1
  have hown := hown (fun hh => hh)
  have hlt := bakeIslands_refs (l := m.layers[a].bakePolygonFinder) hbk p hp0 v hv vx h2 id h3 hne
  have hlt : id.toNat < m.layers[a].polygons.length := hlt
  have := hpl.sized
  rw [(idLayer_small (id := id) (by omega)).1] at hown
  omega

end Polyanya
