import Verif.Proofs.Found
import Verif.Spec.RatScalar
/-
Properties C01-C05 and C08: what a returned path is.
All theorems hold for every arithmetic (`Scalar K`), every BVH, every tie-break of the queue.
-/

namespace Polyanya

variable {K : Type} [Scalar K]

/-- C01, blocking query: a returned path ends exactly at the requested position; with `detailed-layers`,
`path_with_layers` ends there too, on the layer of the destination polygon. -/
theorem C01_path_ends_at_destination (bvh : Bvh K) (heap : Heap K) (cfg : Cfg) (m : Mesh K)
    (src dst : Coords K) (blocked : List UInt8) (p : Path K)
    (h : m.pathOnLayers bvh heap cfg src dst blocked = .ok (some p)) :
    p.path.getLast? = some dst.pos ∧
    ∃ e, Located m bvh dst e ∧
      (cfg.detailed = true → ∃ i : UInt8, i.toNat = idLayer e ∧
        p.pathWithLayers.getLast? = some (dst.pos, i)) := by
  obtain ⟨s, e, -, he, h⟩ := pathOnLayers_some h
  rcases pathBetween_some h with ⟨-, rfl⟩ | ⟨-, hf⟩
  · exact ⟨rfl, e, endpointPolygon_located.1 he, fun hd => ⟨_, layerOf_toNat e, by simp [hd]⟩⟩
  · obtain ⟨h1, h2⟩ := foundBy_last hf
    exact ⟨h1, e, endpointPolygon_located.1 he, fun hd => ⟨_, layerOf_toNat e, h2 hd⟩⟩

/-- C01, asynchronous query. -/
theorem C01_future_ends_at_destination (bvh : Bvh K) (heap : Heap K) (cfg : Cfg) (m : Mesh K)
    (src dst : Vec2 K) (p : Path K)
    (h : Resolves bvh heap cfg m (Mesh.getPath src dst) (some p)) :
    p.path.getLast? = some dst ∧
    ∃ e, m.getPointLocation bvh (Coords.onMesh dst) = .ok e ∧
      (cfg.detailed = true → ∃ i : UInt8, i.toNat = idLayer e ∧
        p.pathWithLayers.getLast? = some (dst, i)) := by
  obtain ⟨s, e, -, he, -, -, h⟩ := resolves_found h
  rcases h with ⟨-, rfl⟩ | ⟨-, hf⟩
  · exact ⟨rfl, e, he, fun hd => ⟨_, layerOf_toNat e, by simp [straightPath, hd]⟩⟩
  · obtain ⟨h1, h2⟩ := foundBy_last hf
    exact ⟨h1, e, he, fun hd => ⟨_, layerOf_toNat e, h2 hd⟩⟩

/-- C02-C05 in one statement: a path returned by `path_on_layers` is realised by a corridor from the
polygon of the start to the polygon of the destination, no polygon of which (but the first) is on a
blocked layer, and no polygon of which (but the first and the last) is a dead end or the destination. -/
theorem path_realised [NanLaws K] (bvh : Bvh K) (heap : Heap K) (cfg : Cfg) (m : Mesh K)
    (hm : m.Sized) (src dst : Coords K) (blocked : List UInt8) (p : Path K)
    (h : m.pathOnLayers bvh heap cfg src dst blocked = .ok (some p)) :
    ∃ s e cs, Located m bvh src s ∧ Located m bvh dst e
      ∧ Realises m blocked s e dst.pos p.path cs
      ∧ (∀ c ∈ cs, Unblocked blocked c.dst)
      ∧ (∀ c ∈ cs.dropLast, c.dst ≠ e ∧ NotDeadEnd m c.dst) ∧ (s ≠ e → cs ≠ []) := by
  obtain ⟨s, e, hs, he, h⟩ := pathOnLayers_some h
  have hs' := endpointPolygon_located.1 hs
  have he' := endpointPolygon_located.1 he
  rcases pathBetween_some h with ⟨rfl, rfl⟩ | ⟨-, hf⟩
  · exact ⟨s, s, [], hs', he', ⟨.nil s, [], [], [], rfl, by simp, .nil, by simp, by simp⟩,
      by simp, by simp, fun h => absurd rfl h⟩
  · obtain ⟨cs, h1, h2, h3, h4⟩ := foundBy_realises (located_ne_max hm he') hf
    exact ⟨s, e, cs, hs', he', h1, h2,
      fun c hc => ⟨(h3 c hc).1, notDeadEnd_of_open (h3 c hc).2⟩, fun _ => h4⟩

/-- The same for the asynchronous query. -/
theorem future_realised [NanLaws K] (bvh : Bvh K) (heap : Heap K) (cfg : Cfg) (m : Mesh K)
    (src dst : Vec2 K) (p : Path K)
    (h : Resolves bvh heap cfg m (Mesh.getPath src dst) (some p)) :
    ∃ s e cs, m.getPointLocation bvh (Coords.onMesh src) = .ok s
      ∧ m.getPointLocation bvh (Coords.onMesh dst) = .ok e
      ∧ Realises m [] s e dst p.path cs
      ∧ (∀ c ∈ cs.dropLast, c.dst ≠ e ∧ NotDeadEnd m c.dst) := by
  obtain ⟨s, e, hs, he, -, he', h⟩ := resolves_found h
  rcases h with ⟨rfl, rfl⟩ | ⟨-, hf⟩
  · exact ⟨s, s, [], hs, he, ⟨.nil s, [], [], [], rfl, by simp, .nil, by simp, by simp⟩, by simp⟩
  · obtain ⟨cs, h1, h2, h3, h4⟩ := foundBy_realises he' hf
    exact ⟨s, e, cs, hs, he, h1, fun c hc => ⟨(h3 c hc).1, notDeadEnd_of_open (h3 c hc).2⟩⟩

/-- C02: a returned path is realised by a corridor of neighbouring polygons. -/
theorem C02_path_has_corridor [NanLaws K] (bvh : Bvh K) (heap : Heap K) (cfg : Cfg) (m : Mesh K)
    (hm : m.Sized) (src dst : Coords K) (blocked : List UInt8) (p : Path K)
    (h : m.pathOnLayers bvh heap cfg src dst blocked = .ok (some p)) :
    ∃ s e cs, Located m bvh src s ∧ Located m bvh dst e ∧ Realises m blocked s e dst.pos p.path cs := by
  obtain ⟨s, e, cs, h1, h2, h3, -⟩ := path_realised bvh heap cfg m hm src dst blocked p h
  exact ⟨s, e, cs, h1, h2, h3⟩

/-- C02, asynchronous query. -/
theorem C02_future_has_corridor [NanLaws K] (bvh : Bvh K) (heap : Heap K) (cfg : Cfg) (m : Mesh K)
    (src dst : Vec2 K) (p : Path K)
    (h : Resolves bvh heap cfg m (Mesh.getPath src dst) (some p)) :
    ∃ s e cs, m.getPointLocation bvh (Coords.onMesh src) = .ok s
      ∧ m.getPointLocation bvh (Coords.onMesh dst) = .ok e ∧ Realises m [] s e dst p.path cs := by
  obtain ⟨s, e, cs, h1, h2, h3, -⟩ := future_realised bvh heap cfg m src dst p h
  exact ⟨s, e, cs, h1, h2, h3⟩

/-- C02, contrapositive: between polygons with no corridor, no path is ever returned. -/
theorem C02_no_path_when_disconnected [NanLaws K] (bvh : Bvh K) (heap : Heap K) (cfg : Cfg)
    (m : Mesh K) (hm : m.Sized) (src dst : Coords K) (blocked : List UInt8)
    (h : ∀ s e cs, Located m bvh src s → Located m bvh dst e → ¬ Corridor m s e cs) (p : Path K) :
    m.pathOnLayers bvh heap cfg src dst blocked ≠ .ok (some p) := by
  intro hp
  obtain ⟨s, e, cs, h1, h2, h3⟩ := C02_path_has_corridor bvh heap cfg m hm src dst blocked p hp
  exact h s e cs h1 h2 h3.corridor

/-- C03: blocked layers are never entered. -/
theorem C03_blocked_layers_not_entered [NanLaws K] (bvh : Bvh K) (heap : Heap K) (cfg : Cfg)
    (m : Mesh K) (hm : m.Sized) (src dst : Coords K) (blocked : List UInt8) (p : Path K)
    (h : m.pathOnLayers bvh heap cfg src dst blocked = .ok (some p)) :
    ∃ s e cs, Located m bvh src s ∧ Located m bvh dst e
      ∧ Realises m blocked s e dst.pos p.path cs
      ∧ ∀ c ∈ cs, ∀ b ∈ blocked, idLayer c.dst ≠ b.toNat := by
  obtain ⟨s, e, cs, h1, h2, h3, h4, -⟩ := path_realised bvh heap cfg m hm src dst blocked p h
  exact ⟨s, e, cs, h1, h2, h3, fun c hc b hb => (h4 c hc b hb).symm⟩

theorem Corridor.eq_of_nil {m : Mesh K} {s e : UInt32} {cs : List Crossing} (h : Corridor m s e cs)
    (hn : cs = []) : s = e := by
  cases h with
  | nil => rfl
  | cons => simp at hn

theorem Corridor.last_dst {m : Mesh K} {s e : UInt32} {cs : List Crossing} (h : Corridor m s e cs) :
    cs ≠ [] → ∃ c ∈ cs, c.dst = e := by
  induction h with
  | nil => intro h; exact absurd rfl h
  | @cons c e cs hv hc ih =>
    intro _
    cases cs with
    | nil => exact ⟨c, by simp, hc.eq_of_nil rfl⟩
    | cons d ds =>
      obtain ⟨c', hc', he⟩ := ih (by simp)
      exact ⟨c', List.mem_cons_of_mem _ hc', he⟩

/-- C03: a destination in a polygon of a blocked layer (other than the starting polygon) is never
reached. -/
theorem C03_blocked_destination [NanLaws K] (bvh : Bvh K) (heap : Heap K) (cfg : Cfg)
    (m : Mesh K) (hm : m.Sized) (src dst : Coords K) (blocked : List UInt8) (s e : UInt32)
    (hs : Located m bvh src s) (he : Located m bvh dst e) (hne : s ≠ e)
    (hb : ∃ b ∈ blocked, idLayer e = b.toNat) (p : Path K) :
    m.pathOnLayers bvh heap cfg src dst blocked ≠ .ok (some p) := by
  intro h
  obtain ⟨s', e', cs, h1, h2, h3, h4, -, h5⟩ := path_realised bvh heap cfg m hm src dst blocked p h
  have e1 := endpointPolygon_located.2 hs
  have e2 := endpointPolygon_located.2 he
  rw [endpointPolygon_located.2 h1] at e1
  rw [endpointPolygon_located.2 h2] at e2
  simp only [Except.ok.injEq, Option.some.injEq] at e1 e2
  subst e1 e2
  obtain ⟨c, hc, hce⟩ := h3.corridor.last_dst (h5 hne)
  obtain ⟨b, hb, hbe⟩ := hb
  exact h4 c hc b hb (by rw [hce, hbe])

/-- C04: a polygon flagged `is_one_way` is only ever the first or the last polygon of the corridor; the
destination polygon is entered only once. -/
theorem C04_dead_ends_only_as_destination [NanLaws K] (bvh : Bvh K) (heap : Heap K) (cfg : Cfg)
    (m : Mesh K) (hm : m.Sized) (src dst : Coords K) (blocked : List UInt8) (p : Path K)
    (h : m.pathOnLayers bvh heap cfg src dst blocked = .ok (some p)) :
    ∃ s e cs, Located m bvh src s ∧ Located m bvh dst e
      ∧ Realises m blocked s e dst.pos p.path cs
      ∧ ∀ c ∈ cs.dropLast, c.dst ≠ e ∧ NotDeadEnd m c.dst := by
  obtain ⟨s, e, cs, h1, h2, h3, -, h4, -⟩ := path_realised bvh heap cfg m hm src dst blocked p h
  exact ⟨s, e, cs, h1, h2, h3, h4⟩

/-- C04, asynchronous query. -/
theorem C04_future_dead_ends [NanLaws K] (bvh : Bvh K) (heap : Heap K) (cfg : Cfg) (m : Mesh K)
    (src dst : Vec2 K) (p : Path K)
    (h : Resolves bvh heap cfg m (Mesh.getPath src dst) (some p)) :
    ∃ s e cs, Realises m [] s e dst p.path cs
      ∧ ∀ c ∈ cs.dropLast, c.dst ≠ e ∧ NotDeadEnd m c.dst := by
  obtain ⟨s, e, cs, -, -, h3, h4⟩ := future_realised bvh heap cfg m src dst p h
  exact ⟨s, e, cs, h3, h4⟩

theorem forall₂_left_mem {α β : Type} {R : α → β → Prop} {l : List α} {r : List β}
    (h : List.Forall₂ R l r) : ∀ a ∈ l, ∃ b ∈ r, R a b := by
  induction h with
  | nil => simp
  | cons h1 _ ih =>
    intro a ha
    rcases List.mem_cons.1 ha with rfl | ha
    · exact ⟨_, List.mem_cons_self .., h1⟩
    · obtain ⟨b, hb, hr⟩ := ih a ha
      exact ⟨b, List.mem_cons_of_mem _ hb, hr⟩

/-- C05 (waypoints): every waypoint at least two before the end is, up to the tolerance, the position of
a mesh vertex at which the path may bend. -/
theorem C05_waypoints_are_corners [NanLaws K] (bvh : Bvh K) (heap : Heap K) (cfg : Cfg) (m : Mesh K)
    (hm : m.Sized) (src dst : Coords K) (blocked : List UInt8) (p : Path K)
    (h : m.pathOnLayers bvh heap cfg src dst blocked = .ok (some p)) :
    ∀ i w, i + 2 < p.path.length → p.path[i]? = some w →
      ∃ l ∈ m.layers, ∃ v ∈ l.vertices, MayBend blocked v ∧
        ((v.coords + l.offset).distanceSquared w <. Scalar.lit 1 10) = true := by
  obtain ⟨s, e, cs, -, -, h3, -⟩ := path_realised bvh heap cfg m hm src dst blocked p h
  obtain ⟨bends, extra, sub, hp, -, hf, hlen, -⟩ := h3.waypoints
  intro i w hi hw
  rw [hp] at hi hw
  simp only [List.length_append, List.length_singleton] at hi
  rw [List.append_assoc, List.getElem?_append_left (by omega)] at hw
  obtain ⟨c, -, l, v, hl, hv, hbend, hnear⟩ := forall₂_left_mem hf w (List.mem_of_getElem? hw)
  exact ⟨l, List.mem_of_getElem? hl, v,
    hv.elim (List.mem_of_getElem? ·) (List.mem_of_getElem? ·), hbend, hnear⟩

/-- C05 (last bend): the waypoint directly before the destination is a corner as well, or a point of the
edge through which the destination polygon is entered. -/
theorem C05_last_bend [NanLaws K] (bvh : Bvh K) (heap : Heap K) (cfg : Cfg) (m : Mesh K)
    (hm : m.Sized) (src dst : Coords K) (blocked : List UInt8) (p : Path K)
    (h : m.pathOnLayers bvh heap cfg src dst blocked = .ok (some p)) (w : Vec2 K)
    (hw : p.path.dropLast.getLast? = some w) :
    ∃ s e cs, Located m bvh src s ∧ Located m bvh dst e ∧ Corridor m s e cs ∧
      ((∃ c ∈ cs, BendsAt m blocked w c) ∨ ∃ c, cs.getLast? = some c ∧ OnCrossing m w c) := by
  obtain ⟨s, e, cs, h1, h2, h3, -⟩ := path_realised bvh heap cfg m hm src dst blocked p h
  refine ⟨s, e, cs, h1, h2, h3.corridor, ?_⟩
  obtain ⟨bends, extra, sub, hp, hsub, hf, hlen, hon⟩ := h3.waypoints
  rw [hp, List.dropLast_concat] at hw
  rcases List.mem_append.1 (List.mem_of_getLast? hw) with hw | hw
  · obtain ⟨c, hc, hb⟩ := forall₂_left_mem hf w hw
    exact .inl ⟨c, List.dropLast_subset _ (hsub.subset hc), hb⟩
  · exact .inr (hon w hw)

/-- C08: two points located in the same polygon give the straight segment. -/
theorem C08_same_polygon (bvh : Bvh K) (heap : Heap K) (cfg : Cfg) (m : Mesh K)
    (src dst : Coords K) (blocked : List UInt8) (s : UInt32) (l : Layer K) (poly : Polygon)
    (hs : Located m bvh src s) (hd : Located m bvh dst s) (hp : HasPolygon m s l poly) :
    ∃ pwl, m.pathOnLayers bvh heap cfg src dst blocked =
      .ok (some { length := src.pos.distance dst.pos, path := [dst.pos], pathWithLayers := pwl }) := by
  unfold Mesh.pathOnLayers
  rw [endpointPolygon_located.2 hs, endpointPolygon_located.2 hd]
  simp only [res_bind_ok, Mesh.pathBetween]
  have : m.islandsDiffer s s = .ok false := by
    unfold Mesh.islandsDiffer
    split
    · have h1 : idx m.layers (layerOf s).toNat = .ok l := idx_eq_ok.2 (by rw [layerOf_toNat]; exact hp.1)
      rw [h1, res_bind_ok]
      split
      · rfl
      · split
        · rename_i a b ha hb
          rw [ha] at hb
          simp [Option.some.inj hb]
        · rfl
    · rfl
  rw [this]
  exact ⟨_, rfl⟩

/-! Non-vacuity: a query on the L-shaped mesh around the corner `(1,1)`. -/

/-- A query whose answer bends around the corner. -/
theorem exPath : exMesh.pathOnLayers allBvh ratHeap ⟨true⟩ (Coords.onMesh (v2 (3/2) (1/2)))
    (Coords.onMesh (v2 (3/4) (3/2))) [] =
    .ok (some ⟨633061/500000, [⟨1,1⟩, ⟨3/4,3/2⟩], [(⟨1,1⟩,0), (⟨3/4,3/2⟩,0)]⟩) := by decide +kernel

theorem exMesh_sized : exMesh.Sized := by
  intro l hl
  simp only [exMesh, Mesh.ofLayers, List.mem_singleton] at hl
  subst hl
  decide

example : ∃ s e cs, Located exMesh allBvh (Coords.onMesh (v2 (3/2) (1/2))) s
    ∧ Located exMesh allBvh (Coords.onMesh (v2 (3/4) (3/2))) e
    ∧ Realises exMesh [] s e (v2 (3/4) (3/2)) [⟨1,1⟩, ⟨3/4,3/2⟩] cs :=
  C02_path_has_corridor _ _ _ _ exMesh_sized _ _ _ _ exPath

/-- The hypotheses of C08 hold for two points of square 1. -/
example : Located exMesh allBvh (Coords.onMesh (v2 (3/2) (1/2))) 1
    ∧ Located exMesh allBvh (Coords.onMesh (v2 (5/4) (3/4))) 1
    ∧ HasPolygon exMesh 1 exLayer (Polygon.new [1, 2, 5, 4] false) := by
  refine ⟨endpointPolygon_located.1 (by decide +kernel), endpointPolygon_located.1 (by decide +kernel),
    ?_, ?_⟩
  · rfl
  · rfl

/-- The hypotheses of `C03_blocked_destination` hold when layer 0 is blocked. -/
example : Located exMesh allBvh (Coords.onMesh (v2 (3/2) (1/2))) 1
    ∧ Located exMesh allBvh (Coords.onMesh (v2 (3/4) (3/2))) 2
    ∧ ∃ b ∈ [(0 : UInt8)], idLayer 2 = b.toNat :=
  ⟨endpointPolygon_located.1 (by decide +kernel), endpointPolygon_located.1 (by decide +kernel),
    0, by simp, by decide⟩

end Polyanya
