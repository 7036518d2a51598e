import Verif.Model.Instance
/-
Model of `src/lib.rs` (`Mesh`, `Coords`).
-/

namespace Polyanya

variable {K : Type} [Scalar K]

/-- `Coords` (`lib.rs:87-98`). -/
structure Coords (K : Type) where
  pos : Vec2 K
  layer : Option UInt8
  polygonIndex : UInt32
deriving DecidableEq, Repr

/-- `From<Vec2> for Coords` / `Coords::on_mesh` (`lib.rs:100-114`). -/
def Coords.onMesh (pos : Vec2 K) : Coords K := { pos := pos, layer := none, polygonIndex := u32Max }

/-- `Coords::on_layer` (`lib.rs:117-123`). -/
def Coords.onLayer (pos : Vec2 K) (layer : UInt8) : Coords K :=
  { pos := pos, layer := some layer, polygonIndex := u32Max }

/-- `Mesh::default` with the given layers (`lib.rs:146-156`). -/
def Mesh.ofLayers (layers : List (Layer K)) : Mesh K :=
  { layers := layers, searchDelta := Scalar.lit 1 1, searchSteps := 2 }

/-- `Mesh::new` (`lib.rs:160-166`). -/
def Mesh.new (vertices : List (Vertex K)) (polygons : List Polygon) :
    Res (Except MeshError (Mesh K)) := do
  match ← Layer.new vertices polygons with
  | .ok l => .ok (.ok (Mesh.ofLayers [l]))
  | .error e => .ok (.error e)

/-- `Mesh::bake` (`lib.rs:197-201`). -/
def Mesh.bake (m : Mesh K) : Res (Mesh K) := do
  let ls ← m.layers.mapM Layer.bake
  .ok { m with layers := ls }

/-- `Mesh::unbake` (`lib.rs:205-209`). -/
def Mesh.unbake (m : Mesh K) : Mesh K := { m with layers := m.layers.map Layer.unbake }

/-- `Mesh::set_search_delta` (`lib.rs:354-358`). -/
def Mesh.setSearchDelta (m : Mesh K) (delta : K) : Res (Mesh K) :=
  if Scalar.lit 0 0 <=. delta then .ok { m with searchDelta := delta } else .error .panic

/-- `Mesh::set_search_steps` (`lib.rs:369-373`). -/
def Mesh.setSearchSteps (m : Mesh K) (steps : Nat) : Res (Mesh K) :=
  if steps ≠ 0 then .ok { m with searchSteps := steps } else .error .panic

/-- The location of a point in layer number `i`, packed with the layer (`lib.rs:476-481`, `487-491`). -/
def Mesh.locationInLayer (m : Mesh K) (bvh : Bvh K) (pos : Vec2 K) (i : UInt8) (l : Layer K) :
    Res (Option UInt32) := do
  let r ← l.getPointLocation bvh (pos - l.offset) m.searchDelta
  .ok (r.map (packId i))

/-- Layers numbered by `index as u8`. -/
def Mesh.numbered (m : Mesh K) : List (UInt8 × Layer K) :=
  m.layers.zipIdx.map (fun p => (UInt8.ofNat p.2, p.1))

/-- `Mesh::get_point_location` (`lib.rs:471-496`). -/
def Mesh.getPointLocation (m : Mesh K) (bvh : Bvh K) (point : Coords K) : Res UInt32 :=
  match point.layer with
  | some i =>
    match m.layers[i.toNat]? with
    | some l => do
      let r ← m.locationInLayer bvh point.pos i l
      .ok (r.getD u32Max)
    | none => .ok u32Max
  | none => do
    let r ← findFirst (fun (il : UInt8 × Layer K) => do
      let r ← m.locationInLayer bvh point.pos il.1 il.2
      .ok (r.filter (· != u32Max))) m.numbered
    .ok (r.getD u32Max)

/-- `Mesh::get_point_locations` (`lib.rs:499-525`). -/
def Mesh.getPointLocations (m : Mesh K) (bvh : Bvh K) (point : Coords K) : Res (List UInt32) :=
  match point.layer with
  | some i =>
    match m.layers[i.toNat]? with
    | some l => do
      let r ← m.locationInLayer bvh point.pos i l
      .ok r.toList
    | none => .ok []
  | none => do
    let rs ← m.numbered.mapM (fun il => m.locationInLayer bvh point.pos il.1 il.2)
    .ok ((rs.filterMap id).filter (· != u32Max))

/-- `Mesh::point_in_mesh` (`lib.rs:450-452`). -/
def Mesh.pointInMesh (m : Mesh K) (bvh : Bvh K) (point : Coords K) : Res Bool := do
  let i ← m.getPointLocation bvh point
  .ok (i != u32Max)

/-- `Mesh::get_point_layer` (`lib.rs:458-468`). -/
def Mesh.getPointLayer (m : Mesh K) (bvh : Bvh K) (point : Coords K) : Res (List (Coords K)) := do
  let is ← m.getPointLocations bvh point
  .ok (is.map (fun p => { pos := point.pos, layer := some (layerOf p), polygonIndex := p }))

/-- One probe of `get_closest_point`/`get_closest_point_towards` in layer `i`
(`lib.rs:535-543`, `548-559`, `578-591`, `595-607`): `inner` is the layer-level search. -/
def closestInLayer (inner : Layer K → Res (Option (Vec2 K × UInt32))) (i : UInt8) (l : Layer K) :
    Res (Option (Coords K)) := do
  let r ← inner l
  .ok (r.map (fun np => { pos := np.1 + l.offset, layer := some i, polygonIndex := packId i np.2 }))

/-- The common loop structure of `get_closest_point` and `get_closest_point_towards`: for each step, the
requested layer, or every layer in order. -/
def Mesh.closestLoop (m : Mesh K) (layer : Option UInt8)
    (inner : Nat → Layer K → Res (Option (Vec2 K × UInt32))) : Res (Option (Coords K)) :=
  match layer with
  | some i => do
    let l ← idx m.layers i.toNat
    findFirst (fun step => closestInLayer (inner step) i l) (List.range m.searchSteps)
  | none =>
    findFirst (fun step =>
      findFirst (fun (il : UInt8 × Layer K) => closestInLayer (inner step) il.1 il.2) m.numbered)
      (List.range m.searchSteps)

/-- `Mesh::get_closest_point` (`lib.rs:530-563`). -/
def Mesh.getClosestPoint (m : Mesh K) (bvh : Bvh K) (point : Coords K) : Res (Option (Coords K)) :=
  m.closestLoop point.layer
    (fun step l => l.closestInner bvh (point.pos - l.offset) m.searchDelta step)

/-- `Mesh::get_closest_point_towards` (`lib.rs:568-610`). -/
def Mesh.getClosestPointTowards (m : Mesh K) (bvh : Bvh K) (point : Coords K) (towards : Vec2 K) :
    Res (Option (Coords K)) :=
  m.closestLoop point.layer
    (fun step l => l.towardsInner bvh (point.pos - l.offset) m.searchDelta
      (directionTo point.pos towards) step)

/-- The polygon of an endpoint of a path query (`lib.rs:256-265`): the stored one, or a search;
`none` is the early `return None` of `?`. -/
def Mesh.endpointPolygon (m : Mesh K) (bvh : Bvh K) (c : Coords K) : Res (Option UInt32) :=
  if c.polygonIndex ≠ u32Max then .ok (some c.polygonIndex)
  else do
    let r ← m.getClosestPoint bvh c
    .ok (r.map (·.polygonIndex))

/-- The island test of `path_on_layers` (`lib.rs:266-279`): `true` means "return None". -/
def Mesh.islandsDiffer (m : Mesh K) (s e : UInt32) : Res Bool :=
  if m.layers.length = 1 then do
    let l ← idx m.layers (layerOf s).toNat
    match l.islands with
    | none => .ok false
    | some isl =>
      match isl[(polygonOf s).toNat]?, isl[(polygonOf e).toNat]? with
      | some a, some b => .ok (a ≠ b)
      | _, _ => .ok false
  else .ok false

/-- The search loop of `path_on_layers` (`lib.rs:313-333`): `n` iterations remain. Without
`detailed-layers` a found path is returned at once (`Sum.inl`); with it, found paths are collected
(`Sum.inr`), and `NotFound` rotates the list (removes the first, pushes it back). -/
def searchLoop (heap : Heap K) (cfg : Cfg) (mesh : Mesh K) :
    Nat → Inst K → List (Path K) → Res (Path K ⊕ List (Path K))
  | 0, _, paths => .ok (.inr paths)
  | n + 1, inst, paths => do
    let (step, inst) ← inst.next heap cfg mesh
    match step with
    | .found p =>
      if cfg.detailed then searchLoop heap cfg mesh n inst (paths ++ [p]) else .ok (.inl p)
    | .notFound =>
      match paths with
      | [] => searchLoop heap cfg mesh n inst []
      | p :: ps => searchLoop heap cfg mesh n inst (if cfg.detailed then ps ++ [p] else ps)
    | .continue => searchLoop heap cfg mesh n inst paths

/-- `self.layers.iter().map(|l| l.polygons.len()).sum::<usize>() * 10` (`lib.rs:313`). -/
def Mesh.stepBudget (m : Mesh K) : Nat := (m.layers.map (·.polygons.length)).sum * 10

/-- The end of `path_on_layers` (`lib.rs:334-341`): with `detailed-layers` the paths are sorted by
length (`partial_cmp(..).unwrap()` panics on NaN); the first path is returned, if any. -/
def pickPath (cfg : Cfg) (paths : List (Path K)) : Res (Option (Path K)) :=
  if cfg.detailed then
    if paths.length ≥ 2 && paths.any (fun p => Scalar.isNan p.length) then .error .panic
    else .ok (paths.mergeSort (fun a b => a.length <=. b.length)).head?
  else .ok paths.head?

/-- The part of `path_on_layers` after the polygons of both ends are known (`lib.rs:266-341`). -/
def Mesh.pathBetween (heap : Heap K) (cfg : Cfg) (m : Mesh K) (src dst : Vec2 K) (s e : UInt32)
    (blocked : List UInt8) : Res (Option (Path K)) := do
  if ← m.islandsDiffer s e then .ok none
  else if s = e then
    .ok (some { length := src.distance dst, path := [dst],
                pathWithLayers := if cfg.detailed then [(dst, layerOf e)] else [] })
  else
    let inst ← Inst.setup cfg m (src, s) (dst, e) blocked
    match ← searchLoop heap cfg m m.stepBudget inst [] with
    | .inl p => .ok (some p)
    | .inr paths => pickPath cfg paths

/-- `Mesh::path_on_layers` (`lib.rs:244-342`). -/
def Mesh.pathOnLayers (bvh : Bvh K) (heap : Heap K) (cfg : Cfg) (m : Mesh K) (src dst : Coords K)
    (blocked : List UInt8) : Res (Option (Path K)) := do
  match ← m.endpointPolygon bvh src with
  | none => .ok none
  | some s =>
    match ← m.endpointPolygon bvh dst with
    | none => .ok none
    | some e => m.pathBetween heap cfg src.pos dst.pos s e blocked

/-- `Mesh::path` (`lib.rs:233-235`). -/
def Mesh.path (bvh : Bvh K) (heap : Heap K) (cfg : Cfg) (m : Mesh K) (src dst : Coords K) :
    Res (Option (Path K)) := m.pathOnLayers bvh heap cfg src dst []

end Polyanya
