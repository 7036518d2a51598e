import Verif.Model.Mesh
import Verif.Model.Merger
/-
Model of `src/input/triangulation.rs`. The crates `geo` (point in polygon, simplification, union) and `spade` (constrained
Delaunay triangulation) are parameters (`TriLib`).
-/

namespace Polyanya

variable {K : Type} [Scalar K]

/-! ### `geo` -/

/-- `geo::LineString`: a list of points. -/
abbrev LineString (K : Type) := List (Vec2 K)

/-- `geo::Polygon`. -/
structure GeoPolygon (K : Type) where
  exterior : LineString K
  interiors : List (LineString K)

/-- `LineString::is_closed`: `self.0.first() == self.0.last()`. -/
def LineString.isClosed (r : LineString K) : Bool :=
  match r.head?, r.getLast? with
  | some a, some b => a.beq b
  | _, _ => true

/-- `LineString::close`. -/
def LineString.close (r : LineString K) : LineString K :=
  if LineString.isClosed r then r else r ++ (r.head?).toList

/-- `geo::Polygon::new`: closes all rings. -/
def GeoPolygon.new (exterior : LineString K) (interiors : List (LineString K)) : GeoPolygon K :=
  { exterior := LineString.close exterior, interiors := interiors.map LineString.close }

/-- `geo::Polygon::interiors_push`. -/
def GeoPolygon.push (p : GeoPolygon K) (r : LineString K) : GeoPolygon K :=
  { p with interiors := p.interiors ++ [LineString.close r] }

/-- `geo::Polygon::interiors_mut` with a closure that replaces each ring. -/
def GeoPolygon.mapInteriors (p : GeoPolygon K) (f : LineString K → LineString K) : GeoPolygon K :=
  { p with interiors := p.interiors.map (fun r => LineString.close (f r)) }

/-- `geo::Polygon::exterior_mut` with a closure that replaces the ring. -/
def GeoPolygon.setExterior (p : GeoPolygon K) (r : LineString K) : GeoPolygon K :=
  { p with exterior := LineString.close r }

/-! ### `spade` -/

/-- What was done to a `ConstrainedDelaunayTriangulation`. A vertex handle is the number of the insertion that returned
it. -/
inductive CdtOp (K : Type) where
  /-- `cdt.insert(point)` -/
  | insert (p : Vec2 K)
  /-- `cdt.add_constraint_and_split(a, b, |v| v)` -/
  | constrain (a b : Nat)
deriving DecidableEq

/-- `ConstrainedDelaunayTriangulation<Point2<f64>>`: determined by the sequence of operations. -/
abbrev Cdt (K : Type) := List (CdtOp K)

/-- The number of insertions so far, which numbers the next one. -/
def Cdt.inserted (c : Cdt K) : Nat := (c.filter (fun o => match o with | .insert _ => true | _ => false)).length

/-- An inner face: `index()`, the indices of `vertices()`, and `center()` cast to `f32`. -/
structure Face (K : Type) where
  index : Nat
  corners : Nat × Nat × Nat
  center : Vec2 K
deriving DecidableEq

/-- A vertex: `position()` cast to `f32`, and the index of the face of each of its `out_edges()`. -/
structure TriVertex (K : Type) where
  position : Vec2 K
  faces : List Nat

/-- A triangulation, as read by `as_layer`. -/
structure TriData (K : Type) where
  /-- `all_faces().len()` -/
  faceCount : Nat
  /-- `inner_faces()` -/
  inner : List (Face K)
  /-- `vertices()` -/
  vertices : List (TriVertex K)

/-- The functions of `geo` and `spade` used by the builder. -/
structure TriLib (K : Type) where
  /-- `geo::Contains` for a polygon and a point -/
  contains : GeoPolygon K → Vec2 K → Bool
  /-- `geo::SimplifyVwPreserve` for a line string -/
  simplifyVw : LineString K → K → LineString K
  /-- `geo::BooleanOps::union` of two polygons -/
  union : GeoPolygon K → GeoPolygon K → List (GeoPolygon K)
  /-- does `insert` accept this point? (`spade` refuses NaN, too small and too large coordinates) -/
  insertOk : Vec2 K → Bool
  /-- the triangulation after the operations -/
  triangulate : Cdt K → Res (TriData K)

/-! ### Inflation (`triangulation.rs:611-823`) -/

/-- `segment_normal` (`triangulation.rs:619-630`). -/
def segmentNormal (start stop : Vec2 K) : Option (Vec2 K) :=
  let edgeLength := stop.distance start
  if edgeLength ==. Scalar.lit 0 0 then none
  else
    let dx := stop.x -. start.x
    let dy := stop.y -. start.y
    some ⟨Scalar.neg dy /. edgeLength, dx /. edgeLength⟩

/-- The angle of a point seen from `center`, in `[0, TAU)` (`triangulation.rs:784-796`). -/
def angleAt (center vertex : Vec2 K) : K :=
  let a : K := Scalar.atan2 (vertex.y -. center.y) (vertex.x -. center.x)
  if Scalar.signNeg a then a +. Scalar.tau else a

/-- `create_arc` (`triangulation.rs:775-822`), always called with `outwards = true`. `segment_count - 1` underflows for
a count of zero. -/
def createArc (center : Vec2 K) (radius : K) (startVertex endVertex : Vec2 K) (segmentCount : Nat) :
    Res (LineString K) :=
  let startAngle := angleAt center startVertex
  let endAngle := angleAt center endVertex
  if segmentCount = 0 then .error .panic
  else
    let n := if segmentCount % 2 = 0 then segmentCount - 1 else segmentCount
    let angle := if endAngle <. startAngle then startAngle -. endAngle else (startAngle +. Scalar.tau) -. endAngle
    let segmentAngle := Scalar.neg angle /. Scalar.ofNat n
    .ok (startVertex :: (List.range' 1 (n - 1)).map (fun i =>
      let a := startAngle +. (segmentAngle *. Scalar.ofNat i)
      (⟨center.x +. (Scalar.cos a *. radius), center.y +. (Scalar.sin a *. radius)⟩ : Vec2 K)) ++ [endVertex])

/-- `round_line` (`triangulation.rs:741-773`). -/
def roundLine (line : Vec2 K × Vec2 K) (distance : K) (arcSegments : Nat) : Res (LineString K) :=
  match segmentNormal line.1 line.2 with
  | none =>
    .ok ((List.range (arcSegments * 2)).map (fun i =>
      let a := (Scalar.ofNat i *. Scalar.tau) /. Scalar.ofNat (arcSegments * 2)
      (⟨line.1.x +. (Scalar.cos a *. distance), line.1.y +. (Scalar.sin a *. distance)⟩ : Vec2 K)))
  | some normal => do
    let a ← createArc line.1 distance (line.1 - normal.smul distance) (line.1 + normal.smul distance) arcSegments
    let b ← createArc line.2 distance (line.2 + normal.smul distance) (line.2 - normal.smul distance) arcSegments
    .ok (a ++ b)

/-- One union with a rounded line (`triangulation.rs:676-681`, `709-719`): the outline and its holes so far. -/
def inflateStep (lib : TriLib K) (distance : K) (arcSegments : Nat) (acc : LineString K × List (LineString K))
    (line : Vec2 K × Vec2 K) : Res (LineString K × List (LineString K)) := do
  let rounded ← roundLine line distance arcSegments
  match lib.union (GeoPolygon.new acc.1 []) (GeoPolygon.new rounded []) with
  | [] => .error .panic
  | p :: _ => .ok (p.exterior, acc.2 ++ p.interiors)

/-- The common part of `inflate` (`triangulation.rs:668-694`) and `inflate_as_polygon` (`696-739`), which differ only in
that the first one drops the holes. `LineString::lines` is `windows(2)`. -/
def inflateOutline (lib : TriLib K) (ring : LineString K) (distance : K) (arcSegments : Nat) :
    Res (LineString K × List (LineString K)) :=
  match windows2 ring with
  | [] => .error .panic
  | line :: lines => do
    let first ← roundLine line distance arcSegments
    let acc ← lines.foldlM (inflateStep lib distance arcSegments) (first, [])
    if LineString.isClosed ring then .ok acc
    else
      match ring.head? with
      | none => .error .panic
      | some f => inflateStep lib distance arcSegments acc (((line :: lines).getLast (by simp)).2, f)

/-- `Inflate::inflate_obstacles` (`triangulation.rs:640-654`). -/
def GeoPolygon.inflateObstacles (lib : TriLib K) (p : GeoPolygon K) (distance : K) (arcSegments : Nat)
    (minimumSurface : K) : Res (GeoPolygon K) := do
  let rings ← p.interiors.mapM (fun r => do
    let o ← inflateOutline lib r distance arcSegments
    .ok (lib.simplifyVw o.1 minimumSurface))
  .ok (GeoPolygon.new p.exterior rings)

/-- `Inflate::inflate` (`triangulation.rs:656-665`). -/
def GeoPolygon.inflate (lib : TriLib K) (p : GeoPolygon K) (distance : K) (arcSegments : Nat) (minimumSurface : K) :
    Res (GeoPolygon K) := do
  let o ← inflateOutline lib p.exterior distance arcSegments
  let inflated := GeoPolygon.new o.1 o.2
  let obstacles ← p.inflateObstacles lib distance arcSegments minimumSurface
  let hole ← idx inflated.interiors 0
  .ok (obstacles.setExterior hole)

/-! ### The builder -/

/-- `AgentRadius` (`triangulation.rs:15-19`). -/
inductive AgentRadius (K : Type) where
  | none
  | obstacles (radius : K) (segments : UInt8) (simplification : K)
  | everything (radius : K) (segments : UInt8) (simplification : K)

/-- `Triangulation` (`triangulation.rs:23-31`). -/
structure Triangulation (K : Type) where
  inner : GeoPolygon K
  prebuilt : Option (GeoPolygon K × Cdt K)
  baseLayer : Option (Layer K)
  agentRadius : AgentRadius K

/-- `from_geo_polygon` (`triangulation.rs:47-54`). -/
def Triangulation.fromGeoPolygon (p : GeoPolygon K) : Triangulation K :=
  { inner := p, prebuilt := none, baseLayer := none, agentRadius := .none }

/-- `from_outer_edges` (`triangulation.rs:57-67`). -/
def Triangulation.fromOuterEdges (edges : List (Vec2 K)) : Triangulation K :=
  { inner := GeoPolygon.new edges [], prebuilt := none, baseLayer := none, agentRadius := .none }

/-- `from_mesh_layer` (`triangulation.rs:80-87`). -/
def Triangulation.fromMeshLayer (l : Layer K) : Triangulation K :=
  { inner := GeoPolygon.new [] [], prebuilt := none, baseLayer := some l, agentRadius := .none }

/-- `from_mesh` (`triangulation.rs:70-77`). -/
def Triangulation.fromMesh (m : Mesh K) (layer : UInt8) : Res (Triangulation K) := do
  let l ← idx m.layers layer.toNat
  .ok (Triangulation.fromMeshLayer l)

/-- `set_agent_radius` (`triangulation.rs:90-100`). -/
def AgentRadius.setRadius (a : AgentRadius K) (radius : K) : AgentRadius K :=
  match a with
  | .none => .obstacles radius 5 (Scalar.lit 0 0)
  | .obstacles _ segments simplification => .obstacles radius segments simplification
  | .everything _ segments simplification => .everything radius segments simplification

/-- `set_agent_radius_segments` (`triangulation.rs:103-113`). -/
def AgentRadius.setSegments (a : AgentRadius K) (segments : UInt8) : AgentRadius K :=
  match a with
  | .none => .obstacles (Scalar.lit 0 0) segments (Scalar.lit 0 0)
  | .obstacles radius _ simplification => .obstacles radius segments simplification
  | .everything radius _ simplification => .everything radius segments simplification

/-- `set_agent_radius_simplification` (`triangulation.rs:119-129`). -/
def AgentRadius.setSimplification (a : AgentRadius K) (simplification : K) : AgentRadius K :=
  match a with
  | .none => .obstacles (Scalar.lit 0 0) 5 simplification
  | .obstacles radius segments _ => .obstacles radius segments simplification
  | .everything radius segments _ => .everything radius segments simplification

/-- `agent_radius_on_outer_edge` (`triangulation.rs:132-145`). -/
def AgentRadius.setOuterEdge (a : AgentRadius K) (enabled : Bool) : AgentRadius K :=
  match a, enabled with
  | .none, true => .everything (Scalar.lit 0 0) 5 (Scalar.lit 0 0)
  | .none, false => .obstacles (Scalar.lit 0 0) 5 (Scalar.lit 0 0)
  | .obstacles radius segments simplification, true => .everything radius segments simplification
  | .everything radius segments simplification, true => .everything radius segments simplification
  | .obstacles radius segments simplification, false => .obstacles radius segments simplification
  | .everything radius segments simplification, false => .obstacles radius segments simplification

/-- `add_obstacle` (`triangulation.rs:148-151`). -/
def Triangulation.addObstacle (t : Triangulation K) (edges : List (Vec2 K)) : Triangulation K :=
  { t with inner := t.inner.push edges }

/-- `add_obstacles` (`triangulation.rs:154-172`). -/
def Triangulation.addObstacles (t : Triangulation K) (obstacles : List (List (Vec2 K))) : Triangulation K :=
  { t with inner := GeoPolygon.new t.inner.exterior (t.inner.interiors ++ obstacles) }

/-- `simplify` (`triangulation.rs:179-185`): only the obstacles. -/
def Triangulation.simplify (lib : TriLib K) (t : Triangulation K) (epsilon : K) : Triangulation K :=
  { t with inner := t.inner.mapInteriors (fun r => lib.simplifyVw r epsilon) }

/-- `cdt.insert(point).unwrap()`. -/
def Cdt.add (lib : TriLib K) (c : Cdt K) (p : Vec2 K) : Res (Cdt K × Nat) :=
  if lib.insertOk p then .ok (c ++ [.insert p], c.inserted) else .error .panic

/-- One line of `add_constraint_edges` (`triangulation.rs:196-213`). -/
def Cdt.addLine (lib : TriLib K) (c : Cdt K) (line : Vec2 K × Vec2 K) : Res (Cdt K) := do
  let a ← c.add lib line.1
  let b ← a.1.add lib line.2
  .ok (b.1 ++ [.constrain a.2 b.2])

/-- `add_constraint_edges` (`triangulation.rs:189-214`); no line for an empty ring. -/
def Cdt.addEdges (lib : TriLib K) (c : Cdt K) (edges : LineString K) : Res (Cdt K) :=
  (windows2 edges).foldlM (Cdt.addLine lib) c

/-- `radius > 1.0e-5` (`triangulation.rs:227`, `230`, `284`, `325`, `328`). -/
def bigRadius (radius : K) : Bool := Scalar.lit 1 5 <. radius

/-- The polygon with the agent radius applied (`triangulation.rs:226-234`, `324-332`). -/
def AgentRadius.apply (lib : TriLib K) (a : AgentRadius K) (p : GeoPolygon K) : Res (GeoPolygon K) :=
  match a with
  | .none => .ok p
  | .obstacles radius segments simplification =>
    if bigRadius radius then p.inflateObstacles lib radius segments.toNat simplification else .ok p
  | .everything radius segments simplification =>
    if bigRadius radius then p.inflate lib radius segments.toNat simplification else .ok p

/-- `prebuild` (`triangulation.rs:219-251`). -/
def Triangulation.prebuild (lib : TriLib K) (t : Triangulation K) : Res (Triangulation K) :=
  if t.baseLayer.isSome then .ok t
  else do
    let inner ← t.agentRadius.apply lib t.inner
    let cdt ← Cdt.addEdges lib [] inner.exterior
    let cdt ← inner.interiors.foldlM (Cdt.addEdges lib) cdt
    let inner := match t.prebuilt with
      | none => inner
      | some (previous, _) => previous.interiors.foldl GeoPolygon.push inner
    .ok { t with inner := GeoPolygon.new t.inner.exterior [], prebuilt := some (inner, cdt) }

/-- The vertex handle of a vertex of the base layer (`triangulation.rs:304-319`): `or_insert_with`. -/
def baseVertex (lib : TriLib K) (l : Layer K) (s : List (UInt32 × Nat) × Cdt K) (v : UInt32) :
    Res ((List (UInt32 × Nat) × Cdt K) × Nat) :=
  match s.1.lookup v with
  | some h => .ok (s, h)
  | none => do
    let vx ← idx l.vertices v.toNat
    let r ← s.2.add lib vx.coords
    .ok (((v, r.2) :: s.1, r.1), r.2)

/-- State of the loop over the base layer: `added_edges`, `added_vertices`, the triangulation. -/
abbrev BaseState (K : Type) := List (UInt32 × UInt32) × List (UInt32 × Nat) × Cdt K

/-- One edge of a polygon of the base layer (`triangulation.rs:300-322`). -/
def baseEdge (lib : TriLib K) (l : Layer K) (s : BaseState K) (e : UInt32 × UInt32) : Res (BaseState K) :=
  if s.1.contains (e.1, e.2) then .ok s
  else
    let edges := (e.1, e.2) :: s.1
    if edges.contains (e.2, e.1) then .ok (edges, s.2)
    else do
      let edges := (e.2, e.1) :: edges
      let r0 ← baseVertex lib l s.2 e.1
      let r1 ← baseVertex lib l r0.1 e.2
      .ok (edges, r1.1.1, r1.1.2 ++ [.constrain r0.2 r1.2])

/-- The constraints from the base layer (`triangulation.rs:296-324`). -/
def addBaseLayer (lib : TriLib K) (l : Layer K) (c : Cdt K) : Res (Cdt K) := do
  let s ← l.polygons.foldlM (fun s p => do
    let es ← p.edgesIndex
    es.foldlM (baseEdge lib l) s) (([], [], c) : BaseState K)
  .ok s.2.2

/-- `if let Some(base_layer) = &self.base_layer` (`triangulation.rs:296`). -/
def addBase (lib : TriLib K) (base : Option (Layer K)) (c : Cdt K) : Res (Cdt K) :=
  match base with
  | none => .ok c
  | some l => addBaseLayer lib l c

/-- `used.map(|used| used.contains(&center)).unwrap_or(true)` (`triangulation.rs:295`, `353`). -/
def Triangulation.inUsed (lib : TriLib K) (t : Triangulation K) (center : Vec2 K) : Bool :=
  match t.prebuilt with
  | some (used, _) => lib.contains used center
  | none => true

/-- Is a face kept? (`triangulation.rs:353-371`) -/
def Triangulation.keeps (lib : TriLib K) (bvh : Bvh K) (t : Triangulation K) (inner : GeoPolygon K) (center : Vec2 K) :
    Res Bool :=
  if t.inUsed lib center && lib.contains inner center then .ok true
  else
    match t.baseLayer with
    | none => .ok false
    | some l => do
      let loc ← l.getPointLocation bvh center (Scalar.lit 0 0)
      .ok (loc.isSome && !inner.interiors.any (fun o => lib.contains (GeoPolygon.new o []) center))

/-- The faces kept, in order, with `keeps` evaluated on each (`triangulation.rs:345-371`). -/
def keptFaces (keeps : Vec2 K → Res Bool) : List (Face K) → Res (List (Face K))
  | [] => .ok []
  | f :: fs => do
    let b ← keeps f.center
    let rest ← keptFaces keeps fs
    .ok (if b then f :: rest else rest)

/-- `face_to_polygon` (`triangulation.rs:342-343`, `374-376`): the polygon number of each face. The counter is a `u32`;
here it wraps, as in release mode. -/
def faceToPolygon (faceCount : Nat) (kept : List (Face K)) : Res (List UInt32) :=
  kept.zipIdx.foldlM (fun m fi =>
    if fi.1.index < m.length then .ok (m.set fi.1.index (UInt32.ofNat fi.2)) else .error .panic)
    (List.replicate faceCount u32Max)

/-- `while neighbour_polygons[0] == u32::MAX { rotate_left(1) }` (`triangulation.rs:408-410`). -/
def rotateToPolygon : Nat → List UInt32 → Res (List UInt32)
  | 0, _ => .error .fuel
  | _ + 1, [] => .error .panic
  | n + 1, a :: l => if a = u32Max then rotateToPolygon n (l ++ [a]) else .ok (a :: l)

/-- The polygons around a vertex (`triangulation.rs:398-414`). -/
def vertexNeighbours (map : List UInt32) (faces : List Nat) : Res (List UInt32) := do
  let l ← faces.mapM (fun f => idx map f)
  if l.all (fun i => i == u32Max) then .ok [u32Max]
  else do
    let l ← rotateToPolygon l.length l
    .ok (dedupList l)

/-- From the triangulation to the layer (`triangulation.rs:341-428`). -/
def TriData.toLayer (keeps : Vec2 K → Res Bool) (d : TriData K) : Res (Layer K) := do
  let kept ← keptFaces keeps d.inner
  let map ← faceToPolygon d.faceCount kept
  let vertices ← d.vertices.mapM (fun v => do
    let n ← vertexNeighbours map v.faces
    .ok (Vertex.new v.position n))
  .ok (Layer.mk' vertices (kept.map (fun f => Polygon.new
    [UInt32.ofNat f.corners.1, UInt32.ofNat f.corners.2.1, UInt32.ofNat f.corners.2.2] false)))

/-- The outer constraints (`triangulation.rs:281-294`). Without `prebuild`, only the exterior of the inflated polygon is
used, but the obstacles are inflated as well. -/
def Triangulation.startCdt (lib : TriLib K) (t : Triangulation K) : Res (Cdt K) :=
  match t.prebuilt with
  | some (_, cdt) => .ok cdt
  | none =>
    match t.agentRadius with
    | .everything radius segments _ =>
      if bigRadius radius then do
        let deflated ← t.inner.inflate lib radius segments.toNat (Scalar.lit 0 0)
        Cdt.addEdges lib [] deflated.exterior
      else Cdt.addEdges lib [] t.inner.exterior
    | _ => Cdt.addEdges lib [] t.inner.exterior

/-- All constraints of `as_layer` (`triangulation.rs:281-339`), with the polygon whose obstacles were added. -/
def Triangulation.constraints (lib : TriLib K) (t : Triangulation K) : Res (GeoPolygon K × Cdt K) := do
  let cdt ← t.startCdt lib
  let cdt ← addBase lib t.baseLayer cdt
  let inner ← t.agentRadius.apply lib t.inner
  let cdt ← inner.interiors.foldlM (Cdt.addEdges lib) cdt
  .ok (inner, cdt)

/-- `as_layer` (`triangulation.rs:280-429`). -/
def Triangulation.asLayer (lib : TriLib K) (bvh : Bvh K) (t : Triangulation K) : Res (Layer K) := do
  let ic ← t.constraints lib
  let d ← lib.triangulate ic.2
  d.toLayer (t.keeps lib bvh ic.1)

/-- `as_navmesh` (`triangulation.rs:271-276`). -/
def Triangulation.asNavmesh (lib : TriLib K) (bvh : Bvh K) (t : Triangulation K) : Res (Mesh K) := do
  let l ← t.asLayer lib bvh
  .ok (Mesh.ofLayers [l])

end Polyanya
