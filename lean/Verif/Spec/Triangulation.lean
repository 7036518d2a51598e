import Verif.Spec.Islands
import Verif.Model.Triangulation
import Mathlib.Data.List.Destutter
import Mathlib.Data.List.Rotate
/-
Specification of the triangulation builder (C32, C33, C34, C51).
-/

namespace Polyanya

variable {K : Type} [Scalar K]

/-! ### Calls -/

/-- A call to a method of the builder. -/
inductive BuildOp (K : Type) where
  | setRadius (radius : K)
  | setSegments (segments : UInt8)
  | setSimplification (simplification : K)
  | setOuterEdge (enabled : Bool)
  | addObstacle (edges : List (Vec2 K))
  | addObstacles (obstacles : List (List (Vec2 K)))
  | simplify (epsilon : K)
  | prebuild

/-- The call. -/
def BuildOp.run (lib : TriLib K) (t : Triangulation K) : BuildOp K → Res (Triangulation K)
  | .setRadius r => .ok { t with agentRadius := t.agentRadius.setRadius r }
  | .setSegments s => .ok { t with agentRadius := t.agentRadius.setSegments s }
  | .setSimplification e => .ok { t with agentRadius := t.agentRadius.setSimplification e }
  | .setOuterEdge b => .ok { t with agentRadius := t.agentRadius.setOuterEdge b }
  | .addObstacle r => .ok (t.addObstacle r)
  | .addObstacles rs => .ok (t.addObstacles rs)
  | .simplify e => .ok (t.simplify lib e)
  | .prebuild => t.prebuild lib

/-- A sequence of calls. -/
def runOps (lib : TriLib K) (t : Triangulation K) (ops : List (BuildOp K)) : Res (Triangulation K) :=
  ops.foldlM (BuildOp.run lib) t

/-! ### Settings -/

/-- The effective settings. -/
structure Settings (K : Type) where
  radius : K
  segments : UInt8
  simplification : K
  outerEdge : Bool

/-- The settings after a sequence of calls: each is the last value set, or its default. -/
def lastSettings (ops : List (BuildOp K)) : Settings K where
  radius := ((ops.filterMap (fun o => match o with | .setRadius r => some r | _ => none)).getLast?).getD (Scalar.lit 0 0)
  segments := ((ops.filterMap (fun o => match o with | .setSegments s => some s | _ => none)).getLast?).getD 5
  simplification :=
    ((ops.filterMap (fun o => match o with | .setSimplification e => some e | _ => none)).getLast?).getD (Scalar.lit 0 0)
  outerEdge := ((ops.filterMap (fun o => match o with | .setOuterEdge b => some b | _ => none)).getLast?).getD false

/-- The settings a builder acts on. -/
def AgentRadius.settings : AgentRadius K → Settings K
  | .none => ⟨Scalar.lit 0 0, 5, Scalar.lit 0 0, false⟩
  | .obstacles r s e => ⟨r, s, e, false⟩
  | .everything r s e => ⟨r, s, e, true⟩

/-- Is this a call that changes a setting? -/
def BuildOp.isSetter : BuildOp K → Bool
  | .setRadius _ | .setSegments _ | .setSimplification _ | .setOuterEdge _ => true
  | _ => false

/-- The calls that do not change settings, each with the settings at that time; `before` are the calls already made. -/
def seen (before : List (BuildOp K)) : List (BuildOp K) → List (BuildOp K × Settings K)
  | [] => []
  | o :: rest => (if o.isSetter then [] else [(o, lastSettings before)]) ++ seen (before ++ [o]) rest

/-! ### Obstacles -/

/-- `geo`: a point inside a polygon is not inside one of its holes. -/
def TriLib.HolesExcluded (lib : TriLib K) : Prop :=
  ∀ p c, lib.contains p c = true → ∀ hole ∈ p.interiors, lib.contains ⟨hole, []⟩ c = false

/-- The outline of an obstacle grown by the agent radius: unchanged for a radius of at most `1e-5`; else the outline made
by inflation, simplified, closed. -/
def Grown (lib : TriLib K) (s : Settings K) (r r' : LineString K) : Prop :=
  if (Scalar.lit 1 5 <. s.radius) = true then
    ∃ outline holes, inflateOutline lib r s.radius s.segments.toNat = .ok (outline, holes) ∧
      r' = LineString.close (lib.simplifyVw outline s.simplification)
  else r' = r

/-- What becomes of the outline `r` of an obstacle: it is simplified by each call to `simplify`, until it is grown with
the settings effective at the next `prebuild` (that is, unless there is a base layer), or else at the end. (A call to
`add_obstacles` closes all rings once more, which changes nothing unless the first point is NaN.) `before` are the calls
already made. -/
def BecomesOutline (lib : TriLib K) (hasBase : Bool) (before : List (BuildOp K)) :
    List (BuildOp K) → LineString K → LineString K → Prop
  | [], r, r' => Grown lib (lastSettings before) r r'
  | .simplify e :: rest, r, r' =>
    BecomesOutline lib hasBase (before ++ [.simplify e]) rest (LineString.close (lib.simplifyVw r e)) r'
  | .addObstacles all :: rest, r, r' =>
    BecomesOutline lib hasBase (before ++ [.addObstacles all]) rest (LineString.close r) r'
  | .prebuild :: rest, r, r' =>
    if hasBase then BecomesOutline lib hasBase (before ++ [.prebuild]) rest r r' else Grown lib (lastSettings before) r r'
  | o :: rest, r, r' => BecomesOutline lib hasBase (before ++ [o]) rest r r'

/-- A new builder: from outer edges, from a polygon with holes, or from a layer. -/
inductive Started : Triangulation K → Prop where
  | outerEdges (edges : List (Vec2 K)) : Started (Triangulation.fromOuterEdges edges)
  | geoPolygon (exterior : LineString K) (holes : List (LineString K)) :
      Started (Triangulation.fromGeoPolygon (GeoPolygon.new exterior holes))
  | meshLayer (l : Layer K) : Started (Triangulation.fromMeshLayer l)

/-- `spade` refuses points with NaN coordinates. -/
def TriLib.RefusesNan (lib : TriLib K) : Prop := ∀ p, lib.insertOk p = true → p.beq p = true

/-- Is this a call to `prebuild`? -/
def BuildOp.isPrebuild : BuildOp K → Bool
  | .prebuild => true
  | _ => false

/-- The call adds an obstacle with this outline. -/
def BuildOp.Adds (o : BuildOp K) (edges : List (Vec2 K)) : Prop :=
  o = .addObstacle edges ∨ ∃ all, o = .addObstacles all ∧ edges ∈ all

/-- The obstacle with outline `edges` was there from the start, or was added after the calls `before`; `rest` are the calls
made since. -/
inductive HasObstacle (t : Triangulation K) (ops : List (BuildOp K)) : List (BuildOp K) → List (BuildOp K) → List (Vec2 K) → Prop where
  | initial {e : LineString K} {holes : List (LineString K)} {edges : List (Vec2 K)}
      (h : t = Triangulation.fromGeoPolygon (GeoPolygon.new e holes)) (hm : edges ∈ holes) : HasObstacle t ops [] ops edges
  | added {a rest : List (BuildOp K)} {o : BuildOp K} {edges : List (Vec2 K)} (h : ops = a ++ o :: rest)
      (ho : o.Adds edges) : HasObstacle t ops (a ++ [o]) rest edges

/-- `a` and `b` are points inserted in the triangulation, with a constraint edge between them. -/
def Constrained (c : Cdt K) (a b : Vec2 K) : Prop :=
  ∃ i j, .constrain i j ∈ c ∧
    (c.filterMap (fun o => match o with | .insert p => some p | _ => none))[i]? = some a ∧
    (c.filterMap (fun o => match o with | .insert p => some p | _ => none))[j]? = some b

/-- The polygons of the layer are faces of the triangulation with these constraints. -/
def FacesOf (lib : TriLib K) (l : Layer K) (cdt : Cdt K) (kept : List (Face K)) : Prop :=
  ∃ d, lib.triangulate cdt = .ok d ∧ kept.Sublist d.inner ∧ l.polygons = kept.map (fun f =>
    { vertices := [UInt32.ofNat f.corners.1, UInt32.ofNat f.corners.2.1, UInt32.ofNat f.corners.2.2], isOneWay := false })

/-- Contract of `spade` and `geo` together, for a notion of points within a face: a face does not straddle a ring all of
whose edges are constraint edges, so that its points are inside the ring iff its center is. -/
def TriLib.Separates (lib : TriLib K) (within : TriData K → Face K → Vec2 K → Prop) : Prop :=
  ∀ cdt d ring, lib.triangulate cdt = .ok d → (∀ a b, (a, b) ∈ ring.zip ring.tail → Constrained cdt a b) →
    ∀ f ∈ d.inner, ∀ p, within d f p → lib.contains ⟨ring, []⟩ p = lib.contains ⟨ring, []⟩ f.center

/-- `geo`: a point inside a polygon is inside its exterior ring. -/
def TriLib.ExteriorRespected (lib : TriLib K) : Prop :=
  ∀ p c, lib.contains p c = true → lib.contains ⟨p.exterior, []⟩ c = true

/-- The outer edge, moved inwards by the agent radius if asked for: the first hole of the outline made by inflation. -/
def OuterBecomes (lib : TriLib K) (s : Settings K) (r r' : LineString K) : Prop :=
  if s.outerEdge = true ∧ (Scalar.lit 1 5 <. s.radius) = true then
    ∃ outline hole holes, inflateOutline lib r s.radius s.segments.toNat = .ok (outline, hole :: holes) ∧
      r' = LineString.close (LineString.close hole)
  else r' = r

/-- The calls up to the last `prebuild`, or all calls if there is none. -/
def UpToPrebuild (ops pre : List (BuildOp K)) : Prop :=
  (ops.filter BuildOp.isPrebuild = [] ∧ pre = ops) ∨
  ∃ rest, ops = pre ++ .prebuild :: rest ∧ rest.filter BuildOp.isPrebuild = []

/-! ### From the triangulation to the layer -/

/-- Vertex number `v` is a corner of the face. -/
def Face.HasCorner (f : Face K) (v : Nat) : Prop := v = f.corners.1 ∨ v = f.corners.2.1 ∨ v = f.corners.2.2

/-- A triangulation in which vertices and faces refer to each other. -/
structure TriData.Consistent (d : TriData K) : Prop where
  faces : d.inner.length < 2 ^ 32 - 1
  vertices : d.vertices.length ≤ 2 ^ 32
  /-- inner faces have different numbers, in range -/
  nodup : (d.inner.map (·.index)).Nodup
  inRange : ∀ f ∈ d.inner, f.index < d.faceCount
  corner : ∀ f ∈ d.inner, ∀ v, f.HasCorner v → v < d.vertices.length
  /-- faces around a vertex exist -/
  around : ∀ v ∈ d.vertices, ∀ i ∈ v.faces, i < d.faceCount
  /-- an inner face is found around a vertex iff the vertex is a corner -/
  incident : ∀ (v : Nat) tv, d.vertices[v]? = some tv → ∀ f ∈ d.inner, (f.index ∈ tv.faces ↔ f.HasCorner v)
  /-- and only once -/
  once : ∀ v ∈ d.vertices, ∀ f ∈ d.inner, v.faces.count f.index ≤ 1

/-- The number of a face among the retained ones, or `u32::MAX`. -/
def retainedId (kept : List (Face K)) (face : Nat) : UInt32 :=
  match kept.findIdx? (fun f => f.index == face) with
  | some k => UInt32.ofNat k
  | none => u32Max

/-- The polygons listed by a vertex surrounded by `faces`. -/
structure ListsAround (kept : List (Face K)) (faces : List Nat) (polygons : List UInt32) : Prop where
  /-- in the same cyclic order, consecutive repetitions (of the gap) merged -/
  order : ∃ n, polygons = (((faces.map (retainedId kept)).rotate n).destutter (· ≠ ·)) ∨
    (polygons = [u32Max] ∧ ∀ i ∈ faces, ∀ f ∈ kept, f.index ≠ i)
  /-- no two equal consecutive entries -/
  noRepeat : polygons.IsChain (· ≠ ·)
  /-- a polygon first, if any -/
  first : polygons = [u32Max] ∨ ∃ id, polygons.head? = some id ∧ id ≠ u32Max
  /-- each polygon once -/
  once : (polygons.filter (· ≠ u32Max)).Nodup

/-- The layer made from the retained faces of a triangulation. -/
structure MadeFrom (d : TriData K) (kept : List (Face K)) (l : Layer K) : Prop where
  /-- one polygon per retained face, in order -/
  polygons : l.polygons = kept.map (fun f =>
    { vertices := [UInt32.ofNat f.corners.1, UInt32.ofNat f.corners.2.1, UInt32.ofNat f.corners.2.2], isOneWay := false })
  bare : l.offset = Vec2.zero ∧ l.baked = none ∧ l.islands = none
  vertices : l.vertices.length = d.vertices.length
  vertex : ∀ (v : Nat) tv, d.vertices[v]? = some tv → ∃ vx, l.vertices[v]? = some vx ∧ vx.coords = tv.position ∧
    ListsAround kept tv.faces vx.polygons ∧
    /- a polygon is listed iff the vertex is a corner of it; nothing else is listed -/
    (∀ (k : Nat) f, kept[k]? = some f → (UInt32.ofNat k ∈ vx.polygons ↔ f.HasCorner v)) ∧
    (∀ id ∈ vx.polygons, id ≠ u32Max → id.toNat < kept.length) ∧
    /- a corner touches a face that was not retained (or nothing at all) -/
    (vx.isCorner = true ↔ tv.faces = [] ∨ ∃ i ∈ tv.faces, ∀ f ∈ kept, f.index ≠ i)

end Polyanya
