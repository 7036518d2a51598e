import Verif.Model.Helpers
/-
Model of `src/layers.rs`.
-/

namespace Polyanya

variable {K : Type} [Scalar K]

/-- Axis aligned bounding box `(min, max)`, as built for `BoundedPolygon` (`lib.rs:169-177`). -/
abbrev Aabb (K : Type) := Vec2 K × Vec2 K

/-- `BVH2d::build(boxes).contains_iterator(point)`: the external crate `bvh2d`, as a function from
the boxes and the point to the sequence of candidate indices. Its contract is `BvhOk` (spec). -/
abbrev Bvh (K : Type) := List (Aabb K) → Vec2 K → List Nat

/-- `Layer` (`layers.rs:15-28`). `baked` holds the boxes from which the BVH was built; `islands`
holds `Some(vec)`; `scale` only matters with feature `detailed-layers`. -/
structure Layer (K : Type) where
  vertices : List (Vertex K)
  polygons : List Polygon
  offset : Vec2 K
  scale : Vec2 K
  baked : Option (List (Aabb K))
  islands : Option (List Nat)

/-- `Layer::default` with given vertices and polygons (`layers.rs:30-42`). -/
def Layer.mk' (vertices : List (Vertex K)) (polygons : List Polygon) : Layer K :=
  { vertices := vertices, polygons := polygons, offset := Vec2.zero, scale := Vec2.one,
    baked := none, islands := none }

/-- `Layer::unbake` (`layers.rs:47-50`). -/
def Layer.unbake (l : Layer K) : Layer K := { l with baked := none, islands := none }

/-- The neighbours pushed for one polygon in the flood fill (`layers.rs:83-95`): all polygons listed
by its vertices, except `u32::MAX`. `self.vertices[*v]` panics out of range. -/
def Layer.neighbours (l : Layer K) (p : Polygon) : Res (List Nat) := do
  let vs ← p.vertices.mapM (fun v => idx l.vertices v.toNat)
  .ok (((vs.flatMap (·.polygons)).filter (· != u32Max)).map UInt32.toNat)

/-- Inner loop of `bake_islands_detection` (`layers.rs:78-97`): `stack` is `to_visit` with its top
first, `isl` the island labels (`usize::MAX` is `none`). Fuel: see `Layer.floodFuel`. -/
def Layer.flood (l : Layer K) (root : Nat) : Nat → List Nat → List (Option Nat) →
    Res (List (Option Nat))
  | 0, _, _ => .error .fuel
  | _ + 1, [], isl => .ok isl
  | fuel + 1, next :: stack, isl => do
    let label ← idx isl next
    if label = none then
      let polygon ← idx l.polygons next
      let isl := isl.set next (some root)
      let nb ← l.neighbours polygon
      Layer.flood l root fuel (nb.reverse ++ stack) isl
    else
      Layer.flood l root fuel stack isl

/-- Fuel that suffices for the whole inner loop: every polygon pushes its neighbours once. -/
def Layer.floodFuel (l : Layer K) : Nat :=
  (l.polygons.map (fun p => match l.neighbours p with | .ok nb => nb.length | .error _ => 0)).sum + 2

/-- Outer loop of `bake_islands_detection` (`layers.rs:71-98`): while some polygon has no label, flood
from the first such polygon. -/
def Layer.floodAll (l : Layer K) : Nat → List (Option Nat) → Res (List (Option Nat))
  | 0, _ => .error .fuel
  | fuel + 1, isl =>
    match isl.findIdx? (· == none) with
    | none => .ok isl
    | some root => do
      let isl ← l.flood root l.floodFuel [root] isl
      Layer.floodAll l fuel isl

/-- `Layer::bake_islands_detection` (`layers.rs:69-100`). -/
def Layer.bakeIslands (l : Layer K) : Res (Layer K) := do
  let isl ← l.floodAll (l.polygons.length + 1) (List.replicate l.polygons.length none)
  .ok { l with islands := some (isl.map (·.getD 0)) }

/-- One step of the bounding-box fold (`layers.rs:114-129`). -/
def aabbStep (aabb : Aabb K) (c : Vec2 K) : Aabb K :=
  let minx := if c.x <. aabb.1.x then c.x else aabb.1.x
  let miny := if c.y <. aabb.1.y then c.y else aabb.1.y
  let maxx := if aabb.2.x <. c.x then c.x else aabb.2.x
  let maxy := if aabb.2.y <. c.y then c.y else aabb.2.y
  (⟨minx, miny⟩, ⟨maxx, maxy⟩)

/-- The closure of the bounding-box fold (`layers.rs:114-129`): dangling vertex indices are skipped. -/
def Layer.aabbVertex (l : Layer K) (aabb : Aabb K) (v : UInt32) : Aabb K :=
  match l.vertices[v.toNat]? with
  | some v => aabbStep aabb v.coords
  | none => aabb

/-- The bounding box of one polygon (`layers.rs:111-131`): the fold starts from
`(f32::MAX, f32::MAX)` and `Vec2::ZERO`. -/
def Layer.polygonAabb (l : Layer K) (p : Polygon) : Aabb K :=
  p.vertices.foldl l.aabbVertex (⟨Scalar.maxVal, Scalar.maxVal⟩, Vec2.zero)

/-- `Layer::bake_polygon_finder` (`layers.rs:107-136`). -/
def Layer.bakePolygonFinder (l : Layer K) : Layer K :=
  { l with baked := some (l.polygons.map l.polygonAabb) }

/-- `Layer::bake` (`layers.rs:59-62`). -/
def Layer.bake (l : Layer K) : Res (Layer K) := l.bakePolygonFinder.bakeIslands

/-- `MeshError` (`lib.rs:181-191`). -/
inductive MeshError where
  | emptyMesh
  | invalidMesh
  | tooManyPolygons
deriving DecidableEq, Repr

/-- `Layer::new` (`layers.rs:139-157`), with default features (baking). The outer `Res` is a panic
while baking, the inner `Except` the returned `Result`. -/
def Layer.new (vertices : List (Vertex K)) (polygons : List Polygon) :
    Res (Except MeshError (Layer K)) :=
  if vertices.isEmpty || polygons.isEmpty then .ok (.error .emptyMesh)
  else if polygons.length > 2 ^ 24 - 1 then .ok (.error .tooManyPolygons)
  else do
    let l ← (Layer.mk' vertices polygons).bake
    .ok (.ok l)

/-- The edge loop of `point_in_polygon` (`layers.rs:184-206`) on the remaining edges. After at least
one edge, falling through the loop returns `true` (`edged`); the edge list is never empty. -/
def Layer.pointInEdges (l : Layer K) (point : Vec2 K) : List (UInt32 × UInt32) → Res Bool
  | [] => .ok true
  | e :: es =>
    if max e.1 e.2 |>.toNat |> (l.vertices.length ≤ ·) then .ok false
    else do
      let last ← idxUnchecked l.vertices e.1.toNat
      let next ← idxUnchecked l.vertices e.2.toNat
      let s := side point (last.coords, next.coords)
      if s = .edge && onSegment point (last.coords, next.coords) then .ok true
      else if s ≠ .left then .ok false
      else Layer.pointInEdges l point es

/-- `Layer::point_in_polygon` (`layers.rs:182-210`). -/
def Layer.pointInPolygon (l : Layer K) (point : Vec2 K) (p : Polygon) : Res Bool := do
  let es ← p.edgesIndex
  l.pointInEdges point es

/-- The scan of `get_point_location_unit` from index `i` on. -/
def Layer.scanPolygons (l : Layer K) (point : Vec2 K) : Nat → List Polygon → Res UInt32
  | _, [] => .ok u32Max
  | i, p :: ps => do
    if ← l.pointInPolygon point p then .ok (UInt32.ofNat i)
    else Layer.scanPolygons l point (i + 1) ps

/-- `Layer::get_point_location_unit` (`layers.rs:160-167`). -/
def Layer.locationUnit (l : Layer K) (point : Vec2 K) : Res UInt32 :=
  l.scanPolygons point 0 l.polygons

/-- `Layer::get_point_location_unit_baked` (`layers.rs:170-178`), given the baked boxes. -/
def Layer.locationUnitBaked (l : Layer K) (bvh : Bvh K) (boxes : List (Aabb K)) (point : Vec2 K) :
    Res UInt32 := do
  let r ← findFirst (fun i => do
    let p ← idx l.polygons i
    if ← l.pointInPolygon point p then .ok (some (UInt32.ofNat i)) else .ok none)
    (bvh boxes point)
  .ok (r.getD u32Max)

/-- The dispatch on `baked_polygons.is_none()` repeated at `layers.rs:226-230`, `285-289`, `326-330`. -/
def Layer.locate (l : Layer K) (bvh : Bvh K) (point : Vec2 K) : Res UInt32 :=
  match l.baked with
  | none => l.locationUnit point
  | some boxes => l.locationUnitBaked bvh boxes point

/-- The nine offsets probed by `get_point_location` (`layers.rs:214-224`). -/
def probeOffsets (delta : K) : List (Vec2 K) :=
  let z : K := Scalar.lit 0 0
  let n := Scalar.neg delta
  [⟨z, z⟩, ⟨delta, z⟩, ⟨delta, delta⟩, ⟨z, delta⟩, ⟨n, delta⟩, ⟨n, z⟩, ⟨n, n⟩, ⟨z, n⟩, ⟨delta, n⟩]

/-- `Layer::get_point_location` (`layers.rs:213-233`). -/
def Layer.getPointLocation (l : Layer K) (bvh : Bvh K) (point : Vec2 K) (delta : K) :
    Res (Option UInt32) :=
  findFirst (fun d => do
    let p ← l.locate bvh (point + d)
    .ok (if p ≠ u32Max then some p else none)) (probeOffsets delta)

/-- `Layer::get_vertices_on_segment` (`layers.rs:237-258`). `sort_by` with
`partial_cmp(..).unwrap()`: stable sort, panics when two or more candidates and one distance is NaN. -/
def Layer.getVerticesOnSegment (l : Layer K) (start stop : Vec2 K) : Res (List Nat) :=
  let cands := l.vertices.zipIdx.filter (fun v => onSegment v.1.coords (start, stop))
  if cands.length ≥ 2 && cands.any (fun v => Scalar.isNan (v.1.coords.distance start)) then
    .error .panic
  else
    .ok ((cands.mergeSort
      (fun a b => a.1.coords.distance start <=. b.1.coords.distance start)).map (·.2))

/-- The sample point number `i` of ring `step` (`layers.rs:281-284`): `(x, y) = angle.sin_cos()`. -/
def ringSample (point : Vec2 K) (delta : K) (step i : Nat) : Vec2 K :=
  let angle := (Scalar.ofNat i *. Scalar.tau) /. Scalar.ofNat (10 * (step + 1))
  point + (Vec2.smul (Vec2.smul ⟨Scalar.sin angle, Scalar.cos angle⟩ delta) (Scalar.ofNat step))

/-- `Layer::get_closest_point_inner` (`layers.rs:273-295`); `sample = 10`, `i in 0..=(sample * step)`.
The `u32` products are taken not to overflow (`step < 2^28`). -/
def Layer.closestInner (l : Layer K) (bvh : Bvh K) (point : Vec2 K) (delta : K) (step : Nat) :
    Res (Option (Vec2 K × UInt32)) :=
  findFirst (fun i => do
    let np := ringSample point delta step i
    let p ← l.locate bvh np
    .ok (if p ≠ u32Max then some (np, p) else none)) (List.range (10 * step + 1))

/-- `Layer::get_closest_point` (`layers.rs:263-270`): steps `0..=steps`. -/
def Layer.getClosestPoint (l : Layer K) (bvh : Bvh K) (point : Vec2 K) (delta : K) (steps : Nat) :
    Res (Option (Vec2 K)) :=
  findFirst (fun step => do
    let r ← l.closestInner bvh point delta step
    .ok (r.map (·.1))) (List.range (steps + 1))

/-- `Layer::get_closest_point_towards_inner` (`layers.rs:318-335`). -/
def Layer.towardsInner (l : Layer K) (bvh : Bvh K) (point : Vec2 K) (delta : K)
    (direction : Vec2 K) (step : Nat) : Res (Option (Vec2 K × UInt32)) := do
  let np := point + (direction.smul delta).smul (Scalar.ofNat step)
  let p ← l.locate bvh np
  .ok (if p ≠ u32Max then some (np, p) else none)

/-- `-(point - towards).normalize()` (`layers.rs:306`, `lib.rs:574`). -/
def directionTo (point towards : Vec2 K) : Vec2 K := -((point - towards).normalize)

/-- `Layer::get_closest_point_towards` (`layers.rs:299-315`): steps `0..steps`. -/
def Layer.getClosestPointTowards (l : Layer K) (bvh : Bvh K) (point : Vec2 K) (delta : K)
    (steps : Nat) (towards : Vec2 K) : Res (Option (Vec2 K)) :=
  findFirst (fun step => do
    let r ← l.towardsInner bvh point delta (directionTo point towards) step
    .ok (r.map (·.1))) (List.range steps)

end Polyanya
