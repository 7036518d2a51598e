import Verif.Model.Cleanup
import Mathlib.Data.List.Sort
/-
Model of `src/stitching.rs`.
-/

namespace Polyanya

variable {K : Type} [Scalar K]

/-- `StitchVertices` (`stitching.rs:7`). -/
abbrev StitchVertices := List ((UInt8 × UInt8) × List (Nat × Nat))

/-- `StitchPoints` (`stitching.rs:8`). -/
abbrev StitchPoints (K : Type) := List ((UInt8 × UInt8) × List (Vec2 K))

/-- `*polygon_index += (layer_index as u32) << 24` except for `u32::MAX` (`stitching.rs:25-27`). An overflow of the
addition is a panic here, as in debug builds; release builds wrap. -/
def liftId (layer : Nat) (p : UInt32) : Res UInt32 :=
  if p = u32Max then .ok p
  else if p.toNat + (UInt32.ofNat layer <<< 24).toNat < 2 ^ 32 then .ok (p + (UInt32.ofNat layer <<< 24))
  else .error .panic

/-- Is the layer skipped because it is not the target layer? (`stitching.rs:19-23`). -/
def skipLayer : Option UInt8 → Nat → Bool
  | some t, i => t != UInt8.ofNat i
  | none, _ => false

/-- The update of one layer (`stitching.rs:18-30`). -/
def Layer.lift (target : Option UInt8) (l : Layer K) (i : Nat) : Res (Layer K) :=
  if skipLayer target i then .ok l
  else do
    let vs ← l.vertices.mapM (fun v => do
      let ps ← v.polygons.mapM (liftId i)
      .ok { v with polygons := ps })
    .ok { l with vertices := vs }

/-- The first loop of `stitch_internals` (`stitching.rs:17-30`). -/
def Mesh.liftAll (target : Option UInt8) (m : Mesh K) : Res (Mesh K) := do
  let ls ← m.layers.zipIdx.mapM (fun li => li.1.lift target li.2)
  .ok { m with layers := ls }

/-- One pair of vertices to stitch, with their layers. -/
structure Stitch where
  src : UInt8
  dst : UInt8
  srcVertex : Nat
  dstVertex : Nat
deriving DecidableEq, Repr

/-- Does the entry concern the target layer? (`stitching.rs:32-36`). -/
def stitchesTarget : Option UInt8 → UInt8 × UInt8 → Bool
  | some t, e => t == e.1 || t == e.2
  | none, _ => true

/-- The pairs in the order in which the nested loops visit them, without those skipped because of the target layer
(`stitching.rs:31-37`). -/
def stitchList (target : Option UInt8) (s : StitchVertices) : List Stitch :=
  (s.filter (fun e => stitchesTarget target e.1)).flatMap
    (fun e => e.2.map (fun p => { src := e.1.1, dst := e.1.2, srcVertex := p.1, dstVertex := p.2 }))

/-- `self.layers[l].vertices.get(v).unwrap()`. -/
def Mesh.vertexAt (m : Mesh K) (l : UInt8) (v : Nat) : Res (Vertex K) := do
  let la ← idx m.layers l.toNat
  idx la.vertices v

/-- `self.layers.get_mut(l).unwrap().vertices.get_mut(v).unwrap().polygons.append(ids)`. -/
def Mesh.appendNeighbours (m : Mesh K) (l : UInt8) (v : Nat) (ids : List UInt32) : Res (Mesh K) := do
  let la ← idx m.layers l.toNat
  let vx ← idx la.vertices v
  let la := { la with vertices := la.vertices.set v { vx with polygons := vx.polygons ++ ids } }
  .ok { m with layers := m.layers.set l.toNat la }

/-- `filter(|n| **n != u32::MAX && n.layer() == layer)` (`stitching.rs:44-48`, `58-63`). -/
def Vertex.ownIds (layer : UInt8) (v : Vertex K) : List UInt32 :=
  v.polygons.filter (fun n => n != u32Max && layerOf n == layer)

/-- The body of the inner loop (`stitching.rs:38-75`). -/
def Mesh.stitchOne (oneWay : Bool) (m : Mesh K) (s : Stitch) : Res (Mesh K) := do
  let vertexFrom ← m.vertexAt s.src s.srcVertex
  let neighborsFrom := vertexFrom.ownIds s.src
  let vertexTo ← m.vertexAt s.dst s.dstVertex
  let neighborsTo := vertexTo.ownIds s.dst
  let m ← if oneWay then .ok m else m.appendNeighbours s.dst s.dstVertex neighborsFrom
  m.appendNeighbours s.src s.srcVertex neighborsTo

/-- `Mesh::stitch_internals` (`stitching.rs:11-78`). -/
def Mesh.stitchInternals (sorter : Sorter) (m : Mesh K) (target : Option UInt8) (s : StitchVertices) (oneWay : Bool) :
    Res (Mesh K) := do
  let m ← m.liftAll target
  let m ← (stitchList target s).foldlM (Mesh.stitchOne oneWay) m
  m.reorderNeighbors sorter

/-- `Mesh::stitch_at_vertices` (`stitching.rs:109-111`). -/
def Mesh.stitchAtVertices (sorter : Sorter) (m : Mesh K) (s : StitchVertices) (oneWay : Bool) : Res (Mesh K) :=
  m.stitchInternals sorter none s oneWay

/-- `Mesh::restitch_layer_at_vertices` (`stitching.rs:206-213`). -/
def Mesh.restitchAtVertices (sorter : Sorter) (m : Mesh K) (target : UInt8) (s : StitchVertices) (oneWay : Bool) :
    Res (Mesh K) :=
  m.stitchInternals sorter (some target) s oneWay

/-- `layers[l].vertices.iter().position(|v| v.coords == point).unwrap()` (`stitching.rs:89-99`). -/
def Mesh.positionOf (m : Mesh K) (l : UInt8) (point : Vec2 K) : Res Nat := do
  let la ← idx m.layers l.toNat
  match la.vertices.findIdx? (fun v => v.coords.beq point) with
  | some i => .ok i
  | none => .error .panic

/-- The translation of stitch points to stitch vertices (`stitching.rs:84-103`, `177-197`). -/
def Mesh.toStitchVertices (m : Mesh K) (s : StitchPoints K) : Res StitchVertices :=
  s.mapM (fun e => do
    let ps ← e.2.mapM (fun point => do
      let f ← m.positionOf e.1.1 point
      let t ← m.positionOf e.1.2 point
      .ok (f, t))
    .ok (e.1, ps))

/-- `Mesh::stitch_at_points` (`stitching.rs:83-105`). -/
def Mesh.stitchAtPoints (sorter : Sorter) (m : Mesh K) (s : StitchPoints K) (oneWay : Bool) : Res (Mesh K) := do
  let vs ← m.toStitchVertices s
  m.stitchInternals sorter none vs oneWay

/-- `Mesh::restitch_layer_at_points` (`stitching.rs:171-200`). -/
def Mesh.restitchAtPoints (sorter : Sorter) (m : Mesh K) (target : UInt8) (s : StitchPoints K) (oneWay : Bool) :
    Res (Mesh K) := do
  let vs ← m.toStitchVertices s
  m.stitchInternals sorter (some target) vs oneWay

/-- The `retain_mut` closure for a layer's own references (`stitching.rs:119-129`, `142-152`). -/
def ownId (layer : Nat) (p : UInt32) : Option UInt32 :=
  if p = u32Max then some p
  else if layerOf p = UInt8.ofNat layer then some (polygonOf p)
  else none

/-- A layer whose neighbour lists are replaced. -/
def Layer.mapNeighbours (f : List UInt32 → List UInt32) (l : Layer K) : Layer K :=
  { l with vertices := l.vertices.map (fun v => { v with polygons := f v.polygons }) }

/-- `Mesh::remove_stitches` (`stitching.rs:116-132`). -/
def Mesh.removeStitches (m : Mesh K) : Mesh K :=
  { m with layers := m.layers.mapIdx (fun i l => l.mapNeighbours (fun ps => ps.filterMap (ownId i))) }

/-- `Mesh::remove_stitches_to_layer` (`stitching.rs:137-164`). -/
def Mesh.removeStitchesTo (m : Mesh K) (target : UInt8) : Mesh K :=
  { m with layers := m.layers.mapIdx (fun i l => l.mapNeighbours (fun ps =>
      if UInt8.ofNat i = target then ps.filterMap (ownId i)
      else ps.filter (fun p => p == u32Max || layerOf p != target))) }

/-- `entry(key).or_default().push(value)`. The order of the entries of the `HashMap` is irrelevant: they are sorted
by their keys, which are distinct. -/
def pushEntry {κ ω : Type} [DecidableEq κ] (key : κ) (value : ω) : List (κ × List ω) → List (κ × List ω)
  | [] => [(key, [value])]
  | (k, vs) :: es => if k = key then (k, vs ++ [value]) :: es else (k, vs) :: pushEntry key value es

/-- The pushes of the nested loops of `find_stitch_points` (`stitching.rs:222-238`), in order. -/
def Mesh.sharedPoints (m : Mesh K) : List ((UInt8 × UInt8) × Vec2 K) :=
  m.layers.zipIdx.flatMap (fun li => li.1.vertices.flatMap (fun v =>
    (m.layers.zipIdx.drop (li.2 + 1)).flatMap (fun lj =>
      (lj.1.vertices.filter (fun w => v.coords.beq w.coords)).map (fun _ =>
        ((UInt8.ofNat li.2, UInt8.ofNat lj.2), v.coords)))))

/-- `(*a, *b) <= (*c, *d)` on the sort keys (`stitching.rs:240`). -/
def pairLe (a b : UInt8 × UInt8) : Bool := a.1 < b.1 || (a.1 == b.1 && a.2 ≤ b.2)

/-- `Mesh::find_stitch_points` (`stitching.rs:220-242`). -/
def Mesh.findStitchPoints (m : Mesh K) : StitchPoints K :=
  (m.sharedPoints.foldl (fun es e => pushEntry e.1 e.2 es) []).insertionSort (fun a b => pairLe a.1 b.1 = true)

end Polyanya
