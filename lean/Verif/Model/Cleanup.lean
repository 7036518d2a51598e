import Verif.Model.Merger
/-
Model of `src/mesh_cleanup.rs`.
-/

namespace Polyanya

variable {K : Type} [Scalar K]

/-- `sort_unstable_by_key`: the sorted list for given keys. The standard library leaves the order of elements with
equal keys open, so it is a parameter; its contract is `Sorter.Ok` (spec). -/
abbrev Sorter := (UInt32 → Int) → List UInt32 → List UInt32

/-- The polygon with a packed id: `self.layers[p.layer()].polygons[p.polygon()]`, with its layer. -/
def Mesh.polygonAt (m : Mesh K) (p : UInt32) : Res (Layer K × Polygon) := do
  let l ← idx m.layers (layerOf p).toNat
  let poly ← idx l.polygons (polygonOf p).toNat
  .ok (l, poly)

/-- The sort key (`mesh_cleanup.rs:24-36`): the angle from the Y axis to the direction from the vertex (at `vc`)
to the centre of the polygon. -/
def Mesh.angleKey (m : Mesh K) (vc : Vec2 K) (p : UInt32) : Res Int := do
  let (l, poly) ← m.polygonAt p
  let cs ← l.coordsOf poly.vertices
  let sum := cs.foldl (fun a b => a + b) Vec2.zero
  let center := sum.sdiv (Scalar.ofNat poly.vertices.length) + l.offset
  let direction := center - vc
  let angle := Scalar.angleTo (Scalar.lit 0 0) (Scalar.lit 1 0) direction.x direction.y
  .ok (Scalar.toI32 (angle *. Scalar.lit 100000 0))

/-- `sort_unstable_by_key` with keys that may fault (`mesh_cleanup.rs:24`): the key function is called on every
element, except when there are less than two. -/
def sortByKey (sorter : Sorter) (key : UInt32 → Res Int) (ps : List UInt32) : Res (List UInt32) :=
  if ps.length < 2 then .ok ps
  else do
    let _ ← ps.mapM key
    .ok (sorter (fun p => match key p with | .ok k => k | .error _ => 0) ps)

/-- `layer.vertices[v].coords + layer.offset` is closer than 0.01 to `vc` (`mesh_cleanup.rs:66-68`, `84-86`). -/
def Layer.atVertex (l : Layer K) (vc : Vec2 K) (v : UInt32) : Res Bool := do
  let vx ← idx l.vertices v.toNat
  .ok ((vx.coords + l.offset).distanceSquared vc <. Scalar.lit 1 4)

/-- The `find` of `mesh_cleanup.rs:60-73` and `78-91`: the element after the first one that is at the vertex. -/
def afterMatch (isAt : UInt32 → Res Bool) : List UInt32 → Res (Option UInt32)
  | [] => .ok none
  | v :: vs => do
    if ← isAt v then .ok vs.head? else afterMatch isAt vs

/-- Whether `u32::MAX` goes between two following polygons (`mesh_cleanup.rs:54-101`): the vertex before the given
one in the first polygon and the vertex after it in the second one are found and have the same position, or not.
`iter().cycle().take(2 * n)` is the list twice. -/
def Mesh.gapBetween (m : Mesh K) (vc : Vec2 K) (pair : UInt32 × UInt32) : Res Bool := do
  let layer0 ← idx m.layers (layerOf pair.1).toNat
  let layer1 ← idx m.layers (layerOf pair.2).toNat
  let poly0 ← idx layer0.polygons (polygonOf pair.1).toNat
  let rev := poly0.vertices.reverse
  match ← afterMatch (layer0.atVertex vc) (rev ++ rev) with
  | none => .ok true
  | some previous0 => do
    let poly1 ← idx layer1.polygons (polygonOf pair.2).toNat
    match ← afterMatch (layer1.atVertex vc) (poly1.vertices ++ poly1.vertices) with
    | none => .ok true
    | some next1 => do
      let v0 ← idx layer0.vertices previous0.toNat
      let v1 ← idx layer1.vertices next1.toNat
      .ok (!((v0.coords + layer0.offset).beq (v1.coords + layer1.offset)))

/-- The new entries for one pair of following polygons (`mesh_cleanup.rs:53-102`). -/
def Mesh.withGap (m : Mesh K) (vc : Vec2 K) (pair : UInt32 × UInt32) : Res (List UInt32) := do
  let gap ← m.gapBetween vc pair
  .ok (if gap then [pair.1, u32Max] else [pair.1])

/-- The new list of neighbours of one vertex (`mesh_cleanup.rs:15-105`). -/
def Mesh.reorderVertex (sorter : Sorter) (m : Mesh K) (l : Layer K) (v : Vertex K) : Res (List UInt32) := do
  let vc := v.coords + l.offset
  let sorted ← sortByKey sorter (m.angleKey vc) (v.polygons.filter (· != u32Max))
  match dedupList sorted with
  | [] => .ok [u32Max]
  | first :: rest =>
    let last := (first :: rest).getLast (by simp)
    if first = last then .ok (first :: rest ++ [u32Max])
    else do
      let groups ← (windows2 (first :: rest) ++ [(last, first)]).mapM (m.withGap vc)
      .ok groups.flatten

/-- `Mesh::reorder_neighbors_ccw_and_fix_corners` (`mesh_cleanup.rs:9-117`). All new lists are computed before the
first one is stored. -/
def Mesh.reorderNeighbors (sorter : Sorter) (m : Mesh K) : Res (Mesh K) := do
  let ls ← m.layers.mapM (fun l => do
    let vs ← l.vertices.mapM (fun v => do
      let ps ← m.reorderVertex sorter l v
      .ok { v with isCorner := ps.contains u32Max, polygons := ps })
    .ok { l with vertices := vs })
  .ok { m with layers := ls }

/-! ### `remove_useless_vertices` (`mesh_cleanup.rs:121-163`) -/

/-- No polygon uses the vertex: `vertex.polygons.is_empty() || vertex.polygons == [u32::MAX]`. -/
def Vertex.useless (v : Vertex K) : Bool := v.polygons.isEmpty || v.polygons == [u32Max]

/-- `new_indexes` (`mesh_cleanup.rs:138-147`): the new index of every vertex, counted from `kept`. -/
def keptIndexes : Nat → List (Vertex K) → List (Option Nat)
  | _, [] => []
  | kept, v :: vs => if v.useless then none :: keptIndexes kept vs else some kept :: keptIndexes (kept + 1) vs

/-- `*vertex = new_indexes[*vertex as usize]` (`mesh_cleanup.rs:148-152`). -/
def renumberVertex (new : List (Option Nat)) (v : UInt32) : Res UInt32 := do
  let o ← idx new v.toNat
  .ok ((o.map UInt32.ofNat).getD u32Max)

/-- `Layer::remove_useless_vertices` (`mesh_cleanup.rs:134-163`). Baked data is kept. -/
def Layer.removeUseless (l : Layer K) : Res (Layer K × Bool) := do
  let new := keptIndexes 0 l.vertices
  let ps ← l.polygons.mapM (fun p => do
    let vs ← p.vertices.mapM (renumberVertex new)
    .ok { p with vertices := vs })
  .ok ({ l with polygons := ps, vertices := l.vertices.filter (fun v => !v.useless) },
    l.vertices.any Vertex.useless)

/-- The layers of `Mesh::remove_useless_vertices`: it stops at the first layer in which something was removed. -/
def removeUselessLayers : List (Layer K) → Res (List (Layer K) × Bool)
  | [] => .ok ([], false)
  | l :: ls => do
    let (l, b) ← l.removeUseless
    if b then .ok (l :: ls, true)
    else do
      let (ls, b) ← removeUselessLayers ls
      .ok (l :: ls, b)

/-- `Mesh::remove_useless_vertices` (`mesh_cleanup.rs:121-127`). -/
def Mesh.removeUseless (m : Mesh K) : Res (Mesh K × Bool) := do
  let (ls, b) ← removeUselessLayers m.layers
  .ok ({ m with layers := ls }, b)

end Polyanya
