import Verif.Conformance.Stitching
/-
The crate's own tests of `layers.rs` (`layers.rs:337-860`), run on the model with binary32 arithmetic.
(Tests of the model, see `Conformance/Helpers.lean`. Not run here, because they take too long in the kernel or sort two or more
paths: `get_closest_point`, `find_vertices_on_segment` and the layered paths of four tests. All agree when evaluated.)
-/

namespace Polyanya.Conformance

open Polyanya

/-- `mesh_u_grid` (`layers.rs:349-403`). -/
def uLayers : Res (Mesh B32) := do
  let m := Mesh.ofLayers [
    Layer.mk' [Vertex.new (p2 0 0) [0, u32Max], Vertex.new (p2 1 0) [0, 1, u32Max], Vertex.new (p2 2 0) [1, 2, u32Max],
        Vertex.new (p2 3 0) [2, u32Max], Vertex.new (p2 0 1) [0, u32Max], Vertex.new (p2 1 1) [1, 0, u32Max],
        Vertex.new (p2 2 1) [2, 1, u32Max], Vertex.new (p2 3 1) [2, u32Max]]
      [Polygon.new [0, 1, 5, 4] false, Polygon.new [1, 2, 6, 5] false, Polygon.new [2, 3, 7, 6] false],
    Layer.mk' [Vertex.new (p2 0 1) [0, u32Max], Vertex.new (p2 1 1) [0, u32Max], Vertex.new (p2 0 2) [0, u32Max],
        Vertex.new (p2 1 2) [0, u32Max]] [Polygon.new [0, 1, 3, 2] true],
    Layer.mk' [Vertex.new (p2 2 1) [0, u32Max], Vertex.new (p2 3 1) [0, u32Max], Vertex.new (p2 2 2) [0, u32Max],
        Vertex.new (p2 3 2) [0, u32Max]] [Polygon.new [0, 1, 3, 2] true]]
  (← m.bake).stitchAtPoints insertionSorter [((0, 1), [p2 0 1, p2 1 1]), ((0, 2), [p2 2 1, p2 3 1])] false

/-- `mesh_overlapping_layers` (`layers.rs:517-561`), before stitching. -/
def overlap : Mesh B32 := Mesh.ofLayers [
    Layer.mk' [Vertex.new (p2 0 3) [0, u32Max], Vertex.new (p2 3 3) [0, u32Max], Vertex.new (p2 0 2) [0, u32Max],
        Vertex.new (p2 1 2) [0, u32Max], Vertex.new (p2 2 2) [0, 1, u32Max], Vertex.new (p2 3 2) [0, 1, u32Max],
        Vertex.new (p2 2 1) [1, 2, u32Max], Vertex.new (p2 3 1) [1, 2, u32Max], Vertex.new (p2 4 1) [2, u32Max],
        Vertex.new (p2 5 1) [2, u32Max], Vertex.new (p2 2 0) [2, u32Max], Vertex.new (p2 5 0) [2, u32Max]]
      [Polygon.new [2, 3, 4, 5, 1, 0] false, Polygon.new [6, 7, 5, 4] false, Polygon.new [10, 11, 9, 8, 7, 6] false],
    Layer.mk' [Vertex.new (p2 0 2) [0, u32Max], Vertex.new (p2 1 2) [0, u32Max], Vertex.new (p2 5 2) [0, u32Max],
        Vertex.new (p2 0 1) [0, u32Max], Vertex.new (p2 4 1) [0, u32Max], Vertex.new (p2 5 1) [0, u32Max]]
      [Polygon.new [3, 4, 5, 2, 1, 0] false]]

/-- `mesh_overlapping_layers`: the points found by `find_stitch_points`, stitched. -/
def overlapped : Res (Mesh B32) := do
  (← overlap.bake).stitchAtPoints insertionSorter [((0, 1), [p2 0 2, p2 1 2, p2 4 1, p2 5 1])] false

/-- `path_on_layers`, of both builds (`d`: with `detailed-layers`). -/
def pathOn (d : Bool) (m : Res (Mesh B32)) (a b : Coords B32) (blocked : List UInt8) : Res (Option (Path B32)) := do
  Mesh.pathOnLayers everyIndex maxHeap ⟨d⟩ (← m) a b blocked

/-- The points of a path. -/
def points (r : Res (Option (Path B32))) : Option (List (Vec2 B32)) :=
  match r with
  | .ok (some p) => some p.path
  | _ => none

/-- The path with layers. -/
def layered (r : Res (Option (Path B32))) : Option (List (Vec2 B32 × UInt8)) :=
  match r with
  | .ok (some p) => some p.pathWithLayers
  | _ => none

/-- A layered path cut to five decimals (`reduce_path_precision`, `layers.rs:563-567`). -/
def reduced (l : List (Vec2 B32 × UInt8)) : List ((Int × Int) × UInt8) :=
  l.map fun x => (((x.1.x *. B32.ofNat 100000).toI32, (x.1.y *. B32.ofNat 100000).toI32), x.2)

/-- `Coords::on_layer`. -/
def onLayer (p : Vec2 B32) (l : UInt8) : Coords B32 := { pos := p, layer := some l, polygonIndex := u32Max }

/-- `point_in_polygon` (`layers.rs:406-419`). -/
example :
    let at' (x y : ℚ) : Res UInt32 := do (← uLayers).getPointLocation everyIndex (.onMesh (p2 x y))
    at' (1 / 2) (1 / 2) = .ok 0 ∧ at' (3 / 2) (1 / 2) = .ok 1 ∧ at' (1 / 2) (3 / 2) = .ok 16777216 ∧
    at' (3 / 2) (3 / 2) = .ok u32Max ∧ at' (5 / 2) (3 / 2) = .ok 33554432 := by decide +kernel

/-- `successors_straight_line` (`layers.rs:422-460`). -/
example :
    let fr := p2 (1 / 10) (11 / 10); let tgt := p2 (11 / 10) (1 / 10)
    (do successorsOf (← uLayers) (nodeAt fr (p2 0 1) (p2 1 1) (0, 1) 16777216 1 zero32 (fr.distance tgt) []) tgt) = .ok [] ∧
    pathOn false uLayers (.onMesh fr) (.onMesh tgt) [] = .ok (some ⟨fr.distance tgt, [tgt], []⟩) ∧
    points (pathOn true uLayers (.onMesh fr) (.onMesh tgt) []) = some [tgt] ∧
    (layered (pathOn true uLayers (.onMesh fr) (.onMesh tgt) [])).map reduced =
      some (reduced [(p2 (2 / 10) 1, 0), (tgt, 0)]) := by decide +kernel

/-- `successors_corner_first_step` (`layers.rs:463-506`). -/
example :
    let fr := p2 (1 / 10) (19 / 10); let tgt := p2 (21 / 10) (19 / 10)
    let length := (fr.distance (p2 1 1) +. (p2 1 1).distance (p2 2 1)) +. (p2 2 1).distance tgt
    (do
      let l ← successorsOf (← uLayers) (nodeAt fr (p2 0 1) (p2 1 1) (4, 5) 16777216 0 zero32 (fr.distance tgt) []) tgt
      .ok (l.map fun n => ({ n with polygonFrom := polygonOf n.polygonFrom, previousPolygonLayer := 0 } : SearchNode B32))) =
      (.ok [nodeAt (p2 2 1) (p2 3 1) (p2 2 1) (7, 6) 2 33554432 (fr.distance (p2 1 1) +. (p2 1 1).distance (p2 2 1))
        ((p2 2 1).distance tgt) [p2 1 1, p2 2 1]] : Res (List (SearchNode B32))) ∧
    pathOn false uLayers (.onMesh fr) (.onMesh tgt) [] = .ok (some ⟨length, [p2 1 1, p2 2 1, tgt], []⟩) ∧
    pathOn true uLayers (.onMesh fr) (.onMesh tgt) [] =
      .ok (some ⟨length, [p2 1 1, p2 2 1, tgt], [(p2 1 1, 0), (p2 2 1, 2), (tgt, 2)]⟩) := by decide +kernel

/-- The points of the tests with `mesh_overlapping_layers`. -/
def upper (i : Nat) : Vec2 B32 := ⟨B32.ofNat i /. B32.ofNat 10, B32.lit 21 1⟩
def lower (i : Nat) : Vec2 B32 := ⟨B32.lit 5 0 -. B32.ofNat i /. B32.ofNat 10, B32.lit 9 1⟩

/-- `shortcut_blocked` (`layers.rs:570-585`). -/
example : ∀ i ∈ List.range 15,
    points (pathOn false overlapped (.onMesh (upper i)) (.onMesh (lower i)) [1]) = some [p2 2 2, p2 3 1, lower i] := by
  decide +kernel

example : ∀ i ∈ List.range 15,
    layered (pathOn true overlapped (.onMesh (upper i)) (.onMesh (lower i)) [1]) =
      some [(p2 2 2, 0), (p2 3 1, 0), (lower i, 0)] := by
  decide +kernel

/-- `take_shortcut` and `take_shortcut_back` (`layers.rs:588-641`). -/
example : ∀ i ∈ List.range 6,
    points (pathOn false overlapped (.onMesh (upper i)) (.onMesh (lower i)) []) = some [lower i] ∧
    points (pathOn false overlapped (.onMesh (lower i)) (.onMesh (upper i)) []) = some [upper i] := by
  decide +kernel

/-- `shortcut_with_corner` (`layers.rs:644-678`). -/
example : points (pathOn false overlapped (.onMesh (upper 7)) (.onMesh (lower 7)) []) = some [p2 1 2, lower 7] := by
  decide +kernel

/-- `shortcut_with_corner_back` (`layers.rs:681-715`). -/
example : points (pathOn false overlapped (.onMesh (lower 7)) (.onMesh (upper 7)) []) = some [p2 4 1, upper 7] ∧
    (∀ i ∈ [8, 9, 10], points (pathOn false overlapped (.onMesh (lower i)) (.onMesh (upper i)) []) =
      some [p2 4 1, p2 1 2, upper i]) ∧
    (∀ i ∈ [11, 12, 13, 14], points (pathOn false overlapped (.onMesh (lower i)) (.onMesh (upper i)) []) =
      some [p2 3 1, p2 2 2, upper i]) := by
  decide +kernel

/-- `from_one_to_the_other` (`layers.rs:718-759`). -/
example :
    let p := p2 (5 / 2) (3 / 2)
    points (pathOn false overlapped (onLayer p 0) (onLayer p 1) []) = some [p2 3 1, p2 4 1, p] ∧
    points (pathOn false overlapped (onLayer p 1) (onLayer p 0) []) = some [p2 4 1, p2 3 1, p] := by
  decide +kernel

/-- `find_point_on_layer` (`layers.rs:762-772`). -/
example :
    let p := p2 (5 / 2) (3 / 2)
    (do (← overlapped).getPointLocation everyIndex (onLayer p 0)) = .ok 1 ∧
    (do (← overlapped).getPointLocation everyIndex (onLayer p 1)) = .ok 16777216 := by decide +kernel

/-- `get_closest_point_towards` (`layers.rs:825-859`). -/
example :
    let m : Res (Mesh B32) := do .ok { ← uLayers with searchSteps := 10 }
    let p := p2 (3 / 2) (3 / 2)
    (do (← idx (← m).layers 0).getClosestPointTowards everyIndex p (B32.lit 1 1) 10 (p2 (3 / 2) (1 / 2))) =
      (.ok (some (p2 (3 / 2) 1)) : Res _) ∧
    (do (← m).getClosestPointTowards everyIndex (.onMesh p) (p2 (3 / 2) (1 / 2))) =
      (.ok (some ⟨p2 (3 / 2) 1, some 0, 1⟩) : Res _) ∧
    (do (← idx (← m).layers 0).getClosestPointTowards everyIndex p (B32.lit 1 1) 10 (p2 (1 / 2) (3 / 2))) = (.ok none : Res _) ∧
    (do (← m).getClosestPointTowards everyIndex (.onMesh p) (p2 (1 / 2) (3 / 2))) =
      (.ok (some ⟨p2 1 (3 / 2), some 1, 16777216⟩) : Res _) ∧
    (do (← idx (← m).layers 0).getClosestPointTowards everyIndex p (B32.lit 2 1) 10 (p2 (3 / 2) (1 / 2))) =
      (.ok (some (p2 (3 / 2) (9 / 10))) : Res _) := by decide +kernel

end Polyanya.Conformance
