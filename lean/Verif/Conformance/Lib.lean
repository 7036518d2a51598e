import Verif.Spec.Binary32
import Verif.Model.Mesh
/-
The crate's own tests of `lib.rs` (`lib.rs:670-1334`), run on the model with binary32 arithmetic. Numbers are compared bit for
bit where the test does so. (Tests of the model, see `Conformance/Helpers.lean`.)
-/

namespace Polyanya.Conformance

open Polyanya

/-- `vec2` of integers. -/
abbrev p2 (x y : ℚ) : Vec2 B32 := f2 x y

/-- `mesh_u_grid` (`lib.rs:688-717`). -/
def uGrid : Mesh B32 := Mesh.ofLayers [Layer.mk'
  [ Vertex.new (p2 0 0) [0, u32Max], Vertex.new (p2 1 0) [0, 1, u32Max], Vertex.new (p2 2 0) [1, 2, u32Max],
    Vertex.new (p2 3 0) [2, u32Max], Vertex.new (p2 0 1) [3, 0, u32Max], Vertex.new (p2 1 1) [3, 1, 0, u32Max],
    Vertex.new (p2 2 1) [4, 2, 1, u32Max], Vertex.new (p2 3 1) [4, 2, u32Max], Vertex.new (p2 0 2) [3, u32Max],
    Vertex.new (p2 1 2) [3, u32Max], Vertex.new (p2 2 2) [4, u32Max], Vertex.new (p2 3 2) [4, u32Max] ]
  [ Polygon.new [0, 1, 5, 4] false, Polygon.new [1, 2, 6, 5] false, Polygon.new [2, 3, 7, 6] false,
    Polygon.new [4, 5, 9, 8] true, Polygon.new [6, 7, 11, 10] true ]]

/-- `mesh_from_paper` (`lib.rs:911-953`). -/
def paper : Mesh B32 := Mesh.ofLayers [Layer.mk'
  [ Vertex.new (p2 0 6) [0, u32Max], Vertex.new (p2 2 5) [0, u32Max, 2], Vertex.new (p2 5 7) [0, 2, u32Max],
    Vertex.new (p2 5 8) [0, u32Max], Vertex.new (p2 0 8) [0, u32Max], Vertex.new (p2 1 4) [1, u32Max],
    Vertex.new (p2 2 1) [1, u32Max], Vertex.new (p2 4 1) [1, u32Max], Vertex.new (p2 4 2) [1, u32Max, 2],
    Vertex.new (p2 2 4) [1, 2, u32Max], Vertex.new (p2 7 4) [2, u32Max, 4], Vertex.new (p2 10 7) [2, 4, 6, u32Max, 3],
    Vertex.new (p2 7 7) [2, 3, u32Max], Vertex.new (p2 11 8) [3, u32Max], Vertex.new (p2 7 8) [3, u32Max],
    Vertex.new (p2 7 0) [5, 4, u32Max], Vertex.new (p2 11 3) [4, 5, u32Max], Vertex.new (p2 11 5) [4, u32Max, 6],
    Vertex.new (p2 12 0) [5, u32Max], Vertex.new (p2 12 3) [5, u32Max], Vertex.new (p2 13 5) [6, u32Max],
    Vertex.new (p2 13 7) [6, u32Max], Vertex.new (p2 1 3) [1, u32Max] ]
  [ Polygon.new [0, 1, 2, 3, 4] true, Polygon.new [5, 22, 6, 7, 8, 9] true, Polygon.new [1, 9, 8, 10, 11, 12, 2] false,
    Polygon.new [12, 11, 13, 14] true, Polygon.new [10, 15, 16, 17, 11] false, Polygon.new [15, 18, 19, 16] true,
    Polygon.new [11, 17, 20, 21] true ]]

/-- `mesh.bake()` followed by `get_point_location`. -/
def bakedLocation (m : Mesh B32) (p : Vec2 B32) : Res UInt32 := do (← m.bake).getPointLocation everyIndex (Coords.onMesh p)

/-- `point_in_polygon` (`lib.rs:720-728`). -/
example :
    bakedLocation uGrid (p2 (1 / 2) (1 / 2)) = .ok 0 ∧ bakedLocation uGrid (p2 (3 / 2) (1 / 2)) = .ok 1 ∧
    bakedLocation uGrid (p2 (1 / 2) (3 / 2)) = .ok 3 ∧ bakedLocation uGrid (p2 (3 / 2) (3 / 2)) = .ok u32Max ∧
    bakedLocation uGrid (p2 (5 / 2) (3 / 2)) = .ok 4 := by decide +kernel

/-- `paper_point_in_polygon` (`lib.rs:956-964`). -/
example :
    bakedLocation paper (p2 (1 / 2) (1 / 2)) = .ok u32Max ∧ bakedLocation paper (p2 2 6) = .ok 0 ∧
    bakedLocation paper (p2 2 (51 / 10)) = .ok 0 ∧ bakedLocation paper (p2 2 (3 / 2)) = .ok 1 ∧
    bakedLocation paper (p2 4 (21 / 10)) = .ok 2 := by decide +kernel

/-- The test-only `Mesh::successors` (`lib.rs:376-410`): the nodes pushed when `node` is expanded. -/
def successorsOf (m : Mesh B32) (node : SearchNode B32) (tgt : Vec2 B32) : Res (List (SearchNode B32)) := do
  let e ← m.getPointLocation everyIndex (Coords.onMesh tgt)
  let inst : Inst B32 :=
    { queue := [], nodeBuffer := [], rootHistory := [], start := (node.root, 0), goal := tgt, polygonTo := e, blocked := [] }
  let inst ← inst.successors ⟨false⟩ m node
  .ok inst.queue

/-- A node on `edge` from polygon `a` to polygon `b`. -/
def nodeAt (root : Vec2 B32) (i j : Vec2 B32) (edge : UInt32 × UInt32) (a b : UInt32) (d h : B32) (path : List (Vec2 B32)) :
    SearchNode B32 :=
  { path := path, pathWithLayers := [], root := root, interval := (i, j), edge := edge, polygonFrom := a, polygonTo := b,
    previousPolygonLayer := 0, distanceStartToRoot := d, heuristic := h }

def zero32 : B32 := B32.ofRat 0

/-- `Mesh::path` of the default build. -/
def pathOf (m : Mesh B32) (a b : Vec2 B32) : Res (Option (Path B32)) :=
  m.path everyIndex maxHeap ⟨false⟩ (Coords.onMesh a) (Coords.onMesh b)

/-- `Mesh::path` with `detailed-layers`. -/
def pathOfD (m : Mesh B32) (a b : Vec2 B32) : Res (Option (Path B32)) :=
  m.path everyIndex maxHeap ⟨true⟩ (Coords.onMesh a) (Coords.onMesh b)

/-- `successors_straight_line_ahead` (`lib.rs:731-770`). -/
example :
    let fr := p2 (1 / 10) (1 / 10); let tgt := p2 (29 / 10) (9 / 10)
    successorsOf uGrid (nodeAt fr (p2 1 0) (p2 1 1) (1, 5) 0 1 (fr.distance tgt) zero32 []) tgt =
      .ok [nodeAt fr (p2 2 0) (p2 2 1) (2, 6) 1 2 (fr.distance tgt) (fr.distance tgt) []] ∧
    pathOf uGrid fr tgt = .ok (some ⟨fr.distance tgt, [tgt], []⟩) := by decide +kernel

/-- `successors_straight_line_reversed` (`lib.rs:773-811`). -/
example :
    let tgt := p2 (1 / 10) (1 / 10); let fr := p2 (29 / 10) (9 / 10)
    successorsOf uGrid (nodeAt fr (p2 2 1) (p2 2 0) (6, 2) 2 1 zero32 (fr.distance tgt) []) tgt =
      .ok [nodeAt fr (p2 1 1) (p2 1 0) (5, 1) 1 0 zero32 (tgt.distance fr) []] ∧
    pathOf uGrid fr tgt = .ok (some ⟨fr.distance tgt, [tgt], []⟩) := by decide +kernel

/-- `successors_corner_first_step` (`lib.rs:814-857`). -/
example :
    let fr := p2 (1 / 10) (19 / 10); let tgt := p2 (21 / 10) (19 / 10)
    successorsOf uGrid (nodeAt fr (p2 0 1) (p2 1 1) (4, 5) 3 0 zero32 (fr.distance tgt) []) tgt =
      .ok [nodeAt (p2 2 1) (p2 3 1) (p2 2 1) (7, 6) 2 4 (B32.add (fr.distance (p2 1 1)) ((p2 1 1).distance (p2 2 1)))
        ((p2 2 1).distance tgt) [p2 1 1, p2 2 1]] ∧
    pathOf uGrid fr tgt = .ok (some ⟨B32.add (B32.add (fr.distance (p2 1 1)) ((p2 1 1).distance (p2 2 1))) ((p2 2 1).distance tgt),
      [p2 1 1, p2 2 1, tgt], []⟩) := by decide +kernel

/-- `successors_corner_observable_second_step` (`lib.rs:860-903`). -/
example :
    let fr := p2 (1 / 10) (19 / 10); let tgt := p2 (21 / 10) (19 / 10)
    successorsOf uGrid (nodeAt fr (p2 1 0) (p2 1 1) (1, 5) 0 1 zero32 (fr.distance tgt) []) tgt =
      .ok [nodeAt (p2 2 1) (p2 3 1) (p2 2 1) (7, 6) 2 4 (B32.add (fr.distance (p2 1 1)) ((p2 1 1).distance (p2 2 1)))
        ((p2 2 1).distance tgt) [p2 1 1, p2 2 1]] := by decide +kernel

/-- `empty_mesh_fails` (`lib.rs:906-909`). -/
example : (match (Layer.new [] [] : Res (Except MeshError (Layer B32))) with
    | .ok (.error .emptyMesh) => true | _ => false) = true := by decide +kernel

/-- `assert_delta!` (`lib.rs:672-680`). -/
def within (x y tol : B32) : Bool := B32.lt (B32.abs (B32.sub x y)) tol || B32.eq x y

/-- `paper_straight` (`lib.rs:967-1014`). -/
example :
    let fr := p2 12 0; let tgt := p2 7 (69 / 10)
    successorsOf paper (nodeAt fr (p2 11 3) (p2 7 0) (16, 15) 5 4 zero32 (fr.distance tgt) []) tgt =
      .ok [nodeAt (p2 11 3) (p2 10 7) (p2 (39 / 4) (27 / 4)) (11, 10) 4 2 (fr.distance (p2 11 3))
          (B32.add ((p2 11 3).distance (p2 (39 / 4) (27 / 4))) ((p2 (39 / 4) (27 / 4)).distance tgt)) [p2 11 3],
        nodeAt fr (p2 (39 / 4) (27 / 4)) (p2 7 4) (11, 10) 4 2 zero32 (fr.distance tgt) []] ∧
    pathOf paper fr tgt = .ok (some ⟨fr.distance tgt, [tgt], []⟩) := by decide +kernel

/-- `paper_corner_right` (`lib.rs:1017-1091`). -/
example :
    let fr := p2 12 0; let tgt := p2 13 6
    successorsOf paper (nodeAt fr (p2 11 3) (p2 7 0) (16, 15) 5 4 zero32 (fr.distance tgt) []) tgt =
      .ok [nodeAt (p2 11 3) (p2 11 5) (p2 10 7) (17, 11) 4 6 (fr.distance (p2 11 3))
          (B32.add ((p2 11 3).distance (p2 11 5)) ((p2 11 5).distance tgt)) [p2 11 3],
        nodeAt (p2 11 3) (p2 10 7) (p2 (39 / 4) (27 / 4)) (11, 10) 4 2 (fr.distance (p2 11 3))
          ((p2 11 3).distance (mirror tgt (p2 10 7, p2 (39 / 4) (27 / 4)))) [p2 11 3],
        nodeAt fr (p2 (39 / 4) (27 / 4)) (p2 7 4) (11, 10) 4 2 zero32
          (B32.add (fr.distance (p2 (39 / 4) (27 / 4)))
            ((p2 (39 / 4) (27 / 4)).distance (mirror tgt (p2 (39 / 4) (27 / 4), p2 7 4)))) []] ∧
    resIs (pathOf paper fr tgt) (fun r => r.any fun p => p.path = [p2 11 3, p2 11 5, tgt] &&
      within p.length (B32.add (B32.add (fr.distance (p2 11 3)) ((p2 11 3).distance (p2 11 5))) ((p2 11 5).distance tgt))
        (B32.ofRat (1 / 100))) = true := by decide +kernel

/-- `paper_corner_left` (`lib.rs:1094-1147`). -/
example :
    let fr := p2 12 0; let tgt := p2 5 3
    successorsOf paper (nodeAt fr (p2 11 3) (p2 7 0) (16, 15) 5 4 zero32 (fr.distance tgt) []) tgt =
      .ok [nodeAt (p2 11 3) (p2 10 7) (p2 (39 / 4) (27 / 4)) (11, 10) 4 2 (fr.distance (p2 11 3))
          (B32.add ((p2 11 3).distance (p2 (39 / 4) (27 / 4))) ((p2 (39 / 4) (27 / 4)).distance tgt)) [p2 11 3],
        nodeAt fr (p2 (39 / 4) (27 / 4)) (p2 7 4) (11, 10) 4 2 zero32
          (B32.add (fr.distance (p2 7 4)) ((p2 7 4).distance tgt)) []] ∧
    resIs (pathOf paper fr tgt) (fun r => r.any fun p => p.path = [p2 7 4, tgt] &&
      within p.length (B32.add (fr.distance (p2 7 4)) ((p2 7 4).distance tgt)) (B32.ofRat (1 / 100))) = true := by decide +kernel

/-- `paper_going_to_one_way_polygon` (`lib.rs:1150-1162`). -/
example :
    let fr := p2 11 0; let tgt := p2 9 3
    resIs (pathOf paper fr tgt) (fun r => r.any fun p => p.path = [tgt]) = true ∧
    resIs (pathOf paper tgt fr) (fun r => r.any fun p => p.path = [fr]) = true := by decide +kernel

/-- `paper_corner_left_twice` (`lib.rs:1165-1229`). -/
example :
    let fr := p2 12 0; let tgt := p2 3 1
    let second := nodeAt fr (p2 (39 / 4) (27 / 4)) (p2 7 4) (11, 10) 4 2 zero32
          (B32.add (fr.distance (p2 7 4)) ((p2 7 4).distance tgt)) []
    successorsOf paper (nodeAt fr (p2 11 3) (p2 7 0) (16, 15) 5 4 zero32 (fr.distance tgt) []) tgt =
      .ok [nodeAt (p2 11 3) (p2 10 7) (p2 (39 / 4) (27 / 4)) (11, 10) 4 2 (fr.distance (p2 11 3))
          (B32.add ((p2 11 3).distance (p2 (39 / 4) (27 / 4))) ((p2 (39 / 4) (27 / 4)).distance tgt)) [p2 11 3], second] ∧
    resIs (successorsOf paper second tgt) (fun l => l.length = 1) = true ∧
    resIs (pathOf paper fr tgt) (fun r => r.any fun p => p.path = [p2 7 4, p2 4 2, tgt] &&
      within p.length (B32.add (B32.add (fr.distance (p2 7 4)) ((p2 7 4).distance (p2 4 2))) ((p2 4 2).distance tgt))
        (B32.ofRat (1 / 100))) = true := by decide +kernel

/-- `get_closest_point` (`lib.rs:1328-1333`). -/
example :
    uGrid.getPointLocation everyIndex (Coords.onMesh (p2 (1 / 2) (1 / 2))) = .ok 0 ∧
    resIs (uGrid.getClosestPoint everyIndex (Coords.onMesh (p2 (1 / 2) (1 / 2))))
      (fun r => r.any fun c => c.polygonIndex = 0) = true := by decide +kernel

end Polyanya.Conformance
