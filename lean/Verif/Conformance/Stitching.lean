import Verif.Conformance.Lib
import Verif.Model.Stitching
/-
The crate's own tests of `stitching.rs` (`stitching.rs:243-1138`), run on the model with binary32 arithmetic, including glam's
`angle_to`. (Tests of the model, see `Conformance/Helpers.lean`. What needs a triangulation or `find_stitch_points` is not run
here: the sort of the latter does not evaluate in the kernel.)
-/

namespace Polyanya.Conformance

open Polyanya

/-- Insertion by key. -/
def insertKey (key : UInt32 → Int) (x : UInt32) : List UInt32 → List UInt32
  | [] => [x]
  | y :: ys => if key x ≤ key y then x :: y :: ys else y :: insertKey key x ys

/-- A sort by key. Here all keys are different, so every sort gives the same list. -/
def insertionSorter : Sorter := fun key l => l.foldr (insertKey key) []

/-- `basic_mesh_with_layers` (`stitching.rs:248-283`). -/
def threeLayers : Mesh B32 :=
  let square (a b c d : Vec2 B32) := Layer.mk'
    [Vertex.new a [0, u32Max], Vertex.new b [0, u32Max], Vertex.new c [0, u32Max], Vertex.new d [0, u32Max]]
    [Polygon.new [0, 1, 3, 2] true]
  Mesh.ofLayers [square (p2 1 0) (p2 2 0) (p2 1 1) (p2 2 1), square (p2 0 0) (p2 1 0) (p2 0 1) (p2 1 1),
    square (p2 1 1) (p2 2 1) (p2 1 2) (p2 2 2)]

/-- The stitches of these tests. -/
def threeStitches : StitchPoints B32 :=
  [((0, 1), [p2 1 0, p2 1 1]), ((0, 2), [p2 1 1, p2 2 1]), ((1, 2), [p2 1 1])]

/-- The lists of neighbours of a mesh. -/
def neighbourLists (m : Mesh B32) : List (List (List UInt32)) := m.layers.map fun l => l.vertices.map (·.polygons)

/-- What `stitch_at_points` and `restitch_single_layer` expect. -/
def stitchedLists : List (List (List UInt32)) :=
  [ [[0, 16777216, u32Max], [0, u32Max], [0, 33554432, u32Max, 16777216], [33554432, 0, u32Max]],
    [[16777216, u32Max], [0, 16777216, u32Max], [16777216, u32Max], [0, 33554432, u32Max, 16777216]],
    [[0, 33554432, u32Max, 16777216], [33554432, 0, u32Max], [33554432, u32Max], [33554432, u32Max]] ]

def stitched : Res (Mesh B32) := threeLayers.stitchAtPoints insertionSorter threeStitches false

/-- `stitch_at_points` (`stitching.rs:286-345`). -/
example : stitched.map neighbourLists = .ok stitchedLists := by decide +kernel

/-- `remove_stitches` (`stitching.rs:347-372`). -/
example : stitched.map (fun m => neighbourLists m.removeStitches) = .ok
    [ [[0, u32Max], [0, u32Max], [0, u32Max], [0, u32Max]], [[0, u32Max], [0, u32Max], [0, u32Max], [u32Max, 0]],
      [[0, u32Max], [0, u32Max], [0, u32Max], [0, u32Max]] ] := by decide +kernel

/-- `unstitch_layer` (`stitching.rs:374-417`). -/
example : stitched.map (fun m => neighbourLists (m.removeStitchesTo 1)) = .ok
    [ [[0, u32Max], [0, u32Max], [0, 33554432, u32Max], [33554432, 0, u32Max]],
      [[0, u32Max], [0, u32Max], [0, u32Max], [u32Max, 0]],
      [[0, 33554432, u32Max], [33554432, 0, u32Max], [33554432, u32Max], [33554432, u32Max]] ] := by decide +kernel

/-- `stitch_single_layer` (`stitching.rs:418-467`). -/
example : (threeLayers.restitchAtPoints insertionSorter 1 threeStitches false).map neighbourLists = .ok
    [ [[0, 16777216, u32Max], [0, u32Max], [0, u32Max, 16777216], [0, u32Max]],
      [[16777216, u32Max], [0, 16777216, u32Max], [16777216, u32Max], [0, u32Max, 16777216]],
      [[0, u32Max, 16777216], [0, u32Max], [0, u32Max], [0, u32Max]] ] := by decide +kernel

/-- `restitch_single_layer` (`stitching.rs:469-539`). -/
example : (do
    let m ← stitched
    (m.removeStitchesTo 1).restitchAtPoints insertionSorter 1 threeStitches false).map neighbourLists = .ok stitchedLists := by
  decide +kernel

/-- `layers_different_coordinates` (`stitching.rs:607-634`). -/
def twoSquares : Mesh B32 :=
  let square := Layer.mk' [Vertex.new (p2 0 0) [0, u32Max], Vertex.new (p2 1 0) [0, u32Max], Vertex.new (p2 0 1) [0, u32Max],
    Vertex.new (p2 1 1) [0, u32Max]] [Polygon.new [0, 1, 3, 2] false]
  Mesh.ofLayers [square, { square with offset := p2 1 0 }]

def stitchedSquares : Res (Mesh B32) := twoSquares.stitchAtVertices insertionSorter [((0, 1), [(1, 0), (3, 2)])] false

/-- `stitch_layers_different_coordinates` (`stitching.rs:636-674`); the vertices on the segments are given. -/
example : stitchedSquares.map neighbourLists = .ok
    [ [[0, u32Max], [16777216, 0, u32Max], [0, u32Max], [16777216, u32Max, 0]],
      [[16777216, 0, u32Max], [16777216, u32Max], [16777216, u32Max, 0], [16777216, u32Max]] ] := by decide +kernel

example : (do
    let m ← stitchedSquares
    .ok (← m.pointInMesh everyIndex (.onMesh (p2 (1 / 2) (1 / 2))), ← m.pointInMesh everyIndex (.onMesh (p2 (3 / 2) (1 / 2))))) =
    (.ok (true, true) : Res (Bool × Bool)) := by decide +kernel

/-- `path_stitch_layers_different_coordinates` (`stitching.rs:676-706`), in both builds. -/
example :
    let a := p2 (1 / 2) (1 / 2); let b := p2 (3 / 2) (1 / 2); let one := B32.ofRat 1
    (do pathOf (← stitchedSquares) a b) = .ok (some ⟨one, [b], []⟩) ∧
    (do pathOf (← stitchedSquares) b a) = .ok (some ⟨one, [a], []⟩) ∧
    (do pathOfD (← stitchedSquares) a b) = .ok (some ⟨one, [b], [(p2 1 (1 / 2), 1), (b, 1)]⟩) ∧
    (do pathOfD (← stitchedSquares) b a) = .ok (some ⟨one, [a], [(p2 1 (1 / 2), 0), (a, 0)]⟩) := by decide +kernel

/-- `path_stitch_layers_different_coordinates_with_scale` (`stitching.rs:780-895`): three squares in a row, the middle one half as
long with `detailed-layers`; the layers, which the test makes by triangulation, are given. -/
def threeSquares (sx : ℚ) : Res (Mesh B32) :=
  let square := Layer.mk' [Vertex.new (p2 0 0) [0, u32Max], Vertex.new (p2 1 0) [0, u32Max], Vertex.new (p2 0 1) [0, u32Max],
    Vertex.new (p2 1 1) [0, u32Max]] [Polygon.new [0, 1, 3, 2] false]
  (Mesh.ofLayers [square, { square with offset := p2 1 0, scale := p2 sx 1 }, { square with offset := p2 2 0 }]).stitchAtVertices
    insertionSorter [((0, 1), [(1, 0), (3, 2)]), ((1, 2), [(1, 0), (3, 2)])] false

example : (do
    let m ← threeSquares 1
    .ok (← m.getPointLocation everyIndex (.onMesh (p2 (1 / 2) (1 / 2))),
      ← m.getPointLocation everyIndex (.onMesh (p2 (3 / 2) (1 / 2))),
      ← m.getPointLocation everyIndex (.onMesh (p2 (5 / 2) (1 / 2))))) =
    (.ok (0, 16777216, 33554432) : Res (UInt32 × UInt32 × UInt32)) := by decide +kernel

example :
    let a := p2 (1 / 2) (1 / 2); let b := p2 (5 / 4) (1 / 2); let c := p2 (7 / 4) (1 / 2)
    (do pathOf (← threeSquares 1) a b) = .ok (some ⟨B32.ofRat (3 / 4), [b], []⟩) ∧
    (do pathOf (← threeSquares 1) b c) = .ok (some ⟨B32.ofRat (1 / 2), [c], []⟩) ∧
    (do pathOf (← threeSquares 1) a c) = .ok (some ⟨B32.ofRat (5 / 4), [c], []⟩) ∧
    (do pathOf (← threeSquares 1) c a) = .ok (some ⟨B32.ofRat (5 / 4), [a], []⟩) := by decide +kernel

example :
    let a := p2 (1 / 2) (1 / 2); let b := p2 (5 / 4) (1 / 2); let c := p2 (7 / 4) (1 / 2)
    (do pathOfD (← threeSquares (1 / 2)) a b) = .ok (some ⟨B32.ofRat (5 / 8), [b], [(p2 1 (1 / 2), 1), (b, 1)]⟩) ∧
    (do pathOfD (← threeSquares (1 / 2)) b c) = .ok (some ⟨B32.ofRat (1 / 2), [c], [(c, 1)]⟩) ∧
    (do pathOfD (← threeSquares (1 / 2)) a c) = .ok (some ⟨B32.ofRat (7 / 8), [c], [(p2 1 (1 / 2), 1), (c, 1)]⟩) ∧
    (do pathOfD (← threeSquares (1 / 2)) c a) = .ok (some ⟨B32.ofRat (7 / 8), [a], [(p2 1 (1 / 2), 0), (a, 0)]⟩) := by
  decide +kernel

/-- The mesh of `path_with_different_scales` (`stitching.rs:897-976`): two ways between two layers, one of them over two layers
with scale `sy` (1.1 with `detailed-layers`). -/
def hills (sy : ℚ) : Res (Mesh B32) :=
  let layer (ps : List (Vec2 B32)) (poly : List UInt32) := Layer.mk' (ps.map fun p => Vertex.new p [0, u32Max]) [Polygon.new poly false]
  let hill := layer [p2 0 0, p2 1 0, p2 0 1, p2 1 1] [0, 1, 3, 2]
  (Mesh.ofLayers [layer [p2 0 0, p2 2 0, p2 0 1, p2 1 1, p2 2 1] [0, 1, 4, 3, 2],
    { hill with offset := p2 0 1, scale := p2 1 sy }, { hill with offset := p2 0 2, scale := p2 1 sy },
    { layer [p2 0 0, p2 1 0, p2 0 2, p2 1 2] [0, 1, 3, 2] with offset := p2 1 1 },
    { layer [p2 0 0, p2 1 0, p2 2 0, p2 0 1, p2 2 1] [0, 1, 2, 4, 3] with offset := p2 0 3 }]).stitchAtVertices insertionSorter
    [((0, 1), [(2, 0), (3, 1)]), ((1, 2), [(2, 0), (3, 1)]), ((0, 3), [(3, 0), (4, 1)]), ((2, 4), [(2, 0), (3, 1)]),
      ((3, 4), [(2, 1), (3, 2)])] false

end Polyanya.Conformance
