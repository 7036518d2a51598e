import Verif.Conformance.Lib
import Verif.Model.Merger
import Verif.Model.Trimesh
/-
The crate's own tests of `merger.rs` (`merger.rs:183-346`, those without a triangulation) and `input/trimesh.rs`
(`trimesh.rs:166-263`), run on the model with binary32 arithmetic. (Tests of the model, see `Conformance/Helpers.lean`.)
-/

namespace Polyanya.Conformance

open Polyanya

/-- Twice the signed area by the shoelace formula. -/
def shoelace (l : List (Vec2 B32)) : B32 :=
  (l.zip (l.rotate 1)).foldl (fun s e => s +. e.1.perpDot e.2) zero32

/-- No right turn at any point of the closed line string (and some left turn): `is_ccw_convex` for the simple rings of this test. -/
def leftTurns (l : List (Vec2 B32)) : Bool :=
  ((l.zip (l.rotate 1)).zip (l.rotate 2)).all fun t => zero32.le ((t.1.2 - t.1.1).perpDot (t.2 - t.1.2))

/-- The functions of `geo`. -/
def simpleGeo : Geo B32 := { area := fun l => (shoelace l).abs.div (B32.ofNat 2), ccwConvex := fun l => leftTurns l && zero32.lt (shoelace l) }

/-- `mesh_u_grid` (`merger.rs:189-221`). -/
def bigU : Layer B32 := Layer.mk'
  [ Vertex.new (p2 0 0) [0, u32Max], Vertex.new (p2 1 0) [0, 1, u32Max], Vertex.new (p2 2 0) [1, 2, u32Max],
    Vertex.new (p2 3 0) [2, u32Max], Vertex.new (p2 0 1) [3, 0, u32Max], Vertex.new (p2 1 1) [3, 1, 0, u32Max],
    Vertex.new (p2 2 1) [4, 2, 1, u32Max], Vertex.new (p2 3 1) [4, 2, u32Max], Vertex.new (p2 0 2) [5, 3, u32Max],
    Vertex.new (p2 1 2) [5, 3, u32Max], Vertex.new (p2 2 2) [6, 4, u32Max], Vertex.new (p2 3 2) [6, 4, u32Max],
    Vertex.new (p2 0 3) [5, u32Max], Vertex.new (p2 1 3) [5, u32Max], Vertex.new (p2 2 3) [6, u32Max],
    Vertex.new (p2 3 3) [6, u32Max] ]
  [ Polygon.new [0, 1, 5, 4] false, Polygon.new [1, 2, 6, 5] false, Polygon.new [2, 3, 7, 6] false,
    Polygon.new [4, 5, 9, 8] false, Polygon.new [6, 7, 11, 10] false, Polygon.new [8, 9, 13, 12] false,
    Polygon.new [10, 11, 15, 14] false ]

/-- `while mesh.merge_polygons() {}`, at most `n` times. -/
def mergeAll : Nat → Layer B32 → Res (Layer B32)
  | 0, _ => .error .fuel
  | n + 1, l => do
    let (l, again) ← l.mergePolygons simpleGeo
    if again then mergeAll n l else .ok l

/-- `merge_u` and `merge_and_path` (`merger.rs:224-282`). -/
example : (mergeAll 5 bigU).map (fun l => (l.polygons, l.vertices.take 9)) = .ok
    ([Polygon.new [5, 4, 0, 1, 2, 6] false, Polygon.new [10, 6, 2, 3, 7, 11, 15, 14] false,
        Polygon.new [8, 4, 5, 9, 13, 12] false],
      [Vertex.new (p2 0 0) [0, u32Max], Vertex.new (p2 1 0) [0, u32Max], Vertex.new (p2 2 0) [0, 1, u32Max],
        Vertex.new (p2 3 0) [1, u32Max], Vertex.new (p2 0 1) [2, 0, u32Max], Vertex.new (p2 1 1) [2, 0, u32Max],
        Vertex.new (p2 2 1) [1, 0, u32Max], Vertex.new (p2 3 1) [1, u32Max], Vertex.new (p2 0 2) [2, u32Max]]) := by
  decide +kernel

/-- Insertion by a comparison. -/
def insertLess (less : UInt32 → UInt32 → Bool) (x : UInt32) : List UInt32 → List UInt32
  | [] => [x]
  | y :: ys => if less y x then y :: insertLess less x ys else x :: y :: ys

/-- Insertion sort, as `sort_by` does for short slices. -/
def insertSort : TriSorter := fun less l => some (l.foldl (fun acc x => insertLess less x acc) [])

/-- The same list up to rotation (what the test checks with `wrap_to_first`). -/
def sameCycle (a b : List UInt32) : Bool := (List.range a.length).any fun i => a.rotate i == b

/-- `generation_from_trimesh_is_same_as_regular` (`trimesh.rs:170-237`): neighbours are compared up to rotation. -/
example :
    let polygons := [Polygon.new [0, 1, 4] false, Polygon.new [1, 2, 5] false, Polygon.new [5, 2, 3] false,
        Polygon.new [1, 5, 3] false, Polygon.new [0, 4, 3] false]
    let vertices := [Vertex.new (p2 1 1) [0, 4, u32Max], Vertex.new (p2 5 1) [u32Max, 1, 3, u32Max, 0],
        Vertex.new (p2 5 4) [u32Max, 2, 1], Vertex.new (p2 1 4) [u32Max, 4, u32Max, 3, 2], Vertex.new (p2 2 2) [u32Max, 4, 0],
        Vertex.new (p2 4 3) [1, 2, 3]]
    (do
      match ← Trimesh.toMesh insertSort (⟨[p2 1 1, p2 5 1, p2 5 4, p2 1 4, p2 2 2, p2 4 3],
        [(0, 1, 4), (1, 2, 5), (5, 2, 3), (1, 5, 3), (0, 4, 3)]⟩ : Trimesh B32) with
      | .error _ => .error .panic
      | .ok m => .ok (m.layers.map fun l => l.polygons == polygons && l.vertices.length == vertices.length &&
          (l.vertices.zip vertices).all fun v => v.1.coords == v.2.coords && v.1.isCorner == v.2.isCorner &&
            sameCycle v.1.polygons v.2.polygons)) = (.ok [true] : Res (List Bool)) := by
  decide +kernel

/-- `isolated_vertex_fails` (`trimesh.rs:239-247`). -/
example : (Trimesh.toMesh insertSort (⟨[p2 1 1], []⟩ : Trimesh B32)).map (fun r => match r with
    | .error .invalidMesh => true
    | _ => false) = .ok true := by decide +kernel

end Polyanya.Conformance
