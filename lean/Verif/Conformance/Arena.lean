import Verif.Conformance.Lib
/-
`meshes/arena-merged.mesh` as the crate's reader gives it, and some of the 160 scenarios of `tests/arena-merged.rs` run on the model
with binary32 arithmetic: the length of the path found is the expected one up to 0.0001. (Tests of the model, see
`Conformance/Helpers.lean`. Evaluated outside the kernel, all 160 scenarios agree, on `arena.mesh` as well.)
-/

namespace Polyanya.Conformance

open Polyanya

/-- `meshes/arena-merged.mesh`: vertices. -/
def arenaVertices : List (Nat × Nat × List UInt32) := [
  (2, 2, [u32Max, 1]), (1, 3, [6, u32Max]), (2, 3, [5, 6, u32Max, 1, 0]), (3, 2, [2, 0, 1, u32Max]), (3, 1, [2, u32Max]),
  (15, 1, [u32Max, 2]), (15, 3, [u32Max, 5, 0, 2]), (18, 3, [4, 16, 5, u32Max]), (18, 2, [u32Max, 4]), (19, 1, [3, u32Max]),
  (20, 1, [u32Max, 3]), (20, 2, [16, 3, u32Max]), (19, 2, [3, 16, 4, u32Max]), (23, 2, [16, u32Max, 28]), (23, 1, [28, u32Max]),
  (23, 8, [5, 16, 39, u32Max]), (24, 7, [39, 16, 41, u32Max]), (24, 8, [u32Max, 39]), (23, 10, [5, u32Max, 54]), (15, 15, [5, u32Max, 46, 51]),
  (18, 18, [u32Max, 53]), (19, 15, [5, 54, u32Max]), (19, 18, [u32Max, 54, 52, 53]), (18, 19, [52, 38, u32Max, 53]), (15, 19, [46, u32Max, 38]),
  (3, 15, [5, 51, u32Max, 6]), (1, 15, [6, u32Max]), (3, 18, [51, 46, 7, u32Max]), (2, 18, [7, u32Max]), (2, 23, [46, 17, u32Max, 7]),
  (1, 23, [u32Max, 17]), (3, 48, [u32Max, 8]), (15, 48, [8, u32Max]), (19, 48, [u32Max, 9]), (20, 48, [9, u32Max]),
  (24, 48, [22, u32Max]), (24, 47, [21, 22, u32Max, 10]), (23, 46, [42, 47, 21, 10, u32Max, 27]), (23, 47, [u32Max, 10]), (19, 47, [45, 9, u32Max]),
  (20, 46, [27, u32Max, 9, 45]), (15, 47, [45, u32Max, 8]), (3, 47, [11, 45, 8, u32Max]), (1, 47, [11, u32Max]), (1, 35, [u32Max, 11]),
  (2, 35, [45, 11, u32Max, 12]), (2, 34, [u32Max, 12]), (3, 34, [u32Max, 13, 45, 12]), (1, 31, [14, u32Max]), (3, 31, [14, 13, u32Max]),
  (3, 30, [u32Max, 13, 14]), (1, 30, [u32Max, 14]), (3, 27, [18, 46, 13, u32Max]), (2, 27, [u32Max, 18]), (1, 26, [u32Max, 17]),
  (2, 26, [17, 46, 18, u32Max]), (15, 31, [38, u32Max, 13, 46]), (15, 35, [27, 45, 13, u32Max]), (18, 35, [42, 27, u32Max, 48]), (18, 34, [u32Max, 48]),
  (19, 31, [52, 54, 31, 47, u32Max, 38]), (19, 34, [u32Max, 47, 42, 48]), (31, 31, [47, 31, u32Max]), (31, 35, [19, 47, u32Max]), (34, 34, [u32Max, 15]),
  (34, 35, [19, u32Max, 15, 49]), (35, 34, [50, 49, 15, u32Max]), (35, 31, [u32Max, 31, 50]), (47, 31, [u32Max, 50, 31, 26]), (47, 35, [19, 49, 50, u32Max, 25]),
  (47, 47, [19, 25, u32Max, 24]), (35, 47, [u32Max, 19, 24]), (31, 47, [23, 19, u32Max]), (29, 46, [19, 20, u32Max, 47]), (29, 47, [u32Max, 20]),
  (30, 47, [19, 23, u32Max, 20]), (26, 46, [47, u32Max, 22, 21]), (26, 48, [22, u32Max]), (30, 48, [23, u32Max]), (31, 48, [23, u32Max]),
  (35, 48, [24, u32Max]), (47, 48, [24, u32Max]), (48, 47, [25, u32Max]), (48, 35, [25, u32Max]), (48, 31, [u32Max, 26]),
  (48, 3, [u32Max, 36]), (48, 15, [u32Max, 36]), (48, 19, [u32Max, 26]), (47, 19, [31, 43, 44, u32Max, 26]), (47, 15, [u32Max, 44, 37, 36]),
  (34, 19, [31, u32Max, 40, 43]), (31, 19, [54, u32Max, 31]), (31, 15, [54, 37, u32Max]), (34, 18, [u32Max, 40]), (35, 18, [44, 43, 40, u32Max]),
  (35, 15, [u32Max, 37, 44]), (26, 10, [54, u32Max, 37]), (26, 7, [41, 37, u32Max]), (26, 3, [37, 41, 16, 28, u32Max]), (26, 1, [u32Max, 28]),
  (29, 3, [37, u32Max, 29, 32]), (30, 2, [30, 32, 29, u32Max]), (29, 2, [u32Max, 29]), (30, 1, [30, u32Max]), (31, 1, [u32Max, 30]),
  (31, 3, [37, 32, 30, u32Max]), (34, 3, [37, u32Max, 35, 33]), (34, 2, [u32Max, 35]), (35, 1, [34, u32Max]), (35, 2, [34, 33, 35, u32Max]),
  (47, 3, [37, 33, 34, u32Max, 36]), (47, 1, [u32Max, 34])]

/-- `meshes/arena-merged.mesh`: polygons (`primitives.rs:67-90`: one way if there is at most one neighbour). -/
def arenaPolygons : List (List UInt32 × Bool) := [
  ([6, 2, 3], false), ([3, 2, 0], true), ([5, 6, 3, 4], true), ([10, 11, 12, 9], true), ([12, 7, 8], true), ([7, 15, 18, 21, 19, 25, 2, 6], false),
  ([2, 25, 26, 1], true), ([29, 28, 27], true), ([42, 41, 32, 31], true), ([39, 40, 34, 33], true), ([38, 37, 36], true), ([45, 42, 43, 44], true),
  ([47, 45, 46], true), ([50, 52, 56, 57, 47, 49], false), ([50, 49, 48, 51], true), ([66, 65, 64], true), ([7, 12, 11, 13, 98, 16, 15], false), ([30, 29, 55, 54], true),
  ([55, 52, 53], true), ([72, 75, 73, 63, 65, 69, 70, 71], false), ([75, 74, 73], true), ([76, 36, 37], false), ([36, 76, 77, 35], true), ([75, 72, 79, 78], true),
  ([71, 70, 81, 80], true), ([70, 69, 83, 82], true), ([84, 68, 88, 87], true), ([58, 37, 40, 57], false), ([99, 98, 13, 14], true), ([101, 100, 102], true),
  ([104, 105, 101, 103], true), ([62, 60, 91, 90, 88, 68, 67], false), ([105, 100, 101], false), ([110, 106, 109], false), ([111, 110, 109, 108], true), ([109, 106, 107], true),
  ([86, 89, 110, 85], true), ([97, 98, 100, 105, 106, 110, 89, 95, 92, 96], false), ([23, 60, 56, 24], false), ([17, 15, 16], true), ([94, 90, 93], true), ([97, 16, 98], false),
  ([61, 37, 58], false), ([94, 88, 90], false), ([89, 88, 94, 95], false), ([40, 39, 41, 42, 45, 47, 57], false), ([52, 55, 29, 27, 19, 24, 56], false), ([63, 73, 76, 37, 61, 60, 62], false),
  ([61, 58, 59], true), ([66, 69, 65], false), ([68, 69, 66, 67], false), ([19, 27, 25], false), ([23, 22, 60], false), ([23, 20, 22], true),
  ([21, 18, 96, 92, 91, 60, 22], false)]

/-- The mesh, not baked. -/
def arena : Mesh B32 := Mesh.ofLayers [Layer.mk'
  (arenaVertices.map fun v => Vertex.new ⟨B32.ofNat v.1, B32.ofNat v.2.1⟩ v.2.2)
  (arenaPolygons.map fun p => Polygon.new p.1 p.2)]

/-- The length of the path is `e` up to 0.0001. -/
def lengthIs (a b c d : Nat) (e : ℚ) : Bool :=
  match pathOf arena ⟨B32.ofNat a, B32.ofNat b⟩ ⟨B32.ofNat c, B32.ofNat d⟩ with
  | .ok (some p) => ((p.length -. B32.ofRat e).abs) <. B32.lit 1 4
  | _ => false

example : lengthIs 1 3 4 3 3 = true := by decide +kernel
example : lengthIs 1 12 6 25 (140459 / 10000) = true := by decide +kernel
example : lengthIs 1 12 19 27 (234307 / 10000) = true := by decide +kernel
example : lengthIs 1 10 12 47 (386267 / 10000) = true := by decide +kernel
example : lengthIs 1 11 39 47 (10469 / 200) = true := by decide +kernel
example : lengthIs 1 7 47 44 (593941 / 10000) = true := by decide +kernel

end Polyanya.Conformance
