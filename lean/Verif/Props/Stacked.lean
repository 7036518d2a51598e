import Verif.Props.WalkableExample
import Verif.Props.StitchingExamples
import Verif.Proofs.Checks
/-
On layers that lie above each other, a path may not be found: the search remembers the points where paths bend
without their layer.
-/

namespace Polyanya

/-- A way of seven squares that turns to the left three times. -/
def spiral0 : Layer (Ext ℚ) := Layer.mk'
  [ Vertex.new (e2 8 0) [0, u32Max], Vertex.new (e2 16 0) [0, 1, u32Max], Vertex.new (e2 24 0) [1, u32Max],
    Vertex.new (e2 8 8) [0, u32Max, 6, u32Max], Vertex.new (e2 16 8) [0, 1, 2, u32Max],
    Vertex.new (e2 24 8) [1, 2, u32Max], Vertex.new (e2 16 16) [2, 3, 4, u32Max], Vertex.new (e2 24 16) [2, 3, u32Max],
    Vertex.new (e2 16 24) [3, 4, u32Max], Vertex.new (e2 24 24) [3, u32Max], Vertex.new (e2 8 16) [4, 5, 6, u32Max],
    Vertex.new (e2 8 24) [4, 5, u32Max], Vertex.new (e2 0 16) [5, 6, u32Max], Vertex.new (e2 0 24) [5, u32Max],
    Vertex.new (e2 0 8) [6, u32Max] ]
  [ Polygon.new [0, 1, 4, 3] false, Polygon.new [1, 2, 5, 4] false, Polygon.new [4, 5, 7, 6] false,
    Polygon.new [6, 7, 9, 8] false, Polygon.new [10, 6, 8, 11] false, Polygon.new [12, 10, 11, 13] false,
    Polygon.new [14, 3, 10, 12] false ]

/-- Its continuation, above its first squares. -/
def spiral1 : Layer (Ext ℚ) := Layer.mk'
  [ Vertex.new (e2 0 0) [0, u32Max], Vertex.new (e2 8 0) [0, 1, u32Max], Vertex.new (e2 16 0) [1, 2, u32Max],
    Vertex.new (e2 24 0) [2, u32Max], Vertex.new (e2 0 8) [0, u32Max], Vertex.new (e2 8 8) [0, 1, u32Max],
    Vertex.new (e2 16 8) [1, 2, 3, u32Max], Vertex.new (e2 24 8) [2, 3, u32Max], Vertex.new (e2 16 16) [3, u32Max],
    Vertex.new (e2 24 16) [3, u32Max] ]
  [ Polygon.new [0, 1, 5, 4] false, Polygon.new [1, 2, 6, 5] false, Polygon.new [2, 3, 7, 6] false,
    Polygon.new [6, 7, 9, 8] false ]

def spiralMesh : Mesh (Ext ℚ) := Mesh.ofLayers [spiral0, spiral1]

/-- The layers are stitched along the edge from (0, 8) to (8, 8). -/
def spiralStitches : StitchVertices := [((0, 1), [(14, 4), (3, 5)])]

/-- The stitched mesh. -/
def spiralStitched : Mesh (Ext ℚ) :=
  match spiralMesh.stitchAtVertices insSorter spiralStitches false with
  | .ok m => m
  | .error _ => spiralMesh

theorem spiral_stitch : spiralMesh.stitchAtVertices insSorter spiralStitches false = .ok spiralStitched := by
  have h : resIs (spiralMesh.stitchAtVertices insSorter spiralStitches false) (fun _ => true) = true := by
    decide +kernel
  obtain ⟨m, hm, -⟩ := of_resIs h
  unfold spiralStitched
  rw [hm]

/-- Is the point on the grid of step 4 with 6 × 6 cells? -/
def onGridSpiral (v : Vec2 ℚ) : Bool :=
  (List.range 7).any fun i => (List.range 7).any fun j => decide (v = ⟨0 + 4 * i, 0 + 4 * j⟩)

theorem onGridSpiral_spec {v : Vec2 ℚ} (h : onGridSpiral v = true) : OnGrid (⟨0, 0⟩ : Vec2 ℚ) 4 6 v := by
  unfold onGridSpiral at h
  simp only [List.any_eq_true, List.mem_range, decide_eq_true_iff] at h
  obtain ⟨i, hi, j, hj, rfl⟩ := h
  exact ⟨i, j, by omega, by omega, rfl⟩

theorem spiral_grid : GridMesh spiralStitched ⟨12, 4⟩ ⟨20, 12⟩ ⟨0, 0⟩ 4 6 where
  pos := by norm_num
  few := by norm_num
  coarse := by norm_num
  large := by norm_num
  vertices v hv := onGridSpiral_spec (vertices_of_check (by decide +kernel) hv)
  start := onGridSpiral_spec (by decide +kernel)
  goal := onGridSpiral_spec (by decide +kernel)

theorem spiral_walk : Walk spiralStitched 0 ⟨12, 4⟩ 16777219 ⟨20, 12⟩
    [⟨16, 8⟩, ⟨16, 16⟩, ⟨8, 16⟩, ⟨8, 8⟩, ⟨16, 8⟩, ⟨20, 12⟩] :=
  .cons (s' := 2) (straight_of_check (cs := [(⟨0, 1, 1, 4⟩, 1, 1), (⟨1, 2, 5, 4⟩, 1, 0)]) (by decide +kernel)) <|
  .cons (s' := 4) (straight_of_check (cs := [(⟨2, 3, 7, 6⟩, 1, 1), (⟨3, 4, 8, 6⟩, 1, 0)]) (by decide +kernel)) <|
  .cons (s' := 6) (straight_of_check (cs := [(⟨4, 5, 11, 10⟩, 1, 1), (⟨5, 6, 12, 10⟩, 1, 0)]) (by decide +kernel)) <|
  .cons (s' := 16777217) (straight_of_check (cs := [(⟨6, 16777216, 14, 3⟩, 1, 1),
    (⟨16777216, 16777217, 1, 5⟩, 1, 0)]) (by decide +kernel)) <|
  .cons (s' := 16777219) (straight_of_check (cs := [(⟨16777217, 16777218, 2, 6⟩, 1, 1),
    (⟨16777218, 16777219, 7, 6⟩, 1, 0)]) (by decide +kernel)) <|
  .cons (s' := 16777219) (straight_of_check (cs := []) (by decide +kernel)) <|
  .nil (inPolygon_of_check (by decide +kernel))

/-- **C55 is false on layers that lie above each other**: a mesh of two stitched layers, of convex polygons on a coarse
grid, and a walk from a point of the first layer to a point of the second, but `path` returns nothing. -/
theorem C55_stacked_false : ∃ (m₀ m : Mesh (Ext ℚ)) (st : StitchVertices) (start goal : Vec2 ℚ) (i j : UInt8)
    (s e : UInt32) (ws : List (Vec2 ℚ)), m₀.stitchAtVertices insSorter st false = .ok m ∧ Conforming m ∧
    NoNearMiss m start goal ∧ Located m everyIndex (Coords.onLayer start.fin i) s ∧
    Located m everyIndex (Coords.onLayer goal.fin j) e ∧ Walk m s start e goal ws ∧
    (maxHeap : Heap (Ext ℚ)).Max ∧
    m.path everyIndex maxHeap ⟨false⟩ (Coords.onLayer start.fin i) (Coords.onLayer goal.fin j) = .ok none := by
  refine ⟨spiralMesh, spiralStitched, spiralStitches, ⟨12, 4⟩, ⟨20, 12⟩, 0, 1, 0, 16777219, _, spiral_stitch,
    conforms_of_check (by decide +kernel), noNearMiss_of_grid spiral_grid.pos spiral_grid.few spiral_grid.coarse
      spiral_grid.large spiral_grid.vertices spiral_grid.start spiral_grid.goal, ?_, ?_, spiral_walk, extHeap_max, ?_⟩
  · exact endpointPolygon_located.1 (by decide +kernel)
  · exact endpointPolygon_located.1 (by decide +kernel)
  · have h : resIs (spiralStitched.path everyIndex maxHeap ⟨false⟩ (Coords.onLayer (e2 12 4) 0)
      (Coords.onLayer (e2 20 12) 1)) (fun r => r.isNone) = true := by decide +kernel
    obtain ⟨r, hr, hn⟩ := of_resIs h
    cases r with
    | none => exact hr
    | some _ => simp at hn

end Polyanya
