import Verif.Props.AsyncAgree
import Verif.Props.StitchingExamples
/-
C58, examples: a future and a blocking query on stitched layers, with and without baked islands.
-/

namespace Polyanya

/-- Two squares, [0,1]x[0,1] and [2,3]x[0,1]. -/
def banksLayer : Layer Rat := Layer.mk'
  [ Vertex.new (v2 0 0) [0, u32Max], Vertex.new (v2 1 0) [0, u32Max], Vertex.new (v2 1 1) [0, u32Max],
    Vertex.new (v2 0 1) [0, u32Max], Vertex.new (v2 2 0) [1, u32Max], Vertex.new (v2 3 0) [1, u32Max],
    Vertex.new (v2 3 1) [1, u32Max], Vertex.new (v2 2 1) [1, u32Max] ]
  [ Polygon.new [0, 1, 2, 3] false, Polygon.new [4, 5, 6, 7] false ]

/-- The square between them. -/
def bridgeLayer : Layer Rat := Layer.mk'
  [ Vertex.new (v2 1 0) [0, u32Max], Vertex.new (v2 2 0) [0, u32Max], Vertex.new (v2 2 1) [0, u32Max],
    Vertex.new (v2 1 1) [0, u32Max] ]
  [ Polygon.new [0, 1, 2, 3] false ]

def bridgeMesh : Mesh Rat := Mesh.ofLayers [banksLayer, bridgeLayer]

def bridgeStitches : StitchVertices := [((0, 1), [(1, 0), (2, 3), (4, 1), (7, 2)])]

/-- The bridge, stitched. -/
def bridgeOpen : Res (Mesh Rat) := bridgeMesh.stitchAtVertices insSorter bridgeStitches false

/-- The bridge, baked before stitching, as the documentation demands. -/
def bridgeBaked : Res (Mesh Rat) := do
  let m ← bridgeMesh.bake
  m.stitchAtVertices insSorter bridgeStitches false

/-- The island tests of futures and of blocking queries differ on the layers: on the baked and stitched bridge, `path`
finds the way over the bridge and `get_path` says that there is none, although both locate both points in the same
polygons. -/
theorem C58_baked_false : ∃ m p, bridgeBaked = .ok m ∧
    LookupsAgree m allBvh (v2 (1/2) (1/2)) ∧ LookupsAgree m allBvh (v2 (5/2) (1/2)) ∧
    m.path allBvh ratHeap ⟨false⟩ (Coords.onMesh (v2 (1/2) (1/2))) (Coords.onMesh (v2 (5/2) (1/2))) = .ok (some p) ∧
    ∀ heap : Heap Rat,
      Resolves allBvh heap ⟨false⟩ m (Mesh.getPath (v2 (1/2) (1/2)) (v2 (5/2) (1/2))) none := by
  obtain ⟨m, hm, h⟩ := of_resIs (x := bridgeBaked) (f := fun m =>
    decide (m.getPointLocation allBvh (Coords.onMesh (v2 (1/2) (1/2))) = .ok 0) &&
    decide (m.getPointLocation allBvh (Coords.onMesh (v2 (5/2) (1/2))) = .ok 1) &&
    decide (m.getClosestPoint allBvh (Coords.onMesh (v2 (1/2) (1/2))) = .ok (some ⟨v2 (1/2) (1/2), some 0, 0⟩)) &&
    decide (m.getClosestPoint allBvh (Coords.onMesh (v2 (5/2) (1/2))) = .ok (some ⟨v2 (5/2) (1/2), some 0, 1⟩)) &&
    decide (m.islandsDifferAsync 0 1 = .ok true) &&
    resIs (m.path allBvh ratHeap ⟨false⟩ (Coords.onMesh (v2 (1/2) (1/2))) (Coords.onMesh (v2 (5/2) (1/2))))
      Option.isSome) (by decide +kernel)
  simp only [Bool.and_eq_true, decide_eq_true_iff] at h
  obtain ⟨⟨⟨⟨⟨h1, h2⟩, h3⟩, h4⟩, h5⟩, h6⟩ := h
  obtain ⟨r, hr, hp⟩ := of_resIs h6
  obtain ⟨p, rfl⟩ := Option.isSome_iff_exists.1 hp
  refine ⟨m, p, hm, ⟨0, h1, .inl ⟨by decide, _, h3, rfl⟩⟩, ⟨1, h2, .inl ⟨by decide, _, h4, rfl⟩⟩, hr, fun heap => ?_⟩
  refine .ready (f' := Mesh.getPath (v2 (1/2) (1/2)) (v2 (5/2) (1/2))) ?_
  unfold FuturePath.poll
  simp only [Mesh.getPath, h1, res_bind_ok, show ¬ ((0 : UInt32) = u32Max) by decide, if_false, h2,
    show ¬ ((1 : UInt32) = u32Max) by decide, h5, if_true]

/-- Non-vacuity of C58: without baking, the future finds the way over the bridge. -/
example : ∃ m p, bridgeOpen = .ok m ∧ m.layers.length = 2 ∧
    Resolves allBvh ratHeap ⟨false⟩ m (Mesh.getPath (v2 (1/2) (1/2)) (v2 (5/2) (1/2))) (some p) := by
  obtain ⟨m, hm, h⟩ := of_resIs (x := bridgeOpen) (f := fun m =>
    decide (m.getPointLocation allBvh (Coords.onMesh (v2 (1/2) (1/2))) = .ok 0) &&
    decide (m.getPointLocation allBvh (Coords.onMesh (v2 (5/2) (1/2))) = .ok 1) &&
    decide (m.getClosestPoint allBvh (Coords.onMesh (v2 (1/2) (1/2))) = .ok (some ⟨v2 (1/2) (1/2), some 0, 0⟩)) &&
    decide (m.getClosestPoint allBvh (Coords.onMesh (v2 (5/2) (1/2))) = .ok (some ⟨v2 (5/2) (1/2), some 0, 1⟩)) &&
    wfCheck m && (m.layers.all fun l => l.islands.isNone) && decide (m.layers.length = 2) &&
    resIs (m.path allBvh ratHeap ⟨false⟩ (Coords.onMesh (v2 (1/2) (1/2))) (Coords.onMesh (v2 (5/2) (1/2))))
      Option.isSome) (by decide +kernel)
  simp only [Bool.and_eq_true, decide_eq_true_iff, List.all_eq_true, Option.isNone_iff_eq_none] at h
  obtain ⟨⟨⟨⟨⟨⟨⟨h1, h2⟩, h3⟩, h4⟩, h5⟩, h6⟩, h7⟩, h8⟩ := h
  obtain ⟨r, hr, hp⟩ := of_resIs h8
  obtain ⟨p, rfl⟩ := Option.isSome_iff_exists.1 hp
  exact ⟨m, p, hm, h7, (C58_blocking_path_is_found rfl (wf_of_check h5 _) h6 ⟨0, h1, .inl ⟨by decide, _, h3, rfl⟩⟩
    ⟨1, h2, .inl ⟨by decide, _, h4, rfl⟩⟩ p hr).1⟩

end Polyanya
