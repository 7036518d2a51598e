import Verif.Props.UnorderedExample
/-
C80: several layers stitched along the same edge.
-/

namespace Polyanya

/-- The square [x,x+1]x[0,1]. -/
def forkLayer (x : Rat) : Layer Rat := Layer.mk'
  [ Vertex.new (v2 x 0) [0, u32Max], Vertex.new (v2 (x+1) 0) [0, u32Max],
    Vertex.new (v2 (x+1) 1) [0, u32Max], Vertex.new (v2 x 1) [0, u32Max] ]
  [ Polygon.new [0, 1, 2, 3] false ]

/-- A square, and two layers (two floors, say) that continue it to the right. -/
def forkMesh : Mesh Rat := Mesh.ofLayers [forkLayer 0, forkLayer 1, forkLayer 1]

/-- Both are stitched along the right edge of the first square. -/
def forkStitches : StitchVertices := [((0, 1), [(1, 0), (2, 3)]), ((0, 2), [(1, 0), (2, 3)])]

theorem forkMesh_unstitched : forkMesh.Unstitched := unstitched_of_check (by decide +kernel)

theorem forkStitches_exist : StitchesExist forkMesh forkStitches := by
  intro e he
  simp only [forkStitches, List.mem_cons, List.not_mem_nil, or_false] at he
  rcases he with rfl | rfl
  · refine ⟨by decide, ?_⟩
    intro p hp
    simp only [List.mem_cons, List.not_mem_nil, or_false] at hp
    rcases hp with rfl | rfl <;> exact ⟨⟨_, _, rfl, rfl⟩, ⟨_, _, rfl, rfl⟩⟩
  · refine ⟨by decide, ?_⟩
    intro p hp
    simp only [List.mem_cons, List.not_mem_nil, or_false] at hp
    rcases hp with rfl | rfl <;> exact ⟨⟨_, _, rfl, rfl⟩, ⟨_, _, rfl, rfl⟩⟩

/-- A point in the middle of the square of layer `k`. -/
def forkPoint (k : UInt8) : Coords Rat := ⟨if k = 0 then v2 (1/2) (1/2) else v2 (3/2) (1/2), some k, u32Max⟩

/-- **C80** is false: of two layers stitched along the same edge, the search enters only the one that the vertices
list first. The layers are stitched both ways; there is a path from layer 2 to layer 0, but none from layer 0 to
layer 2, and none when layer 1 is blocked. All hypotheses of `C20_stitch` hold. -/
theorem C80_false : forkMesh.Unstitched ∧ StitchesExist forkMesh forkStitches ∧ insSorter.Ok ∧
    ∃ m', forkMesh.stitchAtVertices insSorter forkStitches false = .ok m' ∧
      (∀ k ∈ [(1 : UInt8), 2], ∃ p, m'.path allBvh ratHeap ⟨false⟩ (forkPoint k) (forkPoint 0) = .ok (some p) ∧
        p.path = [v2 (1/2) (1/2)]) ∧
      (∃ p, m'.path allBvh ratHeap ⟨false⟩ (forkPoint 0) (forkPoint 1) = .ok (some p) ∧ p.path = [v2 (3/2) (1/2)]) ∧
      m'.path allBvh ratHeap ⟨false⟩ (forkPoint 0) (forkPoint 2) = .ok none ∧
      m'.pathOnLayers allBvh ratHeap ⟨false⟩ (forkPoint 0) (forkPoint 2) [1] = .ok none := by
  refine ⟨forkMesh_unstitched, forkStitches_exist, insSorter_ok, ?_⟩
  have hp : ∀ {r : Res (Option (Path Rat))} {ps : List (Vec2 Rat)},
      resIs r (fun o => match o with | some p => p.path == ps | none => false) = true →
      ∃ p, r = .ok (some p) ∧ p.path = ps := by
    intro r ps h
    obtain ⟨o, e, h⟩ := of_resIs h
    cases o with
    | none => simp at h
    | some p => exact ⟨p, e, by simpa using h⟩
  have hn : ∀ {r : Res (Option (Path Rat))}, resIs r (fun o => o.isNone) = true → r = .ok none := by
    intro r h
    obtain ⟨o, e, h⟩ := of_resIs h
    cases o with
    | none => exact e
    | some _ => simp at h
  have h : resIs (forkMesh.stitchAtVertices insSorter forkStitches false) (fun m' =>
      resIs (m'.path allBvh ratHeap ⟨false⟩ (forkPoint 1) (forkPoint 0)) (fun o => match o with
        | some p => p.path == [v2 (1/2) (1/2)] | none => false) &&
      resIs (m'.path allBvh ratHeap ⟨false⟩ (forkPoint 2) (forkPoint 0)) (fun o => match o with
        | some p => p.path == [v2 (1/2) (1/2)] | none => false) &&
      resIs (m'.path allBvh ratHeap ⟨false⟩ (forkPoint 0) (forkPoint 1)) (fun o => match o with
        | some p => p.path == [v2 (3/2) (1/2)] | none => false) &&
      resIs (m'.path allBvh ratHeap ⟨false⟩ (forkPoint 0) (forkPoint 2)) (fun o => o.isNone) &&
      resIs (m'.pathOnLayers allBvh ratHeap ⟨false⟩ (forkPoint 0) (forkPoint 2) [1]) (fun o => o.isNone)) = true := by
    decide +kernel
  obtain ⟨m', e, h⟩ := of_resIs h
  simp only [Bool.and_eq_true] at h
  obtain ⟨⟨⟨⟨h1, h2⟩, h3⟩, h4⟩, h5⟩ := h
  refine ⟨m', e, ?_, hp h3, hn h4, hn h5⟩
  intro k hk
  simp only [List.mem_cons, List.not_mem_nil, or_false] at hk
  rcases hk with rfl | rfl
  · exact hp h1
  · exact hp h2

end Polyanya
