import Verif.Props.StitchPoints
import Verif.Props.CleanupExamples
/-
Concrete cases for C19-C22, C47 and C48.
-/

namespace Polyanya

instance : EqLaws Rat where
  symm a b h := by simp only [Scalar.eq, decide_eq_true_eq] at *; exact h.symm
  refl_left a b _ := by simp [Scalar.eq]

/-- The square missing in the L-shaped mesh: [1,2]x[1,2]. -/
def fillLayer : Layer Rat := Layer.mk'
  [ Vertex.new (v2 1 1) [0, u32Max], Vertex.new (v2 2 1) [0, u32Max],
    Vertex.new (v2 2 2) [0, u32Max], Vertex.new (v2 1 2) [0, u32Max] ]
  [ Polygon.new [0, 1, 2, 3] false ]

/-- The L-shape made longer by the square [2,3]x[0,1]. -/
def longLayer : Layer Rat := Layer.mk'
  [ Vertex.new (v2 0 0) [0, u32Max], Vertex.new (v2 1 0) [0, 1, u32Max],
    Vertex.new (v2 2 0) [1, 3, u32Max], Vertex.new (v2 0 1) [0, 2, u32Max],
    Vertex.new (v2 1 1) [0, 1, 2, u32Max], Vertex.new (v2 2 1) [1, 3, u32Max],
    Vertex.new (v2 0 2) [2, u32Max], Vertex.new (v2 1 2) [2, u32Max],
    Vertex.new (v2 3 0) [3, u32Max], Vertex.new (v2 3 1) [3, u32Max] ]
  [ Polygon.new [0, 1, 4, 3] false, Polygon.new [1, 2, 5, 4] false, Polygon.new [3, 4, 7, 6] false,
    Polygon.new [2, 8, 9, 5] false ]

/-- The L-shaped layer and the layer that fills it up to a square. -/
def fillMesh : Mesh Rat := Mesh.ofLayers [longLayer, fillLayer]

/-- The two layers meet in three vertices. -/
def fillStitches : StitchVertices := [((0, 1), [(4, 0), (5, 1), (7, 3)])]

/-- The hypotheses about unstitched layers, decided by running through the mesh (used for examples only). -/
def unstitchedCheck (m : Mesh Rat) : Bool :=
  decide (m.layers.length ≤ 256) && m.layers.all (fun l =>
    decide (l.polygons.length ≤ 2 ^ 24 - 1) &&
    l.vertices.all (fun v => v.polygons.all (fun id => id == u32Max || decide (id.toNat < l.polygons.length))) &&
    l.polygons.all (fun p => p.vertices.all (fun v => decide (v.toNat < l.vertices.length))))

theorem unstitched_of_check {m : Mesh Rat} (h : unstitchedCheck m = true) : m.Unstitched := by
  simp only [unstitchedCheck, List.all_eq_true, Bool.and_eq_true, Bool.or_eq_true, beq_iff_eq, decide_eq_true_eq] at h
  refine ⟨h.1, fun l hl => ?_, fun l hl v hv id hid hne => ?_, fun l hl => (h.2 l hl).2⟩
  · exact (h.2 l hl).1.1
  · exact ((h.2 l hl).1.2 v hv id hid).resolve_left hne

theorem fillMesh_unstitched : fillMesh.Unstitched := unstitched_of_check (by decide +kernel)

theorem fillStitches_exist : StitchesExist fillMesh fillStitches := by
  intro e he
  simp only [fillStitches, List.mem_singleton] at he
  subst he
  refine ⟨by decide, ?_⟩
  intro p hp
  simp only [List.mem_cons, List.not_mem_nil, or_false] at hp
  rcases hp with rfl | rfl | rfl <;> exact ⟨⟨_, _, rfl, rfl⟩, ⟨_, _, rfl, rfl⟩⟩

/-- Stitched both ways at (1,1), the four squares around it follow each other without a gap, and it is no corner;
one way, layer 1 does not get the squares of layer 0. -/
example : resIs (fillMesh.stitchAtVertices insSorter fillStitches false) (fun m =>
    m.layers.map (fun l => l.vertices.filterMap (fun v =>
      if v.coords = v2 1 1 then some (v.polygons, v.isCorner) else none)) ==
      [[([1, 16777216, 2, 0], false)], [([1, 16777216, 2, 0], false)]]) = true := by
  decide +kernel

example : resIs (fillMesh.stitchAtVertices insSorter fillStitches true) (fun m =>
    m.layers.map (fun l => l.vertices.filterMap (fun v =>
      if v.coords = v2 1 1 then some (v.polygons, v.isCorner) else none)) ==
      [[([1, 16777216, 2, 0], false)], [([16777216, u32Max], true)]]) = true := by
  decide +kernel

/-- The points that `find_stitch_points` finds are the three shared ones. -/
example : fillMesh.findStitchPoints = [((0, 1), [v2 1 1, v2 2 1, v2 1 2])] := by decide +kernel

/-- A point without a vertex in one of the layers, as in `C21_missing_panics`. -/
example : ¬ SomeAt fillMesh 1 (v2 0 0) := by
  rintro ⟨l, v, hl, hv, hb⟩
  have hl : l = fillLayer := by simpa [fillMesh, Mesh.ofLayers] using hl.symm
  subst hl
  have : ∀ v ∈ fillLayer.vertices, v.coords.beq (v2 0 0) = false := by decide +kernel
  rw [this v hv] at hb
  simp at hb

/-- Removing the stitches to layer 1 from the stitched mesh. -/
example : resIs (fillMesh.stitchAtVertices insSorter fillStitches false) (fun m =>
    (m.removeStitchesTo 1).layers.map (fun l => l.vertices.filterMap (fun v =>
      if v.coords = v2 1 1 then some v.polygons else none)) == [[[1, 2, 0]], [[0]]]) = true := by
  decide +kernel

/-- **C47** is false: after stitching two layers and removing the stitches again, a query inside layer 0 that was
answered by a path before is answered by "no path". Corner (1,1) was covered by the other layer while stitched, and
`remove_stitches` does not mark it as a corner again. All hypotheses of `C19_round_trip` hold. -/
theorem C47_false : fillMesh.Unstitched ∧ StitchesExist fillMesh fillStitches ∧ insSorter.Ok ∧
    ∃ (m' : Mesh Rat) (p : Path Rat), fillMesh.stitchAtVertices insSorter fillStitches false = .ok m' ∧
      fillMesh.path allBvh ratHeap ⟨false⟩ ⟨v2 (1/4) (15/8), some 0, u32Max⟩ ⟨v2 (5/2) (1/2), some 0, u32Max⟩ =
        .ok (some p) ∧ p.path = [v2 1 1, v2 (5/2) (1/2)] ∧
      m'.removeStitches.path allBvh ratHeap ⟨false⟩ ⟨v2 (1/4) (15/8), some 0, u32Max⟩ ⟨v2 (5/2) (1/2), some 0, u32Max⟩ =
        .ok none := by
  refine ⟨fillMesh_unstitched, fillStitches_exist, insSorter_ok, ?_⟩
  have h1 : resIs (fillMesh.stitchAtVertices insSorter fillStitches false) (fun m' =>
      resIs (m'.removeStitches.path allBvh ratHeap ⟨false⟩ ⟨v2 (1/4) (15/8), some 0, u32Max⟩
        ⟨v2 (5/2) (1/2), some 0, u32Max⟩) (fun o => o.isNone)) = true := by decide +kernel
  have h2 : resIs (fillMesh.path allBvh ratHeap ⟨false⟩ ⟨v2 (1/4) (15/8), some 0, u32Max⟩
        ⟨v2 (5/2) (1/2), some 0, u32Max⟩) (fun o => match o with
          | some p => p.path == [v2 1 1, v2 (5/2) (1/2)]
          | none => false) = true := by decide +kernel
  obtain ⟨m', e1, h1⟩ := of_resIs h1
  obtain ⟨o, e2, h1⟩ := of_resIs h1
  obtain ⟨o', e3, h2⟩ := of_resIs h2
  cases o' with
  | none => simp at h2
  | some p =>
    cases o with
    | some _ => simp at h1
    | none => exact ⟨m', p, e1, e3, by simpa using h2, e2⟩

/-- A new version of layer 1: the square cut into two triangles. -/
def fillLayer2 : Layer Rat := Layer.mk'
  [ Vertex.new (v2 1 1) [0, 1, u32Max], Vertex.new (v2 2 1) [0, u32Max],
    Vertex.new (v2 2 2) [0, 1, u32Max], Vertex.new (v2 1 2) [1, u32Max] ]
  [ Polygon.new [0, 1, 2] false, Polygon.new [0, 2, 3] false ]

/-- The hypotheses of `C48_restitch` for this update, with a list of stitches that leaves one pair out. -/
example : ({ fillMesh with layers := fillMesh.layers.set (1 : UInt8).toNat fillLayer2 } : Mesh Rat).Unstitched ∧
    StitchesExist ({ fillMesh with layers := fillMesh.layers.set (1 : UInt8).toNat fillLayer2 } : Mesh Rat)
      [((0, 1), [(4, 0), (5, 1)])] ∧
    ∀ e, e.1.1 ≠ 1 → e.1.2 ≠ 1 → (e ∈ fillStitches ↔ e ∈ ([((0, 1), [(4, 0), (5, 1)])] : StitchVertices)) := by
  refine ⟨unstitched_of_check (by decide +kernel), ?_, ?_⟩
  · intro e he
    simp only [List.mem_singleton] at he
    subst he
    refine ⟨by decide, ?_⟩
    intro p hp
    simp only [List.mem_cons, List.not_mem_nil, or_false] at hp
    rcases hp with rfl | rfl <;> exact ⟨⟨_, _, rfl, rfl⟩, ⟨_, _, rfl, rfl⟩⟩
  · intro e _ h
    simp only [fillStitches, List.mem_singleton]
    constructor <;> (rintro rfl; exact absurd rfl h)

end Polyanya
