import Verif.Props.Binary32
import Verif.Spec.Walk
import Verif.Props.Length
/-
Why C76 asks for `Spaced`: with `detailed-layers` the reported length can be below that of the returned polyline.
-/

namespace Polyanya

/-- The dart, in binary32 numbers: two triangles on both sides of a notch with its corner at (16, 0). -/
def fDartMesh : Mesh B32 := Mesh.ofLayers [Layer.mk'
  [ Vertex.new (f2 0 0) [0, 1, u32Max], Vertex.new (f2 16 0) [0, 1, u32Max],
    Vertex.new (f2 32 24) [0, u32Max], Vertex.new (f2 32 (-24)) [1, u32Max] ]
  [ Polygon.new [0, 1, 2] true, Polygon.new [1, 0, 3] true ]]

/-- Without `Spaced` the reported length is not the length of the path: all layers have the default scale, and from (16.25, 0.5)
to a point next to the corner both builds return the path over the corner, but with `detailed-layers` the corner is left
out of `path_with_layers`, because the goal is closer than 1/100, and the reported length is less than that of the path. -/
theorem C76_false_unspaced : ∃ p p' : Path B32,
    fDartMesh.path everyIndex maxHeap ⟨true⟩ (Coords.onMesh (f2 (65 / 4) (1 / 2)))
      (Coords.onMesh (f2 (8193 / 512) (-1 / 256))) = .ok (some p) ∧
    fDartMesh.path everyIndex maxHeap ⟨false⟩ (Coords.onMesh (f2 (65 / 4) (1 / 2)))
      (Coords.onMesh (f2 (8193 / 512) (-1 / 256))) = .ok (some p') ∧
    p.path = [f2 16 0, f2 (8193 / 512) (-1 / 256)] ∧ p'.path = p.path ∧ (p.length <. p'.length) = true ∧
    (p.length.val : ℝ) + 1 / 1000 < polyLen [⟨65 / 4, 1 / 2⟩, ⟨16, 0⟩, ⟨8193 / 512, -1 / 256⟩] := by
  have h : resIs (fDartMesh.path everyIndex maxHeap ⟨true⟩ (Coords.onMesh (f2 (65 / 4) (1 / 2)))
      (Coords.onMesh (f2 (8193 / 512) (-1 / 256)))) (fun r => r.any fun p =>
        decide (p.path = [f2 16 0, f2 (8193 / 512) (-1 / 256)] ∧ p.length = B32.ofRat (4711447 / 8388608))) = true := by
    decide +kernel
  have h' : resIs (fDartMesh.path everyIndex maxHeap ⟨false⟩ (Coords.onMesh (f2 (65 / 4) (1 / 2)))
      (Coords.onMesh (f2 (8193 / 512) (-1 / 256)))) (fun r => r.any fun p =>
        decide (p.path = [f2 16 0, f2 (8193 / 512) (-1 / 256)] ∧ p.length = B32.ofRat (2363005 / 4194304))) = true := by
    decide +kernel
  obtain ⟨r, h1, h2⟩ := of_resIs h
  obtain ⟨r', h3, h4⟩ := of_resIs h'
  cases r with
  | none => simp at h2
  | some p =>
    cases r' with
    | none => simp at h4
    | some p' =>
      simp only [Option.any_some, decide_eq_true_iff] at h2 h4
      refine ⟨p, p', h1, h3, h2.1, by rw [h2.1, h4.1], ?_, ?_⟩
      · rw [h2.2, h4.2]
        decide +kernel
      · have hv : p.length.val = 4711447 / 8388608 := by
          rw [h2.2]
          decide +kernel
        have e1 : (559 / 1000 : ℝ) ≤ dist2 ⟨65 / 4, 1 / 2⟩ ⟨16, 0⟩ := by
          unfold dist2
          apply Real.le_sqrt_of_sq_le
          norm_num
        have e2 : (4 / 1000 : ℝ) ≤ dist2 ⟨16, 0⟩ ⟨8193 / 512, -1 / 256⟩ := by
          unfold dist2
          apply Real.le_sqrt_of_sq_le
          norm_num
        rw [hv]
        simp only [polyLen]
        push_cast
        linarith

end Polyanya
