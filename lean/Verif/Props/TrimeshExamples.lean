import Verif.Props.Trimesh
import Verif.Spec.RatScalar
/-
Concrete cases for C31, and the counterexample to C50.
-/

namespace Polyanya

/-- Moves `x` left over the elements (last one first in the list) that it is less than. -/
def shiftLeft (less : UInt32 → UInt32 → Bool) (x : UInt32) : List UInt32 → List UInt32
  | [] => [x]
  | y :: ys => if less x y then y :: shiftLeft less x ys else x :: y :: ys

/-- The insertion sort that Rust's `sort_by` uses for at most 20 elements (`core::slice::sort`): elements are taken from
left to right, each being moved left as long as it is less than its left neighbour. -/
def rustInsertion : TriSorter := fun less l => some (l.foldl (fun acc x => shiftLeft less x acc) []).reverse

theorem shiftLeft_perm (less : UInt32 → UInt32 → Bool) (x : UInt32) : ∀ l, (shiftLeft less x l).Perm (x :: l)
  | [] => .refl _
  | y :: ys => by
    unfold shiftLeft
    split
    · exact ((shiftLeft_perm less x ys).cons y).trans (.swap x y ys)
    · exact .refl _

theorem rustInsertion_permutes : rustInsertion.Permutes := by
  intro less l l' h
  simp only [rustInsertion, Option.some.injEq] at h
  subst h
  have : ∀ l acc : List UInt32, (l.foldl (fun acc x => shiftLeft less x acc) acc).Perm (l ++ acc) := by
    intro l
    induction l with
    | nil => intro acc; exact .refl _
    | cons x l ih =>
      intro acc
      rw [List.foldl_cons]
      refine (ih _).trans ?_
      refine ((shiftLeft_perm less x acc).append_left l).trans ?_
      exact List.perm_middle
  exact (List.reverse_perm _).trans (by simpa using this l [])

/-- Four triangles all around the origin. -/
def fan : Trimesh Rat :=
  { vertices := [v2 0 0, v2 4 0, v2 2 3, v2 (-4) 1, v2 1 (-3)]
    triangles := [(0, 4, 1), (0, 2, 3), (0, 3, 4), (0, 1, 2)] }

theorem fan_valid : fan.Valid := by
  refine ⟨by decide, by decide, ?_, ?_⟩
  · have : ∀ t ∈ fan.triangles, t.1 < 5 ∧ t.2.1 < 5 ∧ t.2.2 < 5 := by decide
    exact fun a b c h => this _ h
  · have : ∀ t ∈ fan.triangles, t.1 ≠ t.2.1 ∧ t.2.1 ≠ t.2.2 ∧ t.2.2 ≠ t.1 := by decide
    exact fun a b c h => this _ h

/-- **C50** is false: the origin is surrounded by triangles, each sharing an edge there with another one on either side,
but the conversion lists gaps around it and marks it as a corner of an obstacle, because the comparison used for
sorting by angle is no order. -/
theorem C50_false : fan.Valid ∧ rustInsertion.Permutes ∧
    (∀ k, InTriangle fan 0 k → (∃ k', NextTo fan 0 k k') ∧ ∃ k', NextTo fan 0 k' k) ∧
    ∃ (m : Mesh Rat) (l : Layer Rat) (v : Vertex Rat), fan.toMesh rustInsertion = .ok (.ok m) ∧ m.layers = [l] ∧
      l.vertices[0]? = some v ∧ v.isCorner = true ∧ v.polygons = [u32Max, 1, 2, u32Max, 3, u32Max, 0] := by
  refine ⟨fan_valid, rustInsertion_permutes, ?_, ?_⟩
  · intro k hk
    have hlt := inTriangle_lt hk
    have : k = 0 ∨ k = 1 ∨ k = 2 ∨ k = 3 := by
      have : fan.triangles.length = 4 := rfl
      omega
    rcases this with rfl | rfl | rfl | rfl
    · exact ⟨⟨3, 1, ⟨0, 4, 1, rfl, by decide⟩, ⟨0, 1, 2, rfl, by decide⟩⟩, ⟨2, 4, ⟨0, 3, 4, rfl, by decide⟩, ⟨0, 4, 1, rfl, by decide⟩⟩⟩
    · exact ⟨⟨2, 3, ⟨0, 2, 3, rfl, by decide⟩, ⟨0, 3, 4, rfl, by decide⟩⟩, ⟨3, 2, ⟨0, 1, 2, rfl, by decide⟩, ⟨0, 2, 3, rfl, by decide⟩⟩⟩
    · exact ⟨⟨0, 4, ⟨0, 3, 4, rfl, by decide⟩, ⟨0, 4, 1, rfl, by decide⟩⟩, ⟨1, 3, ⟨0, 2, 3, rfl, by decide⟩, ⟨0, 3, 4, rfl, by decide⟩⟩⟩
    · exact ⟨⟨1, 2, ⟨0, 1, 2, rfl, by decide⟩, ⟨0, 2, 3, rfl, by decide⟩⟩, ⟨0, 1, ⟨0, 4, 1, rfl, by decide⟩, ⟨0, 1, 2, rfl, by decide⟩⟩⟩
  · have h : resIs (fan.toMesh rustInsertion) (fun r => match r with
        | .ok m => match m.layers with
          | [l] => match l.vertices with
            | v :: _ => v.isCorner && v.polygons == [u32Max, 1, 2, u32Max, 3, u32Max, 0]
            | [] => false
          | _ => false
        | .error _ => false) = true := by decide +kernel
    obtain ⟨r, e, h⟩ := of_resIs h
    split at h
    · split at h
      · split at h
        · rename_i m l hl v vs hv
          rw [Bool.and_eq_true, beq_iff_eq] at h
          exact ⟨_, _, v, e, ‹_›, by rw [hv]; rfl, h.1, h.2⟩
        · simp at h
      · simp at h
    · simp at h

/-- A vertex in no triangle: `InvalidMesh`. -/
example : ({ fan with triangles := [(0, 4, 1)] } : Trimesh Rat).toMesh rustInsertion = .ok (.error .invalidMesh) := by
  have h : resIs (({ fan with triangles := [(0, 4, 1)] } : Trimesh Rat).toMesh rustInsertion) (fun r => match r with
    | .error .invalidMesh => true
    | _ => false) = true := by decide +kernel
  obtain ⟨r, e, h⟩ := of_resIs h
  rw [e]
  split at h
  · rfl
  · simp at h

end Polyanya
