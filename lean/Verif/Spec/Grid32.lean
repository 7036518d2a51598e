import Verif.Spec.Binary32
import Verif.Spec.WellFormed
/-
Binary32 coordinates on a grid.
-/

namespace Polyanya

/-- The number is a whole multiple of the unit `2^(k-149)`, at most `n` units from 0. -/
def B32.OnGrid (k n : Nat) (x : B32) : Prop :=
  ∃ z : Int, z.natAbs ≤ n ∧ x.exact = Ext.fin ((z : ℚ) * 2 ^ k / 2 ^ 149)

/-- Both coordinates are. -/
def Vec2.OnGrid (k n : Nat) (v : Vec2 B32) : Prop := v.x.OnGrid k n ∧ v.y.OnGrid k n

/-- The vertices and the offset of each layer are. -/
def Mesh.OnGrid (k n : Nat) (m : Mesh B32) : Prop :=
  ∀ l ∈ m.layers, l.offset.OnGrid k n ∧ ∀ v ∈ l.vertices, v.coords.OnGrid k n

/-- A mesh in which points can be looked up: the layers fit in the ids, each can be searched, with no finder
or the finder `bake` builds; the step of the search is a finite number. -/
structure Mesh.Searchable32 (m : Mesh B32) : Prop where
  layers : m.layers.length ≤ 256
  layer : ∀ l ∈ m.layers, l.Findable ∧ l.FinderOk
  delta : m.searchDelta.Finite

end Polyanya
