import Verif.Model.Layer
import Verif.Model.Mesh
/-
Meshes for which the feature `detailed-layers` measures lengths as the default build does.
-/

namespace Polyanya

variable {K : Type} [Scalar K]

/-- All layers have the default scale (1, 1), and vertex numbers fit in 24 bits (with `detailed-layers` the search takes
the upper eight bits of a vertex number for a layer). -/
structure Mesh.Unscaled (m : Mesh K) : Prop where
  one : ∀ l ∈ m.layers, l.scale = Vec2.one
  small : ∀ l ∈ m.layers, l.vertices.length ≤ 2 ^ 24

end Polyanya
