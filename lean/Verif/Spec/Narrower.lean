import Verif.Spec.Shortest
import Verif.Spec.Path
import Verif.Spec.Blocked
/-
Specification vocabulary for C74: meshes in which some ways are closed.
-/

namespace Polyanya

variable {F : Type} [Field F] [LinearOrder F] [Scalar F]

/-- The mesh `m'` is `m` with some polygons removed and some ways closed: its polygons are polygons of `m`, with the
same number and at the same place, and the edges that can be crossed in it can be crossed in `m`. -/
structure Narrower (m' m : Mesh (Ext F)) : Prop where
  rings : ∀ id ps, Ring m' id ps → Ring m id ps
  ways : ∀ c : Crossing, c.Valid m' → ∀ A B, c.At m' A B → c.Valid m ∧ c.At m A B

/-- The query in the mesh with blocked layers is inside the scope of exact path finding. -/
structure ExactAvoiding (m : Mesh (Ext ℝ)) (blocked : List UInt8) (bvh : Bvh (Ext ℝ)) (a : Coords (Ext ℝ))
    (start : Vec2 ℝ) (s : UInt32) (b : Coords (Ext ℝ)) (goal : Vec2 ℝ) (e : UInt32) : Prop where
  start_pos : a.pos = start.fin
  goal_pos : b.pos = goal.fin
  start_loc : Located m bvh a s
  goal_loc : Located m bvh b e
  start_in : InPolygon m s start
  goal_in : InPolygon m e goal
  navigable : Navigable (m.cutOff blocked) s start e goal
  noNearMiss : NoNearMiss m start goal

end Polyanya
