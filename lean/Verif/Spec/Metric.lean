import Verif.Spec.Shortest
import Verif.Spec.Path
/-
Specification vocabulary for C61: path lengths as a distance.
-/

namespace Polyanya

/-- The query from `a` to `b` is inside the scope of exact path finding: the end points are at `start` and `goal`, they
are located in the polygons `s` and `e`, these polygons contain them, and the mesh is navigable between them without
near misses. -/
structure ExactQuery (m : Mesh (Ext ℝ)) (bvh : Bvh (Ext ℝ)) (a : Coords (Ext ℝ)) (start : Vec2 ℝ) (s : UInt32)
    (b : Coords (Ext ℝ)) (goal : Vec2 ℝ) (e : UInt32) : Prop where
  start_pos : a.pos = start.fin
  goal_pos : b.pos = goal.fin
  start_loc : Located m bvh a s
  goal_loc : Located m bvh b e
  start_in : InPolygon m s start
  goal_in : InPolygon m e goal
  navigable : Navigable m s start e goal
  noNearMiss : NoNearMiss m start goal

/-- Every edge that can be crossed can be crossed back: there are no one-way stitches. -/
def TwoWay (m : Mesh (Ext ℝ)) : Prop :=
  ∀ c : Crossing, c.Valid m → ∀ A B, c.At m A B →
    ∃ c' : Crossing, c'.Valid m ∧ c'.src = c.dst ∧ c'.dst = c.src ∧ c'.At m B A

end Polyanya
