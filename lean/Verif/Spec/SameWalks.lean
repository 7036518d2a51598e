import Verif.Spec.Region
import Verif.Spec.Shortest
/-
Specification vocabulary for C64: meshes in which one can walk along the same lines.
-/

namespace Polyanya

/-- The number that an extended number stands for; infinities and NaN do not matter. -/
def Ext.value : Ext ℝ → ℝ
  | .fin x => x
  | .inf _ => 0
  | .nan => 0

/-- All vertices of the layer are at points with finite coordinates. -/
structure Layer.FinitePlaces (l : Layer (Ext ℝ)) : Prop where
  vertices : ∀ v ∈ l.vertices, ∃ c : Vec2 ℝ, v.coords = c.fin
  offset : ∃ o : Vec2 ℝ, l.offset = o.fin

/-- Polygon `s` of `m` is part of polygon `F s` of `m'`, and one can walk in `m` where one can walk in `m'`. (A walk
without a waypoint is a walk that starts and ends at the same point of the same polygon.) -/
structure SameWalks (m m' : Mesh (Ext ℝ)) (F : UInt32 → UInt32) : Prop where
  inPolygon : ∀ s p, InPolygon m s p → InPolygon m' (F s) p
  covered : ∀ s' p, InPolygon m' s' p → ∃ s, F s = s' ∧ InPolygon m s p
  walk : ∀ s p e q ws, Walk m s p e q ws → Walk m' (F s) p (F e) q ws
  back : ∀ s p e q ws, InPolygon m s p → InPolygon m e q → ws ≠ [] → Walk m' (F s) p (F e) q ws → Walk m s p e q ws

end Polyanya
