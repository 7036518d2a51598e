import Verif.Spec.Islands
import Verif.Model.Merger
import Mathlib.Data.Real.Basic
/-
Specification of merging (C25, C26): conforming layers, and what merging does to the polygons.
-/

namespace Polyanya

variable {K : Type} [Scalar K]

/-- Polygons with at least three different vertices, any two of which meet properly: if two consecutive vertices
of one polygon are vertices of another polygon, then that one has the same edge, in opposite direction. -/
structure Layer.Conforming (l : Layer K) : Prop where
  nodup : ∀ p ∈ l.polygons, p.vertices.Nodup
  three : ∀ p ∈ l.polygons, 3 ≤ p.vertices.length
  opposite : ∀ (k k' : Nat) p q a b, l.polygons[k]? = some p → l.polygons[k']? = some q → k ≠ k' →
    IsEdge p.vertices a b → a ∈ q.vertices → b ∈ q.vertices → IsEdge q.vertices b a

/-- The convexity test accepts no ring that visits a point twice. -/
def Geo.RejectsRepeats (geo : Geo K) : Prop := ∀ cs, geo.ccwConvex cs = true → cs.Nodup

/-- Polygon `p'` is the union of the polygons `qs`: it has the vertices of all of them, and its edges are the
edges of one of them that are not the reverse of an edge of another one. -/
structure IsUnion (p' : Polygon) (qs : Polygon → Prop) : Prop where
  vertices : ∀ v, v ∈ p'.vertices ↔ ∃ q, qs q ∧ v ∈ q.vertices
  edges : ∀ a b, IsEdge p'.vertices a b ↔
    (∃ q, qs q ∧ IsEdge q.vertices a b) ∧ ¬ ∃ q, qs q ∧ IsEdge q.vertices b a

/-- The position of a vertex, as real numbers; `val` is the number that a coordinate stands for. -/
def Layer.position (val : K → ℝ) (l : Layer K) (v : UInt32) : ℝ × ℝ :=
  match l.vertices[v.toNat]? with
  | some vx => (val vx.coords.x, val vx.coords.y)
  | none => (0, 0)

/-- The signed area of a polygon (positive when counterclockwise) by the shoelace formula: the sum over
the pairs of consecutive vertices, the last being followed by the first. -/
noncomputable def Layer.signedArea (val : K → ℝ) (l : Layer K) (p : Polygon) : ℝ :=
  ((p.vertices.zip (p.vertices.rotate 1)).map (fun e =>
    (l.position val e.1).1 * (l.position val e.2).2 - (l.position val e.1).2 * (l.position val e.2).1)).sum / 2

end Polyanya
