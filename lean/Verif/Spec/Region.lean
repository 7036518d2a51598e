import Verif.Spec.Merge
import Verif.Spec.Walk
/-
Specification vocabulary for C63: the region covered by the polygons of a layer.
-/

namespace Polyanya

variable {K : Type} [Scalar K]

/-- The point that a pair of coordinates stands for; `val` is the number that a coordinate stands for. -/
def Vec2.valued (val : K → ℝ) (c : Vec2 K) : Vec2 ℝ := ⟨val c.x, val c.y⟩

/-- The place of a vertex of the layer. -/
def Layer.place (val : K → ℝ) (l : Layer K) (v : UInt32) : Vec2 ℝ :=
  match l.vertices[v.toNat]? with
  | some vx => vx.coords.valued val
  | none => ⟨0, 0⟩

/-- The corners of a convex polygon, listed counterclockwise: no corner is on the right of an edge, and for each edge
some corner is on its left. Corners may be in the middle of a straight side. -/
structure ConvexOutline (ps : List (Vec2 ℝ)) : Prop where
  left : ∀ a b, Consecutive ps a b → ∀ c ∈ ps, 0 ≤ tri a b c
  proper : ∀ a b, Consecutive ps a b → ∃ c ∈ ps, 0 < tri a b c

/-- The point is in the polygon with these corners: on the left of all edges, or on an edge. -/
def Encloses (ps : List (Vec2 ℝ)) (x : Vec2 ℝ) : Prop :=
  (∀ a b, Consecutive ps a b → 0 < tri a b x) ∨ ∃ a b, Consecutive ps a b ∧ Between a b x

/-- The corners of a polygon of the layer. -/
def Layer.outline (val : K → ℝ) (l : Layer K) (p : Polygon) : List (Vec2 ℝ) := p.vertices.map (l.place val)

/-- The point is in the area covered by the layer (in the coordinates of the layer). -/
def Layer.Walkable (val : K → ℝ) (l : Layer K) (x : Vec2 ℝ) : Prop :=
  ∃ p ∈ l.polygons, Encloses (l.outline val p) x

/-- The point is in the polygon with these corners and not on its border. -/
def StrictlyEncloses (ps : List (Vec2 ℝ)) (x : Vec2 ℝ) : Prop := ∀ a b, Consecutive ps a b → 0 < tri a b x

/-- The polygons of the layer are a proper tiling of the area that they cover: the lists of neighbours are right,
polygons are convex and counterclockwise, different polygons do not overlap, different vertices are different points
and no vertex is in the middle of an edge. -/
structure Layer.Tiling (val : K → ℝ) (l : Layer K) : Prop where
  consistent : l.Consistent
  nodup : ∀ p ∈ l.polygons, p.vertices.Nodup
  nonempty : ∀ p ∈ l.polygons, p.vertices ≠ []
  convex : ∀ p ∈ l.polygons, ConvexOutline (l.outline val p)
  disjoint : ∀ (k k' : Nat) p q x, l.polygons[k]? = some p → l.polygons[k']? = some q → k ≠ k' →
    StrictlyEncloses (l.outline val p) x → ¬ StrictlyEncloses (l.outline val q) x
  distinct : ∀ p ∈ l.polygons, ∀ q ∈ l.polygons, ∀ v ∈ p.vertices, ∀ w ∈ q.vertices,
    l.place val v = l.place val w → v = w
  clear : ∀ p ∈ l.polygons, ∀ q ∈ l.polygons, ∀ a b, IsEdge p.vertices a b → ∀ v ∈ q.vertices,
    Between (l.place val a) (l.place val b) (l.place val v) → v = a ∨ v = b

/-- The convexity test accepts only rings that visit no point twice and enclose a convex set, counterclockwise. This
is what the documentation of `geo::IsConvex` promises. -/
def Geo.AcceptsConvexOnly (val : K → ℝ) (geo : Geo K) : Prop :=
  ∀ cs, geo.ccwConvex cs = true → cs.Nodup ∧ ConvexOutline (cs.map (Vec2.valued val))

end Polyanya
