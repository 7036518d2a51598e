import Verif.Model.Triangulation
/-
Specification of inflation (C51): what the grown outline of a ring encloses.
-/

namespace Polyanya

variable {K : Type} [Scalar K]

/-- A side of the ring: between consecutive points or, unless the ring is closed, from the last to the first point. -/
def SideOf (ring : LineString K) (a b : Vec2 K) : Prop :=
  (∃ i, ring[i]? = some a ∧ ring[i + 1]? = some b) ∨
  (LineString.isClosed ring = false ∧ ring.getLast? = some a ∧ ring.head? = some b)

/-- Is the point inside the ring? -/
def TriLib.insideRing (lib : TriLib K) (r : LineString K) (z : Vec2 K) : Prop := lib.contains (GeoPolygon.new r []) z = true

/-- `geo::BooleanOps::union` of the areas of two rings that have a point inside in common, where `covers r z` is "`z` is inside or on the
ring `r`": a first polygon is returned; what is inside of one of the rings is inside the exterior of this polygon; and what is
inside or on the exterior is inside or on one of the rings, or inside or on a hole of this polygon. -/
structure TriLib.Unites (lib : TriLib K) (covers : LineString K → Vec2 K → Prop) : Prop where
  some : ∀ r r' z, lib.insideRing r z → lib.insideRing r' z → lib.union (GeoPolygon.new r []) (GeoPolygon.new r' []) ≠ []
  joins : ∀ r r' z p ps, lib.insideRing r z → lib.insideRing r' z →
    lib.union (GeoPolygon.new r []) (GeoPolygon.new r' []) = p :: ps →
    ∀ y, lib.insideRing r y ∨ lib.insideRing r' y → lib.insideRing p.exterior y
  upto : ∀ r r' z p ps, lib.insideRing r z → lib.insideRing r' z →
    lib.union (GeoPolygon.new r []) (GeoPolygon.new r' []) = p :: ps →
    ∀ y, covers p.exterior y → covers r y ∨ covers r' y ∨ ∃ h ∈ p.interiors, covers h y

/-- The outline around each side of the ring exists and encloses the ends of the side. -/
def RoundsSides (lib : TriLib K) (ring : LineString K) (d : K) (n : Nat) : Prop :=
  ∀ a b, SideOf ring a b → ∃ r, roundLine (a, b) d n = .ok r ∧ lib.insideRing r a ∧ lib.insideRing r b

end Polyanya
