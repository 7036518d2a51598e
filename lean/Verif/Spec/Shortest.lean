import Verif.Spec.Walk
import Verif.Spec.RealScalar
/-
Specification vocabulary for C54 (shortest paths): meshes on which the search is exact.
-/

namespace Polyanya

variable {F : Type} [Field F] [LinearOrder F] [Scalar F]

/-- A path that bends at `v` (or starts there) can be in polygon `id`: `v` is a corner of it, or it is the
start in the polygon of the start. -/
def Touches (m : Mesh (Ext F)) (s : UInt32) (start : Vec2 F) (id : UInt32) (v : Vec2 F) : Prop :=
  (∃ ps, Ring m id ps ∧ v ∈ ps) ∨ (id = s ∧ v = start)

/-- A shortest walk from the start (in polygon `s`) to the goal (in polygon `e`). -/
def ShortestWalk (m : Mesh (Ext ℝ)) (s : UInt32) (start : Vec2 ℝ) (e : UInt32) (goal : Vec2 ℝ)
    (ws : List (Vec2 ℝ)) : Prop :=
  Walk m s start e goal ws ∧ ∀ ws', Walk m s start e goal ws' → polyLen (start :: ws) ≤ polyLen (start :: ws')

/-- All vertices at the point `x` are flagged as corners (there may be none). -/
def Flagged (m : Mesh (Ext F)) (x : Vec2 F) : Prop :=
  ∀ l ∈ m.layers, ∀ v ∈ l.vertices, v.coords + l.offset = x.fin → v.isCorner = true

/-- `x` is in the interior of the convex polygon: to the left of each edge. -/
def StrictInside (ps : List (Vec2 F)) (x : Vec2 F) : Prop := ∀ a b, Consecutive ps a b → 0 < tri a b x

/-- The vertex `x` is surrounded by polygons: a polygon that contains it has it as a corner, behind every edge with an
end at `x` there is another polygon, and the polygons with a corner at `x` do not overlap. -/
structure Surrounded (m : Mesh (Ext F)) (x : Vec2 F) : Prop where
  corner : ∀ id ps, Ring m id ps → Inside ps x → x ∈ ps
  linked : ∀ id ps A B, Ring m id ps → Consecutive ps A B → A = x ∨ B = x →
    ∃ c : Crossing, c.Valid m ∧ c.src = id ∧ c.At m A B
  apart : ∀ id id' ps ps' z, Ring m id ps → Ring m id' ps' → x ∈ ps → x ∈ ps' → StrictInside ps z →
    StrictInside ps' z → id = id'

/-- A mesh on which a shortest path from `start` in polygon `s` to `goal` in polygon `e` can be found. -/
structure Navigable (m : Mesh (Ext ℝ)) (s : UInt32) (start : Vec2 ℝ) (e : UInt32) (goal : Vec2 ℝ) : Prop where
  /-- shortest walks only visit vertices that are flagged as corners or that are surrounded by polygons (and they
  neither start nor end at the latter) -/
  corners : ∀ ws, ShortestWalk m s start e goal ws → ∀ w ∈ ws,
    Flagged m w ∨ (Surrounded m w ∧ w ≠ start ∧ w ≠ goal)
  /-- at most one polygon is on the other side of an edge -/
  unique : ∀ c c' : Crossing, c.Valid m → c'.Valid m → c'.src = c.src → c'.a = c.a → c'.b = c.b →
    c'.dst = c.dst
  /-- crossing an edge and crossing it back leads back -/
  back : ∀ c c' : Crossing, c.Valid m → c'.Valid m → c'.src = c.dst → ∀ A B, c.At m A B → c'.At m B A →
    c'.dst = c.src
  /-- a polygon flagged as a dead end can only be left to where one came from -/
  deadEnds : ∀ id l p, HasPolygon m id l p → p.isOneWay = true → ∀ c c' : Crossing, c.Valid m →
    c'.Valid m → c.dst = id → c'.src = id → c'.dst = c.src
  /-- one can walk around a corner without leaving it: the polygons with a corner at the same place,
  if they can be reached at all, are linked there -/
  noPinch : ∀ v id id' ws ws', Walk m s start id v ws → Walk m s start id' v ws' →
    Touches m s start id v → Touches m s start id' v → Straight m id v id' v
  /-- the parts of an edge between two sight lines from the same eye are not tiny -/
  noSliver : ∀ r A B x y, Eye m start r → Sight m start r A B x → Sight m start r A B y →
    sqDist x y < 1 / 10000000000 → x = y

/-- The path is a walk from the start (in polygon `s`) to the goal (in polygon `e`), its length is the length of this
walk, and no walk between these polygons is shorter. -/
def ShortestPath (m : Mesh (Ext ℝ)) (s : UInt32) (start : Vec2 ℝ) (e : UInt32) (goal : Vec2 ℝ)
    (p : Path (Ext ℝ)) : Prop :=
  ∃ ws, p.path = ws.map Vec2.fin ∧ p.length = Ext.fin (polyLen (start :: ws)) ∧ ShortestWalk m s start e goal ws

end Polyanya
