import Verif.Spec.Ext
/-
Specification vocabulary for C53: walking inside a mesh whose polygons are convex, in exact arithmetic.
Nothing here refers to the search.
-/

namespace Polyanya

section
variable {F : Type} [Field F] [LinearOrder F]

/-- Twice the signed area of the triangle `a b p`: positive when `p` is to the left of the line from `a`
to `b`, zero when it is on the line. -/
def tri (a b p : Vec2 F) : F := (b.x - a.x) * (p.y - a.y) - (b.y - a.y) * (p.x - a.x)

/-- The point `a + u (b - a)`. -/
def along (a b : Vec2 F) (u : F) : Vec2 F := ⟨a.x + u * (b.x - a.x), a.y + u * (b.y - a.y)⟩

/-- `x` is on the closed segment from `a` to `b`. -/
def Between (a b x : Vec2 F) : Prop := ∃ u, 0 ≤ u ∧ u ≤ 1 ∧ x = along a b u

/-- Squared distance. -/
def sqDist (a b : Vec2 F) : F := (a.x - b.x) * (a.x - b.x) + (a.y - b.y) * (a.y - b.y)

/-- `a`, `b` follow each other (cyclically) in the list of corners. -/
def Consecutive (ps : List (Vec2 F)) (a b : Vec2 F) : Prop :=
  ∃ i, i < ps.length ∧ ps[i]? = some a ∧ ps[(i + 1) % ps.length]? = some b

/-- The corners of a strictly convex polygon, listed counterclockwise: at least three, and any three of
them, in the order of the list, make a left turn. -/
def StrictlyConvex (ps : List (Vec2 F)) : Prop :=
  3 ≤ ps.length ∧ ∀ (i j k : Nat) (a b c : Vec2 F), i < j → j < k →
    ps[i]? = some a → ps[j]? = some b → ps[k]? = some c → 0 < tri a b c

/-- `x` is in the (closed) convex polygon: to the left of, or on, each edge. -/
def Inside (ps : List (Vec2 F)) (x : Vec2 F) : Prop := ∀ a b, Consecutive ps a b → 0 ≤ tri a b x

end

section
variable {F : Type} [Field F] [LinearOrder F] [Scalar F]

/-- Vertex `i` of the layer is at the point `x` (offset of the layer included). -/
def VertexAt (l : Layer (Ext F)) (i : UInt32) (x : Vec2 F) : Prop :=
  ∃ v, l.vertices[i.toNat]? = some v ∧ v.coords + l.offset = x.fin

/-- `ps` are the positions of the corners of polygon `id`. -/
def Ring (m : Mesh (Ext F)) (id : UInt32) (ps : List (Vec2 F)) : Prop :=
  ∃ l p, HasPolygon m id l p ∧ List.Forall₂ (VertexAt l) p.vertices ps

/-- The point `x` is in polygon `id`. -/
def InPolygon (m : Mesh (Ext F)) (id : UInt32) (x : Vec2 F) : Prop := ∃ ps, Ring m id ps ∧ Inside ps x

/-- The edge of the crossing goes from `A` to `B`. -/
def Crossing.At (m : Mesh (Ext F)) (c : Crossing) (A B : Vec2 F) : Prop :=
  ∃ l, m.layers[idLayer c.src]? = some l ∧ VertexAt l c.a A ∧ VertexAt l c.b B

/-- A mesh of strictly convex, counterclockwise polygons, in which polygons that are neighbours through
an edge really share this edge (in opposite directions). -/
structure Conforming (m : Mesh (Ext F)) : Prop where
  convex : ∀ id l p, HasPolygon m id l p → ∃ ps, Ring m id ps ∧ StrictlyConvex ps
  shared : ∀ c : Crossing, c.Valid m → ∀ A B, c.At m A B → ∃ ps, Ring m c.dst ps ∧ Consecutive ps B A

/-- Walking straight from the point `p` of polygon `s` to the point `q` of polygon `e`: either inside one
polygon, or to a point `y` of a shared edge, from where the straight walk goes on in the polygon on the
other side. -/
inductive Straight (m : Mesh (Ext F)) : UInt32 → Vec2 F → UInt32 → Vec2 F → Prop where
  | stay {s : UInt32} {p q : Vec2 F} : InPolygon m s p → InPolygon m s q → Straight m s p s q
  | cross {c : Crossing} {e : UInt32} {p y q A B : Vec2 F} : InPolygon m c.src p → c.Valid m →
      c.At m A B → Between A B y → Between p q y → Straight m c.dst y e q → Straight m c.src p e q

/-- Walking from the point `p` of polygon `s` along the waypoints to the point `q` of polygon `e`. -/
inductive Walk (m : Mesh (Ext F)) : UInt32 → Vec2 F → UInt32 → Vec2 F → List (Vec2 F) → Prop where
  | nil {s : UInt32} {p : Vec2 F} : InPolygon m s p → Walk m s p s p []
  | cons {s s' e : UInt32} {p w q : Vec2 F} {ws : List (Vec2 F)} :
      Straight m s p s' w → Walk m s' w e q ws → Walk m s p e q (w :: ws)

/-- `v` is the position of a vertex of the mesh. -/
def IsVertex (m : Mesh (Ext F)) (v : Vec2 F) : Prop := ∃ l ∈ m.layers, ∃ i, VertexAt l i v

/-- `A B` is an edge of a polygon of the mesh. -/
def IsEdgeAt (m : Mesh (Ext F)) (A B : Vec2 F) : Prop := ∃ id ps, Ring m id ps ∧ Consecutive ps A B

/-- A point where a path may bend: the start or a vertex. -/
def Eye (m : Mesh (Ext F)) (start r : Vec2 F) : Prop := r = start ∨ IsVertex m r

/-- `x` is an end of the edge `A B`, or the point where its line is hit by a sight line from `r`, that is
by the line from `r` through another eye `w`. -/
def Sight (m : Mesh (Ext F)) (start r A B x : Vec2 F) : Prop :=
  IsEdgeAt m A B ∧ (x = A ∨ x = B ∨
    ∃ w, Eye m start w ∧ tri r w A ≠ tri r w B ∧ tri r w x = 0 ∧ tri A B x = 0)

/-- No near misses: wherever the code compares with a tolerance (1e-4 for the side of a line and the ends
of a segment, 1e-6 for the squared distance to the end of an edge, 1e-3 for the squared distance between
vertices), a value inside the tolerance is exact. -/
structure NoNearMiss (m : Mesh (Ext F)) (start goal : Vec2 F) : Prop where
  /-- a vertex (or the goal) that is nearly on a sight line is on it -/
  sides : ∀ r A B x v, Eye m start r → Sight m start r A B x → (IsVertex m v ∨ v = goal) →
    |tri r x v| < 1 / 10000 → tri r x v = 0
  /-- a sight line that nearly hits an edge hits it -/
  hits : ∀ r A B x C D t, Eye m start r → Sight m start r A B x → IsEdgeAt m C D →
    tri r x C ≠ tri r x D → t * (tri r x C - tri r x D) = tri r x C →
    -(1 / 10000) ≤ t → t ≤ 1 + 1 / 10000 → 0 ≤ t ∧ t ≤ 1
  /-- a sight line that nearly hits the end of an edge hits the end -/
  ends : ∀ r A B x v, Eye m start r → Sight m start r A B x → v = A ∨ v = B →
    sqDist x v ≤ 1 / 1000000 → x = v
  /-- vertices of the mesh are not too close -/
  apart : ∀ v w, IsVertex m v → IsVertex m w → sqDist v w < 1 / 1000 → v = w
  /-- an eye or the goal nearly on the line of a part of an edge is on this line -/
  flat : ∀ r A B x y z, Eye m start r → Sight m start r A B x → Sight m start r A B y →
    z = r ∨ z = goal → |tri x y z| < 1 / 10000 → tri x y z = 0

end

end Polyanya
