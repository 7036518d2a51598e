import Verif.Model.Async
import Mathlib.Data.List.Forall2
/-
Specification vocabulary for path queries. It does not use the search: only the mesh as the user built it.
-/

namespace Polyanya

variable {K : Type} [Scalar K]

/-- Layer number of a polygon id: the top 8 bits. -/
def idLayer (id : UInt32) : Nat := id.toNat / 2 ^ 24

/-- Polygon number of a polygon id: the low 24 bits. -/
def idPolygon (id : UInt32) : Nat := id.toNat % 2 ^ 24

/-- `id` denotes polygon `p` of layer `l` of the mesh. -/
def HasPolygon (m : Mesh K) (id : UInt32) (l : Layer K) (p : Polygon) : Prop :=
  m.layers[idLayer id]? = some l ∧ l.polygons[idPolygon id]? = some p

/-- `a`, `b` are consecutive (cyclically) in the vertex list. -/
def IsEdge (vs : List UInt32) (a b : UInt32) : Prop :=
  ∃ i, i < vs.length ∧ vs[i]? = some a ∧ vs[(i + 1) % vs.length]? = some b

/-- Going from polygon `src` to polygon `dst` through the edge with end vertices `a`, `b`. -/
structure Crossing where
  src : UInt32
  dst : UInt32
  a : UInt32
  b : UInt32

/-- The crossing is possible in the mesh: `(a, b)` is an edge of `src`, and both end vertices list `dst`
as one of their polygons. -/
def Crossing.Valid (m : Mesh K) (c : Crossing) : Prop :=
  ∃ l p va vb, HasPolygon m c.src l p ∧ IsEdge p.vertices c.a c.b
    ∧ l.vertices[c.a.toNat]? = some va ∧ l.vertices[c.b.toNat]? = some vb
    ∧ c.dst ∈ va.polygons ∧ c.dst ∈ vb.polygons ∧ c.dst ≠ u32Max ∧ c.dst ≠ c.src

/-- A corridor: a sequence of possible crossings leading from polygon `s` to polygon `e`. -/
inductive Corridor (m : Mesh K) : UInt32 → UInt32 → List Crossing → Prop where
  | nil (p : UInt32) : Corridor m p p []
  | cons {c : Crossing} {e : UInt32} {cs : List Crossing} :
      c.Valid m → Corridor m c.dst e cs → Corridor m c.src e (c :: cs)

/-- A vertex where a path may bend: a corner, or, when layers are blocked, a vertex that touches the
outside or a blocked layer. -/
def MayBend (blocked : List UInt8) (v : Vertex K) : Prop :=
  v.isCorner = true ∨
    (blocked ≠ [] ∧ ∃ p ∈ v.polygons, p = u32Max ∨ ∃ b ∈ blocked, b.toNat = idLayer p)

/-- Waypoint `w` is (up to the squared distance 1e-10) an end vertex of the edge crossed by `c`, at which
a path may bend. -/
def BendsAt (m : Mesh K) (blocked : List UInt8) (w : Vec2 K) (c : Crossing) : Prop :=
  ∃ l v, m.layers[idLayer c.src]? = some l
    ∧ (l.vertices[c.a.toNat]? = some v ∨ l.vertices[c.b.toNat]? = some v)
    ∧ MayBend blocked v
    ∧ ((v.coords + l.offset).distanceSquared w <. Scalar.lit 1 10) = true

/-- Points computed on an edge `A B`: its ends, and interpolations between such points with a parameter
in `[-1e-4, 1 + 1e-4]`. -/
inductive OnEdge (A B : Vec2 K) : Vec2 K → Prop where
  | left : OnEdge A B A
  | right : OnEdge A B B
  | between {x y : Vec2 K} {t : K} : OnEdge A B x → OnEdge A B y →
      (Scalar.neg (Scalar.lit 1 4) <=. t) = true → (t <=. Scalar.lit 1 0 +. Scalar.lit 1 4) = true →
      OnEdge A B (x + Vec2.lsmul t (y - x))

/-- `w` is a point of the edge crossed by `c`. -/
def OnCrossing (m : Mesh K) (w : Vec2 K) (c : Crossing) : Prop :=
  ∃ l va vb, m.layers[idLayer c.src]? = some l
    ∧ l.vertices[c.a.toNat]? = some va ∧ l.vertices[c.b.toNat]? = some vb
    ∧ OnEdge (va.coords + l.offset) (vb.coords + l.offset) w

/-- The coordinates `c` are located in polygon `id`: the polygon they already carry, or else the polygon
reported by `get_closest_point`. -/
def Located (m : Mesh K) (bvh : Bvh K) (c : Coords K) (id : UInt32) : Prop :=
  (c.polygonIndex ≠ u32Max ∧ id = c.polygonIndex) ∨
  (c.polygonIndex = u32Max ∧ ∃ c', m.getClosestPoint bvh c = .ok (some c') ∧ id = c'.polygonIndex)

/-- Every layer has fewer than `2^24` polygons; `Layer::new` enforces it. -/
def Mesh.Sized (m : Mesh K) : Prop := ∀ l ∈ m.layers, l.polygons.length ≤ 2 ^ 24 - 1

/-- The laws of NaN used by the crate; IEEE arithmetic and exact arithmetic both satisfy them. -/
class NanLaws (K : Type) [Scalar K] : Prop where
  eq_self_or_nan : ∀ x : K, (x ==. x) = true ∨ Scalar.isNan x = true
  nan_add_left : ∀ x y : K, Scalar.isNan x = true → Scalar.isNan (x +. y) = true
  nan_add_right : ∀ x y : K, Scalar.isNan y = true → Scalar.isNan (x +. y) = true
  nan_sub_left : ∀ x y : K, Scalar.isNan x = true → Scalar.isNan (x -. y) = true
  nan_mul_left : ∀ x y : K, Scalar.isNan x = true → Scalar.isNan (x *. y) = true
  nan_sqrt : ∀ x : K, Scalar.isNan x = true → Scalar.isNan (Scalar.sqrt x) = true

end Polyanya

namespace Polyanya

variable {K : Type} [Scalar K]

/-- The future `f`, polled again and again, eventually returns `r`. -/
inductive Resolves (bvh : Bvh K) (heap : Heap K) (cfg : Cfg) (m : Mesh K) :
    FuturePath K → Option (Path K) → Prop where
  | ready {f f' : FuturePath K} {r : Option (Path K)} :
      f.poll bvh heap cfg m = .ok (.ready r, f') → Resolves bvh heap cfg m f r
  | pending {f f' : FuturePath K} {w : Bool} {r : Option (Path K)} :
      f.poll bvh heap cfg m = .ok (.pending w, f') → Resolves bvh heap cfg m f' r →
      Resolves bvh heap cfg m f r

/-- A polygon id on a layer that is not blocked. -/
def Unblocked (blocked : List UInt8) (id : UInt32) : Prop := ∀ b ∈ blocked, b.toNat ≠ idLayer id

/-- A polygon that exists and is not flagged as a dead end. -/
def NotDeadEnd (m : Mesh K) (id : UInt32) : Prop := ∃ l p, HasPolygon m id l p ∧ p.isOneWay = false

/-- A path `path` from polygon `s` to polygon `e` is realised by the corridor `cs`: the corridor leads
from `s` to `e`; the waypoints are bends at corners of the corridor's edges, in order (every crossing
carries at most one, the last crossing none), possibly one more point on the edge by which `e` is
entered, and the destination. -/
structure Realises (m : Mesh K) (blocked : List UInt8) (s e : UInt32) (dst : Vec2 K)
    (path : List (Vec2 K)) (cs : List Crossing) : Prop where
  corridor : Corridor m s e cs
  waypoints : ∃ bends extra sub, path = bends ++ extra ++ [dst]
    ∧ sub.Sublist cs.dropLast ∧ List.Forall₂ (BendsAt m blocked) bends sub
    ∧ extra.length ≤ 1 ∧ ∀ w ∈ extra, ∃ c, cs.getLast? = some c ∧ OnCrossing m w c

end Polyanya
