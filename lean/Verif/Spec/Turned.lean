import Verif.Spec.Moved
/-
Specification vocabulary for C86: the same mesh, turned about the origin.
-/

namespace Polyanya

variable {K : Type} [Scalar K]

/-- The vertex at the turned place, listing the same polygons. -/
def Vertex.turned (T : Vec2 K → Vec2 K) (v : Vertex K) : Vertex K := { v with coords := T v.coords }

/-- The layer with every vertex, and its `offset`, turned; its bounding boxes, if it has any, are whatever `bk` gives. -/
def Layer.turned (T : Vec2 K → Vec2 K) (bk : Layer K → Option (List (Aabb K))) (l : Layer K) : Layer K :=
  { l with vertices := l.vertices.map (Vertex.turned T), offset := T l.offset, baked := bk l }

/-- The mesh with every layer turned. -/
def Mesh.turned (T : Vec2 K → Vec2 K) (bk : Layer K → Option (List (Aabb K))) (m : Mesh K) : Mesh K :=
  { m with layers := m.layers.map (Layer.turned T bk) }

/-- The path with every point turned; its length is the same. -/
def Path.turned (T : Vec2 K → Vec2 K) (p : Path K) : Path K :=
  { length := p.length
    path := p.path.map T
    pathWithLayers := p.pathWithLayers.map (fun q => (T q.1, q.2)) }

/-- `T` is linear, and keeps lengths, angles and orientation: a turn about the origin, in an arithmetic in which
turning loses nothing. A quarter turn is one in exact arithmetic with infinities (`turn_quarter`), and every turn is
one over the reals (`turn_angle`). -/
structure IsTurn (T : Vec2 K → Vec2 K) : Prop where
  add : ∀ a b : Vec2 K, T a + T b = T (a + b)
  sub : ∀ a b : Vec2 K, T a - T b = T (a - b)
  smul : ∀ (a : Vec2 K) (k : K), (T a).smul k = T (a.smul k)
  lsmul : ∀ (k : K) (a : Vec2 K), Vec2.lsmul k (T a) = T (Vec2.lsmul k a)
  beq : ∀ a b : Vec2 K, (T a).beq (T b) = a.beq b
  dot : ∀ a b : Vec2 K, (T a).dot (T b) = a.dot b
  perp : ∀ a b : Vec2 K, (T a).perpDot (T b) = a.perpDot b

end Polyanya
