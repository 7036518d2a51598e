import Verif.Model.Async
/-
Specification vocabulary for C65: the same mesh at another place.
-/

namespace Polyanya

variable {K : Type} [Scalar K]

/-- The layer, moved by `t`: its public `offset` is changed, and nothing else. -/
def Layer.moved (t : Vec2 K) (l : Layer K) : Layer K := { l with offset := l.offset + t }

/-- The mesh with every layer moved by `t`. -/
def Mesh.moved (t : Vec2 K) (m : Mesh K) : Mesh K := { m with layers := m.layers.map (Layer.moved t) }

/-- The query point, moved by `t`. -/
def Coords.moved (t : Vec2 K) (c : Coords K) : Coords K := { c with pos := c.pos + t }

/-- The path with every point moved by `t`; its length is the same. -/
def Path.moved (t : Vec2 K) (p : Path K) : Path K :=
  { length := p.length
    path := p.path.map (· + t)
    pathWithLayers := p.pathWithLayers.map (fun q => (q.1 + t, q.2)) }

/-- Adding `t` loses nothing: differences and equalities of moved points are those of the points, and `t` may be
added first or last. It holds in exact arithmetic for every finite `t` (`shift_ext`); with rounding it holds as long
as no sum is rounded. -/
structure Shift (t : Vec2 K) : Prop where
  sub : ∀ a b : Vec2 K, (a + t) - (b + t) = a - b
  beq : ∀ a b : Vec2 K, (a + t).beq (b + t) = a.beq b
  add : ∀ a v : Vec2 K, (a + t) + v = (a + v) + t
  assoc : ∀ a b : Vec2 K, a + (b + t) = (a + b) + t

/-- All layers have the default scale, and scaling by it changes no point. -/
structure Mesh.UnitScale (m : Mesh K) : Prop where
  one : ∀ l ∈ m.layers, l.scale = Vec2.one
  cmul : ∀ a : Vec2 K, a.cmul Vec2.one = a

end Polyanya
