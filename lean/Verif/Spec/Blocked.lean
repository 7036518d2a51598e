import Verif.Spec.Path
import Verif.Spec.Shortest
/-
Specification vocabulary for C59: the mesh in which the blocked layers are outside.
-/

namespace Polyanya

variable {K : Type} [Scalar K]

/-- The vertex, with the polygons of blocked layers replaced by the outside. If any layer is blocked, then a vertex that
touches the outside is a corner. -/
def Vertex.cutOff (blocked : List UInt8) (v : Vertex K) : Vertex K :=
  let ps := v.polygons.map (fun p => if blocked.contains (layerOf p) then u32Max else p)
  { coords := v.coords, polygons := ps, isCorner := v.isCorner || (!blocked.isEmpty && ps.contains u32Max) }

/-- The same for all vertices of the layer. -/
def Layer.cutOff (blocked : List UInt8) (l : Layer K) : Layer K :=
  { l with vertices := l.vertices.map (Vertex.cutOff blocked) }

/-- The mesh in which the blocked layers are outside: no vertex lists their polygons. -/
def Mesh.cutOff (m : Mesh K) (blocked : List UInt8) : Mesh K :=
  { m with layers := m.layers.map (Layer.cutOff blocked) }

/-- At most one polygon is on the other side of an edge of a polygon. -/
def Mesh.OneOtherSide (m : Mesh K) : Prop :=
  ∀ c c' : Crossing, c.Valid m → c'.Valid m → c'.src = c.src → c'.a = c.a → c'.b = c.b → c'.dst = c.dst

section
variable {F : Type} [Field F] [LinearOrder F] [Scalar F]

/-- Straight walks that do not enter blocked layers. -/
inductive StraightAvoiding (m : Mesh (Ext F)) (blocked : List UInt8) : UInt32 → Vec2 F → UInt32 → Vec2 F → Prop where
  | stay {s : UInt32} {p q : Vec2 F} : InPolygon m s p → InPolygon m s q → StraightAvoiding m blocked s p s q
  | cross {c : Crossing} {e : UInt32} {p y q A B : Vec2 F} : InPolygon m c.src p → c.Valid m →
      Unblocked blocked c.dst → c.At m A B → Between A B y → Between p q y →
      StraightAvoiding m blocked c.dst y e q → StraightAvoiding m blocked c.src p e q

/-- Walks that do not enter blocked layers. -/
inductive WalkAvoiding (m : Mesh (Ext F)) (blocked : List UInt8) :
    UInt32 → Vec2 F → UInt32 → Vec2 F → List (Vec2 F) → Prop where
  | nil {s : UInt32} {p : Vec2 F} : InPolygon m s p → WalkAvoiding m blocked s p s p []
  | cons {s s' e : UInt32} {p w q : Vec2 F} {ws : List (Vec2 F)} :
      StraightAvoiding m blocked s p s' w → WalkAvoiding m blocked s' w e q ws →
      WalkAvoiding m blocked s p e q (w :: ws)

end

/-- The path is a walk from the start to the goal that does not enter a blocked layer, its length is the length of this
walk, and no such walk is shorter. -/
def ShortestAvoiding (m : Mesh (Ext ℝ)) (blocked : List UInt8) (s : UInt32) (start : Vec2 ℝ) (e : UInt32)
    (goal : Vec2 ℝ) (p : Path (Ext ℝ)) : Prop :=
  ∃ ws, p.path = ws.map Vec2.fin ∧ p.length = Ext.fin (polyLen (start :: ws))
    ∧ WalkAvoiding m blocked s start e goal ws
    ∧ ∀ ws', WalkAvoiding m blocked s start e goal ws' → polyLen (start :: ws) ≤ polyLen (start :: ws')

end Polyanya
