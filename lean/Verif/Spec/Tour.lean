import Verif.Spec.Walk
/-
Specification of `path_with_layers` (feature `detailed-layers`), in exact arithmetic.
-/

namespace Polyanya

variable {F : Type} [Field F] [LinearOrder F] [Scalar F]

/-- A tour announces the layer it is in: it starts at the point `p` of polygon `s` with the layer `L` announced. It moves
straight inside a polygon, but only if this is a polygon of the announced layer; it crosses a shared edge, at the point where
it is; when the edge leads to another layer, it may announce this layer there (`hop`); and it may make the place where it is a
waypoint, and then announces the layer of the polygon where it is (`stop`). The first list is the list of the waypoints, the
second the list of the announcements: positions and layers. -/
inductive Tour (m : Mesh (Ext F)) (L : UInt8) (s : UInt32) (p : Vec2 F) :
    List (Vec2 F) → List (Vec2 F × UInt8) → UInt8 → UInt32 → Vec2 F → Prop where
  | here : InPolygon m s p → Tour m L s p [] [] L s p
  | move {ws : List (Vec2 F)} {es : List (Vec2 F × UInt8)} {L' : UInt8} {s' : UInt32} {q w : Vec2 F} :
      Tour m L s p ws es L' s' q → L'.toNat = idLayer s' → InPolygon m s' w → Tour m L s p ws es L' s' w
  | cross {ws : List (Vec2 F)} {es : List (Vec2 F × UInt8)} {L' : UInt8} {c : Crossing} {q A B : Vec2 F} :
      Tour m L s p ws es L' c.src q → c.Valid m → c.At m A B → Between A B q → Tour m L s p ws es L' c.dst q
  | hop {ws : List (Vec2 F)} {es : List (Vec2 F × UInt8)} {L' L'' : UInt8} {c : Crossing} {q A B : Vec2 F} :
      Tour m L s p ws es L' c.src q → c.Valid m → c.At m A B → Between A B q → idLayer c.src ≠ idLayer c.dst →
      L''.toNat = idLayer c.dst → Tour m L s p ws (es ++ [(q, L'')]) L'' c.dst q
  | stop {ws : List (Vec2 F)} {es : List (Vec2 F × UInt8)} {L' L'' : UInt8} {s' : UInt32} {q : Vec2 F} :
      Tour m L s p ws es L' s' q → L''.toNat = idLayer s' → Tour m L s p (ws ++ [q]) (es ++ [(q, L'')]) L'' s' q

/-- The entries are the waypoints, in order, and points on the straight lines between them, in order. -/
inductive Traces : Vec2 F → List (Vec2 F) → List (Vec2 F × UInt8) → Prop where
  | nil {p : Vec2 F} : Traces p [] []
  | bend {p w : Vec2 F} {L : UInt8} {ws : List (Vec2 F)} {es : List (Vec2 F × UInt8)} :
      Traces w ws es → Traces p (w :: ws) ((w, L) :: es)
  | between {p w y : Vec2 F} {L : UInt8} {ws : List (Vec2 F)} {es : List (Vec2 F × UInt8)} :
      Between p w y → Traces y (w :: ws) es → Traces p (w :: ws) ((y, L) :: es)

/-- Entries that are closer than 1/100 to the next entry are left out. -/
inductive Thinned : List (Vec2 F × UInt8) → List (Vec2 F × UInt8) → Prop where
  | nil : Thinned [] []
  | last {e : Vec2 F × UInt8} : Thinned [e] [e]
  | keep {e f : Vec2 F × UInt8} {es es' : List (Vec2 F × UInt8)} : 1 / 10000 ≤ sqDist e.1 f.1 → Thinned (f :: es) es' →
      Thinned (e :: f :: es) (e :: es')
  | drop {e f : Vec2 F × UInt8} {es es' : List (Vec2 F × UInt8)} : sqDist e.1 f.1 < 1 / 10000 → Thinned (f :: es) es' →
      Thinned (e :: f :: es) es'

/-- The line from `p` to `q` is not along an edge where two layers meet. -/
def ClearLeg (m : Mesh (Ext F)) (p q : Vec2 F) : Prop :=
  ∀ (c : Crossing) (A B : Vec2 F), c.Valid m → idLayer c.src ≠ idLayer c.dst → c.At m A B →
    ¬ (tri A B p = 0 ∧ tri A B q = 0)

/-- The same entries, in the arithmetic of the code. -/
def finEntry (e : Vec2 F × UInt8) : Vec2 (Ext F) × UInt8 := (e.1.fin, e.2)

end Polyanya
