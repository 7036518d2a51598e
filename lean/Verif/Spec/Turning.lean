import Verif.Spec.Walk
/-
Specification vocabulary for C56 (searches end): walking around a point.
-/

namespace Polyanya

variable {F : Type} [Field F] [LinearOrder F] [Scalar F]

/-- The edge of the crossing contains the point `r`. -/
def Crossing.Hits (m : Mesh (Ext F)) (c : Crossing) (r : Vec2 F) : Prop := ∃ A B, c.At m A B ∧ Between A B r

/-- After the crossing `c` one can make the crossing `c'`, which does not lead back, both through edges that contain
the point `r`. -/
def TurnsTo (m : Mesh (Ext F)) (r : Vec2 F) (c c' : Crossing) : Prop :=
  c.Valid m ∧ c'.Valid m ∧ c.dst = c'.src ∧ c.src ≠ c'.dst ∧ c.Hits m r ∧ c'.Hits m r

/-- One cannot walk around the point `r`, from polygon to polygon through edges that contain `r`, and come back
to where one was. This is so for points inside a polygon or inside an edge, and for corners of the outline of the
mesh (the polygons around them do not form a full circle). -/
def NoCircle (m : Mesh (Ext F)) (r : Vec2 F) : Prop := ∀ c, ¬ Relation.TransGen (TurnsTo m r) c c

/-- The edge from `A` to `B` of polygon `id` is a wall: one can neither leave nor enter the polygon through it. -/
def Wall (m : Mesh (Ext F)) (id : UInt32) (A B : Vec2 F) : Prop :=
  (∃ ps, Ring m id ps ∧ Consecutive ps A B) ∧ (∀ c : Crossing, c.Valid m → c.src = id → ¬ c.At m A B) ∧
    ∀ c : Crossing, c.Valid m → c.dst = id → ¬ c.At m B A

/-- `r` is not enclosed by walkable area: if it is a corner of a polygon, then there is a wall that ends there. -/
def NotEnclosed (m : Mesh (Ext F)) (r : Vec2 F) : Prop :=
  (∃ id ps, Ring m id ps ∧ r ∈ ps) → ∃ id A B, Wall m id A B ∧ (r = A ∨ r = B)

/-- The polygons that have a corner at `r` are linked there: one can go from each to each other without leaving `r`. -/
def LinkedAt (m : Mesh (Ext F)) (r : Vec2 F) : Prop :=
  ∀ id id' ps ps', Ring m id ps → Ring m id' ps' → r ∈ ps → r ∈ ps' → Straight m id r id' r

/-- `r` is the position of a vertex at which a path may bend. -/
def BendPoint (m : Mesh (Ext F)) (blocked : List UInt8) (r : Vec2 F) : Prop :=
  ∃ l ∈ m.layers, ∃ v ∈ l.vertices, v.coords + l.offset = r.fin ∧ MayBend blocked v

end Polyanya
