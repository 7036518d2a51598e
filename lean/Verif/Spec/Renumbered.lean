import Verif.Spec.Path
/-
Specification vocabulary for C69: meshes that differ in the numbers of their polygons, in the division into layers
and in the numbers of their vertices.
-/

namespace Polyanya

variable {K : Type} [Scalar K]

/-- Vertex `v` of layer `l` and vertex `v'` of layer `l'` exist, are at the same place of the mesh, are corners or
not alike, and list the same polygons in the same order, where the polygon `id` of the first mesh is the polygon
`π id` of the second one. -/
def CornerAs (π : UInt32 → UInt32) (l l' : Layer K) (v v' : UInt32) : Prop :=
  ∃ x x' : Vertex K, l.vertices[v.toNat]? = some x ∧ l'.vertices[v'.toNat]? = some x' ∧
    x'.coords + l'.offset = x.coords + l.offset ∧ x'.polygons = x.polygons.map π ∧ x'.isCorner = x.isCorner

/-- Polygon `π id` of `m'` is polygon `id` of `m`: same corners in the same order, same one-way flag. The meshes
have the same number of polygons. Which layer a polygon is in does not matter. -/
structure SamePolygons (π : UInt32 → UInt32) (m m' : Mesh K) : Prop where
  injective : Function.Injective π
  outside : π u32Max = u32Max
  count : (m'.layers.map (·.polygons.length)).sum = (m.layers.map (·.polygons.length)).sum
  polygons : ∀ id l p, HasPolygon m id l p → ∃ l' p', HasPolygon m' (π id) l' p' ∧ p'.isOneWay = p.isOneWay ∧
    List.Forall₂ (CornerAs π l l') p.vertices p'.vertices

/-- The meshes have the same number of layers, with the same scales. -/
def SameScales (m m' : Mesh K) : Prop :=
  List.Forall₂ (fun l l' : Layer K => l'.scale = l.scale) m.layers m'.layers

/-- There is a polygon with this number. -/
def Mesh.Has (m : Mesh K) (id : UInt32) : Prop := ∃ l p, HasPolygon m id l p

/-- Every number listed by a corner of a polygon is the number of a polygon, or stands for the outside. -/
def Mesh.ListsPolygons (m : Mesh K) : Prop :=
  ∀ id l p, HasPolygon m id l p → ∀ v ∈ p.vertices, ∀ x, l.vertices[v.toNat]? = some x →
    ∀ q ∈ x.polygons, q = u32Max ∨ m.Has q

/-- Blocking the layers `B'` of `m'` blocks the polygons that blocking the layers `B` of `m` blocks (`u32::MAX`
counts as a polygon of layer 255). -/
structure BlockedAs (π : UInt32 → UInt32) (m : Mesh K) (B B' : List UInt8) : Prop where
  any : B = [] ↔ B' = []
  polygon : ∀ id, m.Has id → (layerOf (π id) ∈ B' ↔ layerOf id ∈ B)
  outside : (255 : UInt8) ∈ B' ↔ (255 : UInt8) ∈ B

/-- No layer has islands: `bake` was not called. -/
def Mesh.NoIslands (m : Mesh K) : Prop := ∀ l ∈ m.layers, l.islands = none

end Polyanya
