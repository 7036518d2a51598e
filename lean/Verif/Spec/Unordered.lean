import Verif.Spec.Renumbered
/-
Specification vocabulary for C79: meshes whose vertices list their polygons in different orders.
-/

namespace Polyanya

variable {K : Type} [Scalar K]

/-- Paths can turn at vertex `x` when the layers `B` are blocked: it is a corner or, when layers are blocked, it
touches the outside or a blocked layer. -/
def TurnsAt (B : List UInt8) (x : Vertex K) : Prop :=
  x.isCorner = true ∨ (B ≠ [] ∧ ∃ q ∈ x.polygons, q = u32Max ∨ layerOf q ∈ B)

/-- Vertex `v` of layer `l` and vertex `v'` of layer `l'` exist, are at the same place of the mesh, list the same
polygons, in any order and any number of times (polygon `id` of the first mesh is polygon `π id` of the second one),
and paths can turn at both or at neither. -/
def CornerLike (π : UInt32 → UInt32) (B B' : List UInt8) (l l' : Layer K) (v v' : UInt32) : Prop :=
  ∃ x x' : Vertex K, l.vertices[v.toNat]? = some x ∧ l'.vertices[v'.toNat]? = some x' ∧
    x'.coords + l'.offset = x.coords + l.offset ∧
    (∀ q', q' ≠ u32Max → (q' ∈ x'.polygons ↔ ∃ q ∈ x.polygons, π q = q')) ∧ (TurnsAt B' x' ↔ TurnsAt B x)

/-- `P` is a part of the mesh that no corner of its polygons leads out of. -/
structure Mesh.Closed (m : Mesh K) (P : UInt32 → Prop) : Prop where
  has : ∀ id, P id → m.Has id
  lists : ∀ id l p, P id → HasPolygon m id l p → ∀ v ∈ p.vertices, ∀ x, l.vertices[v.toNat]? = some x →
    ∀ q ∈ x.polygons, q = u32Max ∨ P q

/-- At most one other polygon is listed at both ends of an edge of a polygon of `P`. -/
def Mesh.OneAcross (m : Mesh K) (P : UInt32 → Prop) : Prop :=
  ∀ id l p a b x y, P id → HasPolygon m id l p → IsEdge p.vertices a b →
    l.vertices[a.toNat]? = some x → l.vertices[b.toNat]? = some y →
    ∀ q q', q ∈ x.polygons → q ∈ y.polygons → q ≠ u32Max → q ≠ id →
      q' ∈ x.polygons → q' ∈ y.polygons → q' ≠ u32Max → q' ≠ id → q = q'

/-- Polygon `π id` of `m'` is polygon `id` of `m`, for the polygons of `P`: same corners in the same order, same
one-way flag, blocked (by `B'`, by `B`) or not alike. The meshes have the same number of polygons. -/
structure LikePolygons (π : UInt32 → UInt32) (B B' : List UInt8) (P : UInt32 → Prop) (m m' : Mesh K) : Prop where
  injective : Function.Injective π
  outside : π u32Max = u32Max
  count : (m'.layers.map (·.polygons.length)).sum = (m.layers.map (·.polygons.length)).sum
  polygons : ∀ id l p, P id → HasPolygon m id l p → ∃ l' p', HasPolygon m' (π id) l' p' ∧
    p'.isOneWay = p.isOneWay ∧ List.Forall₂ (CornerLike π B B' l l') p.vertices p'.vertices
  blocked : ∀ q, q = u32Max ∨ P q → (layerOf (π q) ∈ B' ↔ layerOf q ∈ B)

end Polyanya
