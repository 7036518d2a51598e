import Verif.Spec.Unordered
/-
Specification vocabulary for C88: a part of a mesh that appears in another mesh.
-/

namespace Polyanya

variable {K : Type} [Scalar K]

/-- The polygons of the part `P` of the mesh `m` are in the mesh `m'` too: polygon `π id` of `m'` is polygon `id` of
`m`, with the same one-way flag and the same corners in the same order, which list the same polygons. What else is in
the two meshes does not matter. -/
structure PartAs (π : UInt32 → UInt32) (P : UInt32 → Prop) (m m' : Mesh K) : Prop where
  injective : Function.Injective π
  outside : π u32Max = u32Max
  polygons : ∀ id l p, P id → HasPolygon m id l p → ∃ l' p', HasPolygon m' (π id) l' p' ∧ p'.isOneWay = p.isOneWay ∧
    List.Forall₂ (CornerAs π l l') p.vertices p'.vertices

/-- Blocking the layers `B'` of `m'` blocks the polygons of the part that blocking the layers `B` of `m` blocks
(`u32::MAX` counts as a polygon of layer 255). -/
structure BlockedIn (π : UInt32 → UInt32) (P : UInt32 → Prop) (B B' : List UInt8) : Prop where
  any : B = [] ↔ B' = []
  polygon : ∀ id, P id → (layerOf (π id) ∈ B' ↔ layerOf id ∈ B)
  outside : (255 : UInt8) ∈ B' ↔ (255 : UInt8) ∈ B

/-- The number of polygons of a mesh. -/
def Mesh.polygonTotal (m : Mesh K) : Nat := (m.layers.map (·.polygons.length)).sum

/-- The mesh with more layers behind the ones it has. -/
def Mesh.withLayers (m : Mesh K) (ls : List (Layer K)) : Mesh K := { m with layers := m.layers ++ ls }

end Polyanya
