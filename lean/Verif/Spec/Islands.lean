import Verif.Spec.Path
import Mathlib.Logic.Relation
/-
Consistency of a layer and connectedness of its polygons.
-/

namespace Polyanya

variable {K : Type} [Scalar K]

/-- Vertices and polygons of a (not stitched) layer refer to each other: a polygon lists vertex `v` iff
vertex `v` lists the polygon. All references are in range. -/
structure Layer.Consistent (l : Layer K) : Prop where
  sized : l.polygons.length ≤ 2 ^ 24 - 1
  /-- each vertex of a polygon exists and lists the polygon -/
  polygonVertex : ∀ (k : Nat) p, l.polygons[k]? = some p → ∀ v ∈ p.vertices,
    ∃ vx, l.vertices[v.toNat]? = some vx ∧ UInt32.ofNat k ∈ vx.polygons
  /-- each polygon of a vertex exists and lists the vertex -/
  vertexPolygon : ∀ (v : UInt32) vx, l.vertices[v.toNat]? = some vx → ∀ id ∈ vx.polygons, id ≠ u32Max →
    ∃ p, l.polygons[id.toNat]? = some p ∧ v ∈ p.vertices

/-- Polygons `a` and `b` of the layer have a vertex in common. -/
def SharesVertex (l : Layer K) (a b : Nat) : Prop :=
  ∃ pa pb v, l.polygons[a]? = some pa ∧ l.polygons[b]? = some pb ∧ v ∈ pa.vertices ∧ v ∈ pb.vertices

/-- Polygons `a` and `b` are connected through shared vertices. -/
def Connected (l : Layer K) : Nat → Nat → Prop := Relation.ReflTransGen (SharesVertex l)

/-- Islands are baked in no layer, or the mesh has one layer, its references are consistent, and it has the islands
that `bake_islands_detection` computes for it (`Mesh::new` bakes like this). -/
def Mesh.IslandsTrue (m : Mesh K) : Prop :=
  (∀ l ∈ m.layers, l.islands = none) ∨ ∃ l, m.layers = [l] ∧ l.Consistent ∧ l.bakeIslands = .ok l

end Polyanya
