import Verif.Spec.Path
import Verif.Model.Async
/-
Specification vocabulary for C62: meshes that differ in the numbering of their vertices only.
-/

namespace Polyanya

variable {K : Type} [Scalar K]

/-- Vertex `v` of layer `l` and vertex `v'` of layer `l'` exist, are at the same place of the mesh, list the same
polygons, and are corners or not alike. -/
def SameCorner (l l' : Layer K) (v v' : UInt32) : Prop :=
  ∃ x x' : Vertex K, l.vertices[v.toNat]? = some x ∧ l'.vertices[v'.toNat]? = some x' ∧
    x'.coords + l'.offset = x.coords + l.offset ∧ x'.polygons = x.polygons ∧ x'.isCorner = x.isCorner

/-- The layers have the same polygons, through vertices that may be numbered differently. -/
structure SameRings (l l' : Layer K) : Prop where
  polygons : List.Forall₂ (fun p p' => p'.isOneWay = p.isOneWay ∧
    List.Forall₂ (SameCorner l l') p.vertices p'.vertices) l.polygons l'.polygons
  scale : l'.scale = l.scale
  islands : l'.islands = l.islands

/-- The layers are the same, but for the numbering of the vertices, and for vertices that are in no polygon. -/
structure SameLayer (l l' : Layer K) : Prop where
  rings : SameRings l l'
  offset : l'.offset = l.offset
  baked : l'.baked = l.baked
  coords : List.Forall₂ (fun p p' : Polygon => List.Forall₂ (fun v v' : UInt32 =>
    (l'.vertices[v'.toNat]?).map (·.coords) = (l.vertices[v.toNat]?).map (·.coords)) p.vertices p'.vertices)
    l.polygons l'.polygons

/-- The meshes are the same, but for the numbering of the vertices of each layer, and for vertices that are in no
polygon. -/
structure SameMesh (m m' : Mesh K) : Prop where
  layers : List.Forall₂ SameLayer m.layers m'.layers
  searchDelta : m'.searchDelta = m.searchDelta
  searchSteps : m'.searchSteps = m.searchSteps

/-- The heap looks at the costs of the nodes only: queues of nodes with the same costs are treated alike. -/
def Heap.ByCost (heap : Heap K) : Prop :=
  ∀ R : SearchNode K → SearchNode K → Prop,
    (∀ n n', R n n' → n'.distanceStartToRoot = n.distanceStartToRoot ∧ n'.heuristic = n.heuristic) →
    ∀ q q', List.Forall₂ R q q' →
      (heap.pop q = none ∧ heap.pop q' = none) ∨
      ∃ n r n' r', heap.pop q = some (n, r) ∧ heap.pop q' = some (n', r') ∧ R n n' ∧ List.Forall₂ R r r'

/-- Vertex numbers are below `2^24`. The feature `detailed-layers` takes the upper eight bits of a vertex number for
a layer. -/
def Mesh.SmallNumbers (m : Mesh K) : Prop :=
  ∀ l ∈ m.layers, ∀ p ∈ l.polygons, ∀ v ∈ p.vertices, v.toNat < 2 ^ 24

end Polyanya
