import Verif.Spec.Path
import Verif.Model.Cleanup
/-
Specification of `mesh_cleanup.rs` (C23, C28): meshes with references in range, and what "next to each other around
a vertex" means.
-/

namespace Polyanya

variable {K : Type} [Scalar K]

/-- The contract of `sort_unstable_by_key`: the result has the same elements, in order of their keys. -/
def Sorter.Ok (s : Sorter) : Prop :=
  ∀ (key : UInt32 → Int) (l : List UInt32), (s key l).Perm l ∧ (s key l).Pairwise (fun a b => key a ≤ key b)

/-- Every polygon listed by a vertex exists, and polygons list existing vertices. (Empty polygons and polygons
with repeated vertices are allowed.) -/
structure Mesh.RefsInRange (m : Mesh K) : Prop where
  refs : ∀ l ∈ m.layers, ∀ v ∈ l.vertices, ∀ id ∈ v.polygons, id ≠ u32Max → ∃ l' p, HasPolygon m id l' p
  vertices : ∀ l ∈ m.layers, ∀ p ∈ l.polygons, ∀ v ∈ p.vertices, v.toNat < l.vertices.length

/-- `k` is the angle, in units of 1/100000 and seen from `vc`, of the centre of polygon `id`. -/
def AngleFrom (m : Mesh K) (vc : Vec2 K) (id : UInt32) (k : Int) : Prop :=
  ∃ l p cs, HasPolygon m id l p ∧
    List.Forall₂ (fun v c => ∃ vx, l.vertices[v.toNat]? = some vx ∧ vx.coords = c) p.vertices cs ∧
    let center := (cs.foldl (fun a b => a + b) Vec2.zero).sdiv (Scalar.ofNat p.vertices.length) + l.offset
    k = Scalar.toI32 (Scalar.angleTo (Scalar.lit 0 0) (Scalar.lit 1 0) (center - vc).x (center - vc).y
      *. Scalar.lit 100000 0)

/-- Vertex `w` is the only vertex of the polygon that is at position `vc` (nearer than 0.01). -/
def OnlyAt (l : Layer K) (p : Polygon) (vc : Vec2 K) (w : UInt32) : Prop :=
  w ∈ p.vertices ∧ ∀ u ∈ p.vertices, ∀ vx, l.vertices[u.toNat]? = some vx →
    (((vx.coords + l.offset).distanceSquared vc <. Scalar.lit 1 4) = true ↔ u = w)

/-- `id` and then `id'` are next to each other, counterclockwise, around position `vc`: the vertex before `vc` in
the first polygon has the same position as the vertex after `vc` in the second polygon. -/
def Adjacent (m : Mesh K) (vc : Vec2 K) (id id' : UInt32) : Prop :=
  ∃ l p l' p' w w' a b va vb, HasPolygon m id l p ∧ HasPolygon m id' l' p' ∧
    OnlyAt l p vc w ∧ OnlyAt l' p' vc w' ∧ IsEdge p.vertices a w ∧ IsEdge p'.vertices w' b ∧
    l.vertices[a.toNat]? = some va ∧ l'.vertices[b.toNat]? = some vb ∧
    (va.coords + l.offset).beq (vb.coords + l'.offset) = true

/-- The polygon visits no vertex twice, and exactly one of its vertices is at position `vc`. -/
def TouchesOnce (m : Mesh K) (vc : Vec2 K) (id : UInt32) : Prop :=
  ∀ l p, HasPolygon m id l p → p.vertices.Nodup ∧ ∃ w, OnlyAt l p vc w

/-- None of the vertices of the polygon is at position `vc` (nearer than 0.01). -/
def Misses (m : Mesh K) (vc : Vec2 K) (id : UInt32) : Prop :=
  ∀ l p, HasPolygon m id l p → ∀ u ∈ p.vertices, ∀ vx, l.vertices[u.toNat]? = some vx →
    ((vx.coords + l.offset).distanceSquared vc <. Scalar.lit 1 4) = false

/-- What reordering makes of the neighbours of a vertex at position `vc`. -/
structure Reordered (m : Mesh K) (vc : Vec2 K) (old new : List UInt32) : Prop where
  /-- the same polygons -/
  same : ∀ id, id ≠ u32Max → (id ∈ new ↔ id ∈ old)
  /-- no polygon: only the outside -/
  alone : (∀ id ∈ old, id = u32Max) → new = [u32Max]
  /-- the polygons are in order of their angles -/
  sorted : (new.filter (· != u32Max)).Pairwise
    (fun id id' => ∃ k k', AngleFrom m vc id k ∧ AngleFrom m vc id' k' ∧ k ≤ k')
  /-- a polygon is never followed by itself -/
  distinct : (new.filter (· != u32Max)).IsChain (· ≠ ·)
  /-- no two gaps follow each other -/
  chain : new.IsChain (· ≠ ·)
  /-- the list starts with a polygon, if there is one -/
  start : (∃ id ∈ old, id ≠ u32Max) → new.head? ≠ some u32Max
  /-- one polygon has a gap on both sides of the vertex -/
  single : ∀ id, new.filter (· != u32Max) = [id] → new = [id, u32Max]
  /-- with several polygons, there is a gap after a polygon iff it is not adjacent to the next one, cyclically; there
  is one if either of them does not touch the vertex at all -/
  gaps : (new.filter (· != u32Max)).head? ≠ (new.filter (· != u32Max)).getLast? →
    ∃ gap : UInt32 × UInt32 → Bool,
      new = ((new.filter (· != u32Max)).zip ((new.filter (· != u32Max)).rotate 1)).flatMap
        (fun e => if gap e then [e.1, u32Max] else [e.1]) ∧
      ∀ e ∈ (new.filter (· != u32Max)).zip ((new.filter (· != u32Max)).rotate 1),
        (TouchesOnce m vc e.1 → TouchesOnce m vc e.2 → (gap e = false ↔ Adjacent m vc e.1 e.2)) ∧
        (Misses m vc e.1 ∨ Misses m vc e.2 → gap e = true)

/-- Nothing of the layer differs but the neighbours and corner flags of its vertices. -/
structure SameButNeighbours (l l' : Layer K) : Prop where
  polygons : l'.polygons = l.polygons
  offset : l'.offset = l.offset
  scale : l'.scale = l.scale
  baked : l'.baked = l.baked
  islands : l'.islands = l.islands
  coords : l'.vertices.map (·.coords) = l.vertices.map (·.coords)

/-- A vertex that lists no polygon: its list of neighbours is empty, or contains just the outside, once. -/
def Unused (v : Vertex K) : Prop := v.polygons = [] ∨ v.polygons = [u32Max]

/-- A layer without unused vertices. -/
def Layer.Clean (l : Layer K) : Prop := ∀ v ∈ l.vertices, ¬ Unused v

/-- `l'` is the layer `l` without its unused vertices: the others are kept in order, the polygons are the same, each
of their corners being the same vertex under its new number (or the invalid number `u32::MAX` if it was unused),
and nothing else changes. -/
structure Cleaned (l l' : Layer K) : Prop where
  vertices : l'.vertices = l.vertices.filter (fun v => v.polygons != [] && v.polygons != [u32Max])
  polygons : List.Forall₂ (fun p p' => p'.isOneWay = p.isOneWay ∧
    List.Forall₂ (fun u u' => ∃ vx, l.vertices[u.toNat]? = some vx ∧
      (¬ Unused vx → l'.vertices[u'.toNat]? = some vx) ∧ (Unused vx → u' = u32Max)) p.vertices p'.vertices)
    l.polygons l'.polygons
  rest : l' = { l with vertices := l'.vertices, polygons := l'.polygons }

/-- Every corner of a polygon is a vertex that lists some polygon. -/
def Layer.CornersUsed (l : Layer K) : Prop :=
  ∀ p ∈ l.polygons, ∀ v ∈ p.vertices, ∃ vx, l.vertices[v.toNat]? = some vx ∧ ¬ Unused vx

/-- Polygons list existing vertices, whose numbers fit the `u32` index type. -/
structure Mesh.Cleanable (m : Mesh K) : Prop where
  size : ∀ l ∈ m.layers, l.vertices.length < 2 ^ 32
  range : ∀ l ∈ m.layers, ∀ p ∈ l.polygons, ∀ v ∈ p.vertices, v.toNat < l.vertices.length

/-- `m'` is reached from `m` by calls of `Mesh::remove_useless_vertices` that all returned true. -/
inductive RemovalCalls : Nat → Mesh K → Mesh K → Prop where
  | none (m : Mesh K) : RemovalCalls 0 m m
  | more {k : Nat} {m m' m'' : Mesh K} : m.removeUseless = .ok (m', true) → RemovalCalls k m' m'' →
      RemovalCalls (k + 1) m m''

end Polyanya
