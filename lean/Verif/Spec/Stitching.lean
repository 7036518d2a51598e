import Verif.Spec.Cleanup
import Verif.Model.Stitching
/-
Specification of stitching (C19-C22): which polygons a vertex lists.
-/

namespace Polyanya

variable {K : Type} [Scalar K]

/-- Vertex `i` of layer `a` exists. -/
def HasVertex (m : Mesh K) (a i : Nat) : Prop := ∃ l v, m.layers[a]? = some l ∧ l.vertices[i]? = some v

/-- Vertex `i` of layer `a` lists the polygon reference `id` among its neighbours. -/
def Lists (m : Mesh K) (a i : Nat) (id : UInt32) : Prop :=
  ∃ l v, m.layers[a]? = some l ∧ l.vertices[i]? = some v ∧ id ∈ v.polygons

/-- Layers as they are built, before any stitching: at most 256 of them, in which vertices refer to polygons by
their number in the same layer. -/
structure Mesh.Unstitched (m : Mesh K) : Prop where
  layers : m.layers.length ≤ 256
  sized : m.Sized
  refs : ∀ l ∈ m.layers, ∀ v ∈ l.vertices, ∀ id ∈ v.polygons, id ≠ u32Max → id.toNat < l.polygons.length
  vertices : ∀ l ∈ m.layers, ∀ p ∈ l.polygons, ∀ v ∈ p.vertices, v.toNat < l.vertices.length

/-- The list of stitches is between existing vertices of different layers. -/
def StitchesExist (m : Mesh K) (s : StitchVertices) : Prop :=
  ∀ e ∈ s, e.1.1 ≠ e.1.2 ∧ ∀ p ∈ e.2, HasVertex m e.1.1.toNat p.1 ∧ HasVertex m e.1.2.toNat p.2

/-- By the list of stitches, vertex `i` of layer `a` is to get the neighbours of vertex `j` of layer `b`: they are
a pair in this direction or, unless stitching is one way, in the other direction. -/
def Linked (s : StitchVertices) (oneWay : Bool) (a i b j : Nat) : Prop :=
  ∃ e ∈ s, (e.1.1.toNat = a ∧ e.1.2.toNat = b ∧ (i, j) ∈ e.2) ∨
    (oneWay = false ∧ e.1.2.toNat = a ∧ e.1.1.toNat = b ∧ (j, i) ∈ e.2)

/-- Meshes with the same layers, but for the neighbours and corner flags of vertices. -/
def SameShape (m m' : Mesh K) : Prop :=
  m' = { m with layers := m'.layers } ∧ List.Forall₂ SameButNeighbours m.layers m'.layers

/-- After stitching by the list `s`, starting from the layers `m`: vertex `i` of layer `a` lists polygon `id` iff it
listed that polygon of its own layer before, or is linked to a vertex of the layer of `id` that listed it. -/
def StitchedBy (m m' : Mesh K) (s : StitchVertices) (oneWay : Bool) : Prop :=
  ∀ a i id, id ≠ u32Max → (Lists m' a i id ↔
    (idLayer id = a ∧ Lists m a i (UInt32.ofNat (idPolygon id))) ∨
    ∃ j, Linked s oneWay a i (idLayer id) j ∧ Lists m (idLayer id) j (UInt32.ofNat (idPolygon id)))

/-- Equality of floats is symmetric, and an element equal to something is equal to itself. -/
class EqLaws (K : Type) [Scalar K] : Prop where
  symm : ∀ a b : K, (a ==. b) = true → (b ==. a) = true
  refl_left : ∀ a b : K, (a ==. b) = true → (a ==. a) = true

/-- Vertex `i` is the first vertex of layer `a` at position `pt`. -/
def FirstAt (m : Mesh K) (a : Nat) (pt : Vec2 K) (i : Nat) : Prop :=
  ∃ l v, m.layers[a]? = some l ∧ l.vertices[i]? = some v ∧ v.coords.beq pt = true ∧
    ∀ (j : Nat) (w : Vertex K), j < i → l.vertices[j]? = some w → w.coords.beq pt = false

/-- Some vertex of layer `a` is at position `pt`. -/
def SomeAt (m : Mesh K) (a : Nat) (pt : Vec2 K) : Prop :=
  ∃ l v, m.layers[a]? = some l ∧ v ∈ l.vertices ∧ v.coords.beq pt = true

/-- Layers `a` and `b` share position `pt`: a vertex of `a` is there, and a vertex of `b` has an equal position. -/
def SharedPoint (m : Mesh K) (a b : Nat) (pt : Vec2 K) : Prop :=
  ∃ l l' v w, m.layers[a]? = some l ∧ m.layers[b]? = some l' ∧ v ∈ l.vertices ∧ w ∈ l'.vertices ∧
    v.coords.beq w.coords = true ∧ pt = v.coords

/-- The stitch vertices are the first vertices at the given points. -/
def AtPoints (m : Mesh K) (sp : StitchPoints K) (sv : StitchVertices) : Prop :=
  List.Forall₂ (fun e e' => e'.1 = e.1 ∧ List.Forall₂ (fun pt p =>
    FirstAt m e.1.1.toNat pt p.1 ∧ FirstAt m e.1.2.toNat pt p.2) e.2 e'.2) sp sv

end Polyanya
