import Verif.Spec.Islands
import Verif.Model.Trimesh
/-
Specification of the conversion of triangle meshes (C31, C50).
-/

namespace Polyanya

variable {K : Type} [Scalar K]

/-- Triangles of three different, existing vertices; counts fit in a `u32`. -/
structure Trimesh.Valid (t : Trimesh K) : Prop where
  vertices : t.vertices.length ≤ 2 ^ 32
  triangles : t.triangles.length < 2 ^ 32 - 1
  inRange : ∀ a b c, (a, b, c) ∈ t.triangles → a < t.vertices.length ∧ b < t.vertices.length ∧ c < t.vertices.length
  distinct : ∀ a b c, (a, b, c) ∈ t.triangles → a ≠ b ∧ b ≠ c ∧ c ≠ a

/-- Vertex `v` is a corner of triangle number `k`. -/
def InTriangle (t : Trimesh K) (v k : Nat) : Prop :=
  ∃ a b c, t.triangles[k]? = some (a, b, c) ∧ (v = a ∨ v = b ∨ v = c)

/-- Triangle number `k` goes from vertex `v` to vertex `w`. -/
def TriangleEdge (t : Trimesh K) (k v w : Nat) : Prop :=
  ∃ a b c, t.triangles[k]? = some (a, b, c) ∧ ((v = a ∧ w = b) ∨ (v = b ∧ w = c) ∨ (v = c ∧ w = a))

/-- Triangles `k` and `k'` share an edge at vertex `v`: the first one comes to `v` along the edge on which the second one
leaves. -/
def NextTo (t : Trimesh K) (v k k' : Nat) : Prop := ∃ w, TriangleEdge t k w v ∧ TriangleEdge t k' v w

/-- The neighbours listed by vertex `v`: its triangles, in some cyclic order, each once, and a gap (`u32::MAX`) between two
that follow each other iff they do not share an edge there. -/
def Around (t : Trimesh K) (v : Nat) (polygons : List UInt32) : Prop :=
  ∃ (ring : List UInt32) (gap : UInt32 × UInt32 → Bool),
    ring.Nodup ∧ (∀ id, id ∈ ring ↔ id ≠ u32Max ∧ InTriangle t v id.toNat) ∧
    polygons = (ring.zip (ring.rotate 1)).flatMap (fun e => if gap e then [u32Max, e.2] else [e.2]) ∧
    ∀ e ∈ ring.zip (ring.rotate 1), (gap e = false ↔ NextTo t v e.1.toNat e.2.toNat)

/-- The mesh made of the triangles. -/
def FromTriangles (t : Trimesh K) (m : Mesh K) : Prop :=
  ∃ l, m = Mesh.ofLayers [l] ∧ l.offset = Vec2.zero ∧ l.Consistent ∧
    l.polygons = t.triangles.map (fun k =>
      { vertices := [UInt32.ofNat k.1, UInt32.ofNat k.2.1, UInt32.ofNat k.2.2], isOneWay := t.triangles.length == 1 }) ∧
    l.vertices.length = t.vertices.length ∧
    ∀ (v : Nat) (c : Vec2 K), t.vertices[v]? = some c → ∃ vx, l.vertices[v]? = some vx ∧ vx.coords = c ∧
      (vx.isCorner = true ↔ u32Max ∈ vx.polygons) ∧ Around t v vx.polygons

/-- What is assumed of the sort: unless it panics, the result has the same elements. -/
def TriSorter.Permutes (s : TriSorter) : Prop := ∀ less l l', s less l = some l' → l'.Perm l

end Polyanya
