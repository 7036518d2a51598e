import Verif.Spec.Path
/-
Well-formed meshes (used by C10): all references are in range.
-/

namespace Polyanya

variable {K : Type} [Scalar K]

/-- A layer in which points can be looked up: polygons are non-empty and fit the id format. -/
structure Layer.Findable (l : Layer K) : Prop where
  sized : l.polygons.length ≤ 2 ^ 24 - 1
  nonempty : ∀ p ∈ l.polygons, p.vertices ≠ []
  /-- if a polygon finder is baked, it was built from as many boxes as there are polygons -/
  baked : ∀ boxes, l.baked = some boxes → boxes.length = l.polygons.length

/-- A layer whose polygons are non-empty lists of existing vertices. -/
structure Layer.WF (l : Layer K) : Prop extends l.Findable where
  inRange : ∀ p ∈ l.polygons, ∀ v ∈ p.vertices, v.toNat < l.vertices.length

/-- A mesh all of whose references are in range. -/
structure Mesh.WF (cfg : Cfg) (m : Mesh K) : Prop where
  layers : m.layers.length ≤ 256
  layer : ∀ l ∈ m.layers, l.WF
  /-- every polygon listed by a vertex exists -/
  refs : ∀ l ∈ m.layers, ∀ v ∈ l.vertices, ∀ id ∈ v.polygons, id ≠ u32Max →
    ∃ l' p, HasPolygon m id l' p
  /-- with `detailed-layers`, vertex indices fit in 24 bits -/
  vertices : cfg.detailed = true → ∀ l ∈ m.layers, l.vertices.length ≤ 2 ^ 24

/-- The only arithmetic fact needed: squared distances between mesh vertices are not NaN (otherwise
`distances.sort_by(partial_cmp.unwrap())` panics, `instance.rs:388`). -/
structure Mesh.NoNan (m : Mesh K) : Prop where
  dist : ∀ l ∈ m.layers, ∀ v ∈ l.vertices, ∀ l' ∈ m.layers, ∀ v' ∈ l'.vertices,
    Scalar.isNan ((v.coords + l.offset).distanceSquared (v'.coords + l'.offset)) = false

/-- The BVH only proposes indices of boxes it was built from. -/
def Bvh.InRange (bvh : Bvh K) : Prop := ∀ boxes pt, ∀ i ∈ bvh boxes pt, i < boxes.length

/-- The point is in the (closed) box. -/
def InBox (b : Aabb K) (pt : Vec2 K) : Prop :=
  (b.1.x <=. pt.x) = true ∧ (pt.x <=. b.2.x) = true ∧ (b.1.y <=. pt.y) = true ∧ (pt.y <=. b.2.y) = true

/-- The contract of the external bounding volume hierarchy: every box that contains the point is
proposed, and only existing boxes are. -/
structure Bvh.Complete (bvh : Bvh K) : Prop where
  inRange : bvh.InRange
  complete : ∀ boxes pt i (b : Aabb K), boxes[i]? = some b → InBox b pt → i ∈ bvh boxes pt

/-- If a polygon finder is baked, it is the one `bake` builds for this layer. -/
def Layer.FinderOk (l : Layer K) : Prop := ∀ boxes, l.baked = some boxes → boxes = l.bakePolygonFinder.baked.getD []

/-- Query coordinates that refer to an existing layer / polygon, if to any. -/
structure Coords.WF (m : Mesh K) (c : Coords K) : Prop where
  layer : ∀ i, c.layer = some i → i.toNat < m.layers.length
  polygon : c.polygonIndex ≠ u32Max → ∃ l p, HasPolygon m c.polygonIndex l p

/-- No polygon refers to the vertex index that is exactly the number of vertices of its layer. (Larger,
also invalid, indices are allowed.) -/
def NoBoundaryIndex (m : Mesh K) : Prop :=
  ∀ l ∈ m.layers, ∀ p ∈ l.polygons, ∀ v ∈ p.vertices, v.toNat ≠ l.vertices.length

/-- The BVH proposes a box only if the box contains the point. -/
def Bvh.Sound (bvh : Bvh K) : Prop := ∀ boxes pt, ∀ i ∈ bvh boxes pt, ∃ b, boxes[i]? = some b ∧
  (b.1.x <=. pt.x) = true ∧ (b.1.y <=. pt.y) = true ∧ (pt.x <=. b.2.x) = true ∧ (pt.y <=. b.2.y) = true

/-- `f32::MAX` is positive: nothing lies above it and below zero. -/
def MaxPositive (K : Type) [Scalar K] : Prop :=
  ∀ x : K, ¬ ((Scalar.maxVal <=. x) = true ∧ (x <=. Scalar.lit 0 0) = true)

/-- The future `f'` is reached from `f` by polls that all returned `Pending`. -/
inductive Polls (bvh : Bvh K) (heap : Heap K) (cfg : Cfg) (m : Mesh K) :
    FuturePath K → FuturePath K → Prop where
  | refl {f : FuturePath K} : Polls bvh heap cfg m f f
  | step {f f' f'' : FuturePath K} {w : Bool} : Polls bvh heap cfg m f f' →
      f'.poll bvh heap cfg m = .ok (.pending w, f'') → Polls bvh heap cfg m f f''

end Polyanya
