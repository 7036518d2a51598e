import Verif.Model.Mesh
/-
Model of `src/input/trimesh.rs`.
-/

namespace Polyanya

variable {K : Type} [Scalar K]

/-- `Trimesh` (`trimesh.rs:42-49`); a triangle is `[usize; 3]`. -/
structure Trimesh (K : Type) where
  vertices : List (Vec2 K)
  triangles : List (Nat × Nat × Nat)

/-- The three indices of a triangle. -/
def triList (t : Nat × Nat × Nat) : List Nat := [t.1, t.2.1, t.2.2]

/-- `Triangle::position` for `Vec<u32>` (`trimesh.rs:37-39`). -/
def triPosition (vs : List UInt32) (index : Nat) : Res Nat :=
  match vs.findIdx? (fun i => i.toNat == index) with
  | some i => .ok i
  | none => .error .panic

/-- `get_clockwise_neighbor` for `Vec<u32>` (`trimesh.rs:28-31`). -/
def cwNeighbor (vs : List UInt32) (index : Nat) : Res Nat := do
  let position ← triPosition vs index
  let n ← idx vs ((position + 1) % vs.length)
  .ok n.toNat

/-- `get_counterclockwise_neighbor` for `Vec<u32>` (`trimesh.rs:33-36`). -/
def ccwNeighbor (vs : List UInt32) (index : Nat) : Res Nat := do
  let position ← triPosition vs index
  let n ← idx vs ((position + (vs.length - 1)) % vs.length)
  .ok n.toNat

/-- `to_vertices` (`trimesh.rs:124-144`). -/
def Trimesh.toVertices (t : Trimesh K) : List (Vertex K) :=
  t.vertices.zipIdx.map (fun ci => Vertex.new ci.1
    ((t.triangles.zipIdx.filter (fun tj => (triList tj.1).contains ci.2)).map (fun tj => UInt32.ofNat tj.2)))

/-- `to_polygons` (`trimesh.rs:146-161`). -/
def toPolygons (ts : List (Nat × Nat × Nat)) : List Polygon :=
  ts.map (fun t => Polygon.new ((triList t).map UInt32.ofNat) (ts.length == 1))

/-- `sort_by` with a comparison that says, for two elements, whether the first is less (`true`) or greater. The
comparison is no total order in general: `none` stands for the panic that Rust documents for this case. -/
abbrev TriSorter := (UInt32 → UInt32 → Bool) → List UInt32 → Option (List UInt32)

/-- `get_counterclockwise_edge` (`trimesh.rs:61-70`). -/
def ccwEdge (polygons : List Polygon) (unordered : List (Vertex K)) (vi : Nat) (coords : Vec2 K) (id : UInt32) :
    Res (Vec2 K) := do
  let p ← idx polygons id.toNat
  let n ← ccwNeighbor p.vertices vi
  let nb ← idx unordered n
  .ok (nb.coords - coords)

/-- `vertex.polygons.sort_by(..)` (`trimesh.rs:60-79`). With at least two elements, every element is compared. -/
def sortCcw (sorter : TriSorter) (polygons : List Polygon) (unordered : List (Vertex K)) (vi : Nat) (v : Vertex K) :
    Res (List UInt32) :=
  if v.polygons.length < 2 then .ok v.polygons
  else do
    let _ ← v.polygons.mapM (ccwEdge polygons unordered vi v.coords)
    match sorter (fun a b =>
        match ccwEdge polygons unordered vi v.coords a, ccwEdge polygons unordered vi v.coords b with
        | .ok ea, .ok eb => Scalar.lit 0 0 <. ea.perpDot eb
        | _, _ => false) v.polygons with
    | some l => .ok l
    | none => .error .panic

/-- One iteration of the loop that adds obstacles (`trimesh.rs:87-112`). -/
def gapStep (polygons : List Polygon) (vi : Nat) (acc : List UInt32) (q : UInt32) : Res (List UInt32) :=
  match acc.getLast? with
  | none => .error .panic
  | some last =>
    if last = u32Max then .ok (acc ++ [q])
    else do
      let lp ← idx polygons last.toNat
      let a ← ccwNeighbor lp.vertices vi
      let qp ← idx polygons q.toNat
      let b ← cwNeighbor qp.vertices vi
      if a ≠ b then .ok (acc ++ [u32Max] ++ [q]) else .ok (acc ++ [q])

/-- The neighbours of a vertex with obstacles (`trimesh.rs:85-116`). -/
def addGaps (polygons : List Polygon) (vi : Nat) (first : UInt32) (rest : List UInt32) : Res (List UInt32) := do
  let acc ← (rest ++ [first]).foldlM (gapStep polygons vi) [first]
  .ok (acc.drop 1)

/-- The loop over the vertices (`trimesh.rs:58-117`), which returns early if a vertex has no polygon. -/
def orderAll (sorter : TriSorter) (polygons : List Polygon) (unordered : List (Vertex K)) :
    List (Vertex K × Nat) → Res (Except MeshError (List (Vertex K)))
  | [] => .ok (.ok [])
  | (v, vi) :: vs => do
    let sorted ← sortCcw sorter polygons unordered vi v
    match sorted with
    | [] => .ok (.error .invalidMesh)
    | first :: rest => do
      let ps ← addGaps polygons vi first rest
      match ← orderAll sorter polygons unordered vs with
      | .error e => .ok (.error e)
      | .ok out => .ok (.ok (Vertex.new v.coords ps :: out))

/-- `TryFrom<Trimesh> for Mesh` (`trimesh.rs:51-122`). -/
def Trimesh.toMesh (sorter : TriSorter) (t : Trimesh K) : Res (Except MeshError (Mesh K)) := do
  let vertices := t.toVertices
  let polygons := toPolygons t.triangles
  match ← orderAll sorter polygons vertices vertices.zipIdx with
  | .error e => .ok (.error e)
  | .ok vs => Mesh.new vs polygons

end Polyanya
