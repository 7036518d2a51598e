import Verif.Model.Mesh
import Mathlib.Data.List.Sort
/-
Model of `src/merger.rs`.
-/

namespace Polyanya

variable {K : Type} [Scalar K]

/-! ### `UnionFind` (`merger.rs:138-183`)

`parent: Vec<i32>` is a list of natural numbers: the only negative number the code handles is `-1`
(`find(-1) = -1`), which no call passes (`other_side` is never `u32::MAX`, the others are indices); other
negative numbers index out of range and panic, like the numbers above `2^31` they come from. -/

/-- `UnionFind::new` (`merger.rs:144-148`). -/
def ufNew (n : Nat) : List Nat := List.range n

/-- `UnionFind::find` (`merger.rs:161-171`); the recursion is given fuel. -/
def ufFind (parent : List Nat) : Nat → Nat → Res Nat
  | 0, _ => .error .fuel
  | fuel + 1, x => do
    let p ← idx parent x
    if p ≠ x then ufFind parent fuel p else .ok p

/-- `UnionFind::find_and_update` (`merger.rs:150-159`). -/
def ufFindUpdate : Nat → List Nat → Nat → Res (Nat × List Nat)
  | 0, _, _ => .error .fuel
  | fuel + 1, parent, x => do
    let p ← idx parent x
    if p ≠ x then do
      let (r, parent) ← ufFindUpdate fuel parent p
      .ok (r, parent.set x r)
    else .ok (p, parent)

/-- Fuel for one `find`: there are no longer chains. -/
def ufFuel (parent : List Nat) : Nat := parent.length + 1

/-- `UnionFind::union` (`merger.rs:173-177`). -/
def ufUnion (parent : List Nat) (x y : Nat) : Res (List Nat) := do
  let (x, parent) ← ufFindUpdate (ufFuel parent) parent x
  let (y, parent) ← ufFindUpdate (ufFuel parent) parent y
  let _ ← idx parent y
  .ok (parent.set y x)

/-! ### `Layer::merge_polygons` (`merger.rs:25-135`) -/

/-- The functions of the external crate `geo` used for merging. -/
structure Geo (K : Type) where
  /-- `Polygon::unsigned_area` of the ring through these points (`primitives.rs:131-146`) -/
  area : List (Vec2 K) → K
  /-- `LineString::is_ccw_convex` of the closed line string through these points (`merger.rs:92-94`) -/
  ccwConvex : List (Vec2 K) → Bool

/-- The coordinates of a list of vertices; `self.vertices[*i as usize]` panics out of range. -/
def Layer.coordsOf (l : Layer K) (vs : List UInt32) : Res (List (Vec2 K)) :=
  vs.mapM (fun v => do
    let vx ← idx l.vertices v.toNat
    .ok vx.coords)

/-- The joined vertex list (`merger.rs:70-91`): `poly` from `edge[1]` up to before `edge[0]`, then `other`
from `edge[0]` up to before `edge[1]`. -/
def joinVertices (poly other : List UInt32) (e : UInt32 × UInt32) : List UInt32 :=
  ((poly ++ poly).dropWhile (· != e.2)).takeWhile (· != e.1)
    ++ ((other ++ other).dropWhile (· != e.1)).takeWhile (· != e.2)

/-- The state of the merging loop: the polygons and the union-find structure. -/
structure MergeState where
  polygons : List Polygon
  parent : List Nat

/-- One edge (`merger.rs:42-100`) of polygon `i` with vertices `poly`: `some` is a merge followed by `break`,
`none` is `continue`. `Vec::with_capacity(a + b - 2)` panics if the sum is below 2. -/
def Layer.mergeEdge (geo : Geo K) (l : Layer K) (st : MergeState) (i : Nat) (poly : List UInt32)
    (e : UInt32 × UInt32) : Res (Option MergeState) :=
  match l.vertices[e.1.toNat]?, l.vertices[e.2.toNat]? with
  | some start, some stop =>
    let otherSide := (start.polygons.find? (fun p =>
      p != u32Max && p != UInt32.ofNat i && stop.polygons.contains p)).getD u32Max
    if otherSide = u32Max then .ok none
    else do
      let r ← ufFind st.parent (ufFuel st.parent) otherSide.toNat
      if r ≠ otherSide.toNat then .ok none
      else do
        let other ← idx st.polygons otherSide.toNat
        if poly.length + other.vertices.length < 2 then .error .panic
        else do
          let joined := joinVertices poly other.vertices e
          let cs ← l.coordsOf joined
          if geo.ccwConvex cs then do
            let parent ← ufUnion st.parent i otherSide.toNat
            .ok (some { polygons := st.polygons.set i { vertices := joined, isOneWay := false },
                        parent := parent })
          else .ok none
  | _, _ => .ok none

/-- One polygon of the merging loop (`merger.rs:36-101`). -/
def Layer.mergeOne (geo : Geo K) (l : Layer K) (st : MergeState) (i : Nat) : Res MergeState := do
  let r ← ufFind st.parent (ufFuel st.parent) i
  if r ≠ i then .ok st
  else do
    let poly ← idx st.polygons i
    let edges ← poly.edgesIndex
    let r ← findFirst (l.mergeEdge geo st i poly.vertices) edges
    .ok (r.getD st)

/-- The order in which polygons are processed (`merger.rs:27-34`): by decreasing area, stable.
`partial_cmp(..).unwrap()` panics on NaN when there are at least two polygons. -/
def Layer.mergeOrder (geo : Geo K) (l : Layer K) : Res (List Nat) := do
  let areas ← l.polygons.zipIdx.mapM (fun p => do
    let cs ← l.coordsOf p.1.vertices
    .ok (p.2, geo.area cs))
  if areas.length ≥ 2 && areas.any (fun a => Scalar.isNan a.2) then .error .panic
  else .ok ((areas.insertionSort (fun a b => (b.2 <=. a.2) = true)).map (·.1))

/-- The state of the renumbering loop: `new_indexes` (`u32::MAX` is `none`), `kept`, the polygons. -/
structure CompactState where
  new : List (Option Nat)
  kept : Nat
  polygons : List Polygon

/-- `slice.swap(i, j)`. -/
def swapAt (l : List Polygon) (i j : Nat) : Res (List Polygon) := do
  let a ← idx l i
  let b ← idx l j
  .ok ((l.set i b).set j a)

/-- The first half of one iteration of the renumbering loop (`merger.rs:106-110`): number the root. -/
def CompactState.number (st : CompactState) (root : Nat) : Res (CompactState × Nat) := do
  let o ← idx st.new root
  match o with
  | some j => .ok (st, j)
  | none => .ok ({ st with new := st.new.set root (some st.kept), kept := st.kept + 1 }, st.kept)

/-- One iteration of the renumbering loop (`merger.rs:105-119`). -/
def compactStep (parent : List Nat) (st : CompactState) (i : Nat) : Res CompactState := do
  let p ← idx parent i
  let root ← ufFind parent (ufFuel parent) p
  let (st, j) ← st.number root
  if i = root then
    if i ≠ j then do
      let ps ← swapAt st.polygons i j
      .ok { st with polygons := ps }
    else .ok st
  else .ok { st with new := st.new.set i (some j) }

/-- `Vec::dedup`: removes consecutive duplicates. -/
def dedupList {α : Type} [DecidableEq α] : List α → List α
  | [] => []
  | [a] => [a]
  | a :: b :: l => if a = b then dedupList (b :: l) else a :: dedupList (b :: l)

/-- The new number of a polygon listed by a vertex (`merger.rs:123-127`). -/
def renumber (new : List (Option Nat)) (p : UInt32) : Res UInt32 :=
  if p = u32Max then .ok p
  else do
    let o ← idx new p.toNat
    .ok ((o.map UInt32.ofNat).getD u32Max)

/-- The new neighbour list of a vertex (`merger.rs:122-130`). -/
def mergeVertex (new : List (Option Nat)) (v : Vertex K) : Res (Vertex K) := do
  let ps ← v.polygons.mapM (renumber new)
  .ok { v with polygons := dedupList ps }

/-- `Layer::merge_polygons` (`merger.rs:25-135`). `resize_with(kept, unreachable!)` panics when the list
is shorter than `kept`. -/
def Layer.mergePolygons (geo : Geo K) (l : Layer K) : Res (Layer K × Bool) := do
  let l := l.unbake
  let order ← l.mergeOrder geo
  let st ← order.foldlM (l.mergeOne geo) { polygons := l.polygons, parent := ufNew l.polygons.length }
  let cst ← (List.range st.parent.length).foldlM (compactStep st.parent)
    { new := List.replicate l.polygons.length none, kept := 0, polygons := st.polygons }
  if cst.polygons.length < cst.kept then .error .panic
  else do
    let vs ← l.vertices.mapM (mergeVertex cst.new)
    .ok ({ l with polygons := cst.polygons.take cst.kept, vertices := vs },
      decide (cst.new.length ≠ cst.kept))

/-- The layers of `Mesh::merge_polygons` (`merger.rs:12-18`): `iter_mut().map(merge).all(|m| !m)` stops at the
first layer in which something was merged. -/
def mergeLayers (geo : Geo K) : List (Layer K) → Res (List (Layer K) × Bool)
  | [] => .ok ([], false)
  | l :: ls => do
    let (l, b) ← l.mergePolygons geo
    if b then .ok (l :: ls, true)
    else do
      let (ls, b) ← mergeLayers geo ls
      .ok (l :: ls, b)

/-- `Mesh::merge_polygons` (`merger.rs:12-18`). -/
def Mesh.mergePolygons (geo : Geo K) (m : Mesh K) : Res (Mesh K × Bool) := do
  let (ls, b) ← mergeLayers geo m.layers
  .ok ({ m with layers := ls }, b)

end Polyanya
