import Verif.Model.Scalar
/-
Model of `src/primitives.rs`, of the packed polygon ids (`src/instance.rs:94-117`) and of faults.
-/

namespace Polyanya

/-- Abnormal terminations: a Rust panic, an out-of-bounds `get_unchecked` (undefined behaviour),
or exhausted fuel (only in the model: a loop that did not finish). -/
inductive Fault where
  | panic
  | ub
  | fuel
deriving DecidableEq, Repr

/-- Result of a Rust function that may fault. -/
abbrev Res (α : Type) := Except Fault α

/-- Checked indexing `l[i]`: panics when out of range. -/
def idx {α : Type} (l : List α) (i : Nat) : Res α :=
  match l[i]? with
  | some a => .ok a
  | none => .error .panic

/-- `l.get_unchecked(i)`: undefined behaviour when out of range. -/
def idxUnchecked {α : Type} (l : List α) (i : Nat) : Res α :=
  match l[i]? with
  | some a => .ok a
  | none => .error .ub

/-- `iter.find_map` with a closure that may fault; evaluation stops at the first `some`. -/
def findFirst {α β : Type} (f : α → Res (Option β)) : List α → Res (Option β)
  | [] => .ok none
  | a :: l => do
    match ← f a with
    | some b => .ok (some b)
    | none => findFirst f l

/-- `u32::MAX`, the marker for "outside of the mesh". -/
def u32Max : UInt32 := 4294967295

/-- `U32Layer::layer`: `(*self >> 24) as u8` (`instance.rs:103-106`). -/
def layerOf (i : UInt32) : UInt8 := (i >>> 24).toUInt8

/-- `U32Layer::polygon`: `*self & 0x00ff_ffff` (`instance.rs:108-111`). -/
def polygonOf (i : UInt32) : UInt32 := i &&& 16777215

/-- `U32Layer::from_layer_and_polygon`: `((layer as u32) << 24) | polygon` (`instance.rs:113-116`). -/
def packId (layer : UInt8) (polygon : UInt32) : UInt32 := (layer.toUInt32 <<< 24) ||| polygon

/-- `Vertex` (`primitives.rs:17-26`). -/
structure Vertex (K : Type) where
  coords : Vec2 K
  polygons : List UInt32
  isCorner : Bool
deriving DecidableEq, Repr

/-- `Vertex::new` (`primitives.rs:28-37`). -/
def Vertex.new {K : Type} (coords : Vec2 K) (polygons : List UInt32) : Vertex K :=
  { coords := coords, isCorner := polygons.contains u32Max, polygons := polygons }

/-- `Polygon` (`primitives.rs:42-48`). -/
structure Polygon where
  vertices : List UInt32
  isOneWay : Bool
deriving DecidableEq, Repr

/-- `Polygon::EMPTY` (`primitives.rs:54-57`). -/
def Polygon.empty : Polygon := { vertices := [], isOneWay := false }

/-- `Polygon::new` (`primitives.rs:60-65`). -/
def Polygon.new (vertices : List UInt32) (isOneWay : Bool) : Polygon :=
  { vertices := vertices, isOneWay := isOneWay }

/-- The loop over neighbours of `Polygon::using` (`primitives.rs:76-85`): `found` is `found_trav`;
the result is the final `is_one_way`, which started as `oneWay`. -/
def usingLoop (oneWay : Bool) : Bool → List Int → Bool
  | _, [] => oneWay
  | found, n :: l =>
    if n ≠ -1 then
      if found then false else usingLoop oneWay true l
    else usingLoop oneWay found l

/-- `v as u32` from an `isize`: wraps modulo `2^32`. -/
def isizeAsU32 (v : Int) : UInt32 := UInt32.ofNat (v % 4294967296).toNat

/-- `Polygon::using` (`primitives.rs:67-90`). `split_at` panics when `nb` exceeds the length. -/
def Polygon.using (nb : Nat) (data : List Int) : Res Polygon :=
  if data.length < nb then .error .panic
  else
    let vertices := data.take nb
    let neighbours := data.drop nb
    .ok { vertices := vertices.map isizeAsU32,
          isOneWay := usingLoop (!neighbours.isEmpty) false neighbours }

/-- `slice.windows(2)` as pairs. -/
def windows2 {α : Type} (l : List α) : List (α × α) := l.zip l.tail

/-- `Polygon::edges_index` (`primitives.rs:94-102`): consecutive pairs, then (last, first).
`self.vertices[self.vertices.len() - 1]` is evaluated when the iterator is built, so it panics on
an empty polygon. -/
def Polygon.edgesIndex (p : Polygon) : Res (List (UInt32 × UInt32)) :=
  match p.vertices with
  | [] => .error .panic
  | v :: vs => .ok (windows2 (v :: vs) ++ [((v :: vs).getLast (by simp), v)])

/-- `Polygon::circular_edges_index` (`primitives.rs:119-129`). -/
def Polygon.circularEdgesIndex (p : Polygon) (first last : Nat) : Res (List (UInt32 × UInt32)) := do
  let e ← p.edgesIndex
  .ok (((e ++ e).drop first).take (last + 1 - first))

end Polyanya
