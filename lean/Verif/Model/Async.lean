import Verif.Model.Mesh
/-
Model of `src/async_helpers.rs`.
-/

namespace Polyanya

variable {K : Type} [Scalar K]

/-- `FuturePath` (`async_helpers.rs:15-21`), without the borrowed mesh. -/
structure FuturePath (K : Type) where
  src : Vec2 K
  dst : Vec2 K
  instance? : Option (Inst K)
  endingPolygon : UInt32

/-- `Mesh::get_path` (`lib.rs:216-224`). -/
def Mesh.getPath (src dst : Vec2 K) : FuturePath K :=
  { src := src, dst := dst, instance? := none, endingPolygon := u32Max }

/-- `Poll<Option<Path>>`; `woken` records whether `cx.waker().wake_by_ref()` was called. -/
inductive Poll (K : Type) where
  | ready (r : Option (Path K))
  | pending (woken : Bool)

/-- The `for _i in 0..3` loop of `poll` (`async_helpers.rs:40-46`): `n` iterations remain. -/
def pollSteps (heap : Heap K) (cfg : Cfg) (mesh : Mesh K) : Nat → Inst K →
    Res (Option (Option (Path K)) × Inst K)
  | 0, inst => .ok (none, inst)
  | n + 1, inst => do
    let (step, inst) ← inst.next heap cfg mesh
    match step with
    | .found p => .ok (some (some p), inst)
    | .notFound => .ok (some none, inst)
    | .continue => pollSteps heap cfg mesh n inst

/-- The island test of `poll` (`async_helpers.rs:61-75`): same layer, and the *packed* ids are used as
indices into the islands of that layer. -/
def Mesh.islandsDifferAsync (m : Mesh K) (s e : UInt32) : Res Bool :=
  if layerOf s = layerOf e then do
    let l ← idx m.layers (layerOf s).toNat
    match l.islands with
    | none => .ok false
    | some isl =>
      match isl[s.toNat]?, isl[e.toNat]? with
      | some a, some b => .ok (a ≠ b)
      | _, _ => .ok false
  else .ok false

/-- `FuturePath::poll` (`async_helpers.rs:35-111`). -/
def FuturePath.poll (bvh : Bvh K) (heap : Heap K) (cfg : Cfg) (mesh : Mesh K) (f : FuturePath K) :
    Res (Poll K × FuturePath K) :=
  match f.instance? with
  | some inst => do
    let (r, inst) ← pollSteps heap cfg mesh 3 inst
    let f := { f with instance? := some inst }
    match r with
    | some p => .ok (.ready p, f)
    | none => .ok (.pending true, f)
  | none => do
    let s ← mesh.getPointLocation bvh (Coords.onMesh f.src)
    if s = u32Max then .ok (.ready none, f)
    else
      let e ← mesh.getPointLocation bvh (Coords.onMesh f.dst)
      if e = u32Max then .ok (.ready none, f)
      else if ← mesh.islandsDifferAsync s e then .ok (.ready none, f)
      else if s = e then
        .ok (.ready (some { length := f.src.distance f.dst, path := [f.dst],
                            pathWithLayers := if cfg.detailed then [(f.dst, layerOf e)] else [] }), f)
      else
        let inst ← Inst.setup cfg mesh (f.src, s) (f.dst, e) []
        .ok (.pending true, { f with instance? := some inst, endingPolygon := e })

end Polyanya
