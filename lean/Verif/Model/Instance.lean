import Verif.Model.Layer
/-
Model of `src/instance.rs` (the search) and of the types it uses from `src/lib.rs`.
-/

namespace Polyanya

variable {K : Type} [Scalar K]

/-- Compile-time feature `detailed-layers`. -/
structure Cfg where
  detailed : Bool
deriving DecidableEq, Repr

/-- `Mesh` (`lib.rs:74-83`). -/
structure Mesh (K : Type) where
  layers : List (Layer K)
  searchDelta : K
  searchSteps : Nat

/-- `Path` (`lib.rs:61-70`). `pathWithLayers` exists only with `detailed-layers`; it is `[]` otherwise. -/
structure Path (K : Type) where
  length : K
  path : List (Vec2 K)
  pathWithLayers : List (Vec2 K × UInt8)
deriving DecidableEq, Repr

/-- `SearchNode` (`lib.rs:614-626`). -/
structure SearchNode (K : Type) where
  path : List (Vec2 K)
  pathWithLayers : List (Vec2 K × Vec2 K × UInt8)
  root : Vec2 K
  interval : Vec2 K × Vec2 K
  edge : UInt32 × UInt32
  polygonFrom : UInt32
  polygonTo : UInt32
  previousPolygonLayer : UInt8
  distanceStartToRoot : K
  heuristic : K
deriving DecidableEq, Repr

/-- `Ord for SearchNode` (`lib.rs:656-669`). -/
def SearchNode.cmp (a b : SearchNode K) : Ordering :=
  match Scalar.totalCmp (a.distanceStartToRoot +. a.heuristic)
      (b.distanceStartToRoot +. b.heuristic) with
  | .lt => .gt
  | .eq => Scalar.totalCmp a.distanceStartToRoot b.distanceStartToRoot
  | .gt => .lt

/-- `BinaryHeap::pop`, for an arbitrary tie-break between equal maximal nodes: the queue is a list in
arbitrary order, `pop` removes one element that is maximal for `Ord`. The fields are the contract. -/
structure Heap (K : Type) [Scalar K] where
  pop : List (SearchNode K) → Option (SearchNode K × List (SearchNode K))
  pop_nil : pop [] = none
  pop_some : ∀ q, q ≠ [] → ∃ n r, pop q = some (n, r)
  pop_perm : ∀ q n r, pop q = some (n, r) → (n :: r).Perm q

/-- The additional contract of the heap: the popped node is maximal. It is kept separate because only
the best-first theorems need it (and it presupposes that `Ord` is lawful). -/
def Heap.Max (h : Heap K) : Prop :=
  ∀ q n r, h.pop q = some (n, r) → ∀ m ∈ q, m.cmp n ≠ .gt

/-- `SuccessorType` (`instance.rs:47-51`). -/
inductive SuccTy where
  | leftNonObservable
  | observable
  | rightNonObservable
deriving DecidableEq, Repr

/-- `Successor` (`instance.rs:54-58`). -/
structure Successor (K : Type) where
  interval : Vec2 K × Vec2 K
  edge : UInt32 × UInt32
  ty : SuccTy
deriving DecidableEq, Repr

/-- `SearchInstance` (`instance.rs:60-86`) without the borrowed mesh (passed separately) and the
statistics. `queue` is the content of the heap in arbitrary order, `rootHistory` the hash map keyed by
`Root` (whose `Eq` is `Vec2 ==`, `instance.rs:22-29`) as an association list. -/
structure Inst (K : Type) where
  queue : List (SearchNode K)
  nodeBuffer : List (SearchNode K)
  rootHistory : List (Vec2 K × K)
  start : Vec2 K × UInt8
  goal : Vec2 K
  polygonTo : UInt32
  blocked : List UInt8

/-- `root_history.get(&Root(r))`. -/
def histGet (h : List (Vec2 K × K)) (r : Vec2 K) : Option K :=
  (h.find? (fun e => e.1.beq r)).map (·.2)

/-- Insert into `root_history` under key `r`: replaces the value of the matching key if there is one. -/
def histSet : List (Vec2 K × K) → Vec2 K → K → List (Vec2 K × K)
  | [], r, v => [(r, v)]
  | e :: h, r, v => if e.1.beq r then (e.1, v) :: h else e :: histSet h r v

/-- The new known length computed by `add_node` (`instance.rs:550-571`). -/
def newDistance (cfg : Cfg) (mesh : Mesh K) (root : Vec2 K) (node : SearchNode K) : Res K :=
  if root.beq node.root then .ok node.distanceStartToRoot
  else if cfg.detailed then do
    let l ← idx mesh.layers (layerOf node.polygonTo).toNat
    .ok (node.distanceStartToRoot +. node.root.distance (root.cmul l.scale))
  else .ok (node.distanceStartToRoot +. node.root.distance root)

/-- The heuristic computed by `add_node` (`instance.rs:577-592`). With `detailed-layers` the code takes
`.layer()` of the *vertex indices* `start.1`, `end.1`. -/
def newHeuristic (cfg : Cfg) (mesh : Mesh K) (goal root : Vec2 K) (start stop : Vec2 K × UInt32) :
    Res K :=
  if cfg.detailed then do
    let l0 ← idx mesh.layers (layerOf start.2).toNat
    let l1 ← idx mesh.layers (layerOf stop.2).toNat
    .ok (heuristic root goal (start.1.cmul l0.scale, stop.1.cmul l1.scale))
  else .ok (heuristic root goal (start.1, stop.1))

/-- `path_with_layers` of the new node (`instance.rs:553-560` and `572-575`). -/
def newPathWithLayers (cfg : Cfg) (root : Vec2 K) (otherSide : UInt32) (start stop : Vec2 K)
    (node : SearchNode K) : List (Vec2 K × Vec2 K × UInt8) :=
  if cfg.detailed then
    let l := node.pathWithLayers
    let l := if root.beq node.root then l else l ++ [(root, root, layerOf node.polygonTo)]
    if layerOf otherSide ≠ layerOf node.polygonTo then l ++ [(start, stop, layerOf otherSide)] else l
  else []

/-- `SearchInstance::add_node` (`instance.rs:537-645`). -/
def Inst.addNode (cfg : Cfg) (mesh : Mesh K) (inst : Inst K) (root : Vec2 K) (otherSide : UInt32)
    (start stop : Vec2 K × UInt32) (node : SearchNode K) : Res (Inst K) := do
  let newF ← newDistance cfg mesh root node
  let h ← newHeuristic cfg mesh inst.goal root start stop
  if Scalar.isNan newF || Scalar.isNan h then .ok inst
  else
    let newNode : SearchNode K :=
      { path := if root.beq node.root then node.path else node.path ++ [root]
        pathWithLayers := newPathWithLayers cfg root otherSide start.1 stop.1 node
        root := root
        interval := (start.1, stop.1)
        edge := (start.2, stop.2)
        polygonFrom := node.polygonTo
        polygonTo := otherSide
        previousPolygonLayer := layerOf node.polygonTo
        distanceStartToRoot := newF
        heuristic := h }
    match histGet inst.rootHistory root with
    | some o =>
      if o <. newF then .ok inst
      else .ok { inst with
                  rootHistory := histSet inst.rootHistory root newF
                  nodeBuffer := inst.nodeBuffer ++ [newNode] }
    | none => .ok { inst with
                  rootHistory := histSet inst.rootHistory root newF
                  nodeBuffer := inst.nodeBuffer ++ [newNode] }

/-- `SearchInstance::flush_nodes` (`instance.rs:649-665`). -/
def Inst.flushNodes (inst : Inst K) : Inst K :=
  { inst with queue := inst.queue ++ inst.nodeBuffer, nodeBuffer := [] }

/-- The polygon on the other side of an edge (`instance.rs:187-192` and `714-719`): the first polygon
listed by both end vertices, other than `current`; `u32::MAX` if there is none. -/
def otherSideOf (start stop : Vertex K) (current : UInt32) : UInt32 :=
  ((start.polygons.filter (fun i => i ≠ u32Max && stop.polygons.contains i)).find?
    (fun p => p ≠ current)).getD u32Max

/-- One edge of the loop in `setup` (`instance.rs:176-212`). -/
def setupEdge (cfg : Cfg) (mesh : Mesh K) (fromLayer : Layer K) (src : Vec2 K × UInt32)
    (dst : Vec2 K × UInt32) (emptyNode : SearchNode K) (inst : Inst K) (edge : UInt32 × UInt32) :
    Res (Inst K) :=
  match fromLayer.vertices[edge.1.toNat]?, fromLayer.vertices[edge.2.toNat]? with
  | some start, some stop => do
    let otherSide := otherSideOf start stop src.2
    if inst.blocked.contains (layerOf otherSide) then .ok inst
    else
      let go ← (if otherSide = dst.2 then .ok true
        else if otherSide = u32Max then .ok false
        else do
          let l ← idx mesh.layers (layerOf otherSide).toNat
          let p ← idx l.polygons (polygonOf otherSide).toNat
          .ok (!p.isOneWay) : Res Bool)
      if go then
        inst.addNode cfg mesh src.1 otherSide
          (start.coords + fromLayer.offset, edge.1) (stop.coords + fromLayer.offset, edge.2) emptyNode
      else .ok inst
  | _, _ => .ok inst

/-- The `empty_node` of `setup` (`instance.rs:160-173`). -/
def emptyNode (src : Vec2 K × UInt32) : SearchNode K :=
  { path := [], pathWithLayers := [], root := src.1,
    interval := (Vec2.zero, Vec2.zero), edge := (0, 0),
    polygonFrom := src.2, polygonTo := src.2, previousPolygonLayer := layerOf src.2,
    distanceStartToRoot := Scalar.lit 0 0, heuristic := Scalar.lit 0 0 }

/-- `SearchInstance::setup` (`instance.rs:120-216`). -/
def Inst.setup (cfg : Cfg) (mesh : Mesh K) (src dst : Vec2 K × UInt32) (blocked : List UInt8) :
    Res (Inst K) := do
  let fromLayer ← idx mesh.layers (layerOf src.2).toNat
  let startingPolygon ← idx fromLayer.polygons (polygonOf src.2).toNat
  let inst : Inst K :=
    { queue := [], nodeBuffer := [], rootHistory := [(src.1, Scalar.lit 0 0)],
      start := (src.1, layerOf src.2), goal := dst.1, polygonTo := dst.2, blocked := blocked }
  let edges ← startingPolygon.edgesIndex
  let inst ← edges.foldlM (setupEdge cfg mesh fromLayer src dst (emptyNode src)) inst
  .ok inst.flushNodes

/-- `distance_squared` thresholds of `edges_between`. -/
def tol6 : K := Scalar.lit 1 6

/-- `const EPSILON: f32 = 1.0e-10` in `successors` (`instance.rs:769`) and the zero-length test (`846`). -/
def tol10 : K := Scalar.lit 1 10

/-- First part of the loop body of `edges_between` (`instance.rs:428-474`): left end of the edge against
the right end of the interval. Returns the successors pushed, the possibly moved start point and `ty`. -/
def edgeStartStep (root int0 sp ep : Vec2 K) (edge : UInt32 × UInt32) (ty : SuccTy) :
    List (Successor K) × Vec2 K × SuccTy :=
  match side sp (root, int0) with
  | .right =>
    match lineIntersectSegment (root, int0) (sp, ep) with
    | some it =>
      let farStart := tol6 <. it.distanceSquared sp
      let farEnd := tol6 <. it.distanceSquared ep
      let ty' := if farEnd then .observable else ty
      if farStart && farEnd then ([{ interval := (sp, it), edge := edge, ty := ty }], it, ty')
      else ([], sp, ty')
    | none => ([], sp, ty)
  | .left => ([], sp, if ty = .rightNonObservable then .observable else ty)
  | .edge =>
    match side ep (root, int0) with
    | .edge => ([], sp, .observable)
    | .left => ([], sp, .observable)
    | .right => ([], sp, ty)

/-- Second part of the loop body of `edges_between` (`instance.rs:475-528`): right end of the edge
against the left end of the interval. -/
def edgeEndStep (root int0 int1 sp ep : Vec2 K) (edge : UInt32 × UInt32) (ty : SuccTy) :
    List (Successor K) × SuccTy :=
  let endSide := side ep (root, int1)
  let hit := if endSide = .left then lineIntersectSegment (root, int1) (sp, ep) else none
  let endIntersection : Option (Vec2 K) := hit.filter (fun it => tol6 <. it.distanceSquared ep)
  let main : Successor K := { interval := (sp, endIntersection.getD ep), edge := edge, ty := ty }
  match endSide with
  | .left =>
    let ty' := if hit.isSome then .leftNonObservable else ty
    match endIntersection with
    | some it => ([main, { interval := (it, ep), edge := edge, ty := ty' }], ty')
    | none => ([main], ty')
  | .edge =>
    match side ep (root, int0) with
    | .edge => ([main], .leftNonObservable)
    | .left => ([main], .leftNonObservable)
    | .right => ([main], ty)
  | .right => ([main], ty)

/-- One iteration of the loop of `edges_between` (`instance.rs:397-529`). The guard
`edge[0].max(edge[1]) as usize > target_layer.vertices.len()` is followed by `get_unchecked`. -/
def edgesBetweenStep (layer : Layer K) (node : SearchNode K)
    (st : List (Successor K) × SuccTy) (edge : UInt32 × UInt32) :
    Res (List (Successor K) × SuccTy) :=
  if (max edge.1 edge.2).toNat > layer.vertices.length then .ok st
  else do
    let start ← idxUnchecked layer.vertices edge.1.toNat
    let stop ← idxUnchecked layer.vertices edge.2.toNat
    let sp := start.coords + layer.offset
    let ep := stop.coords + layer.offset
    let (out1, sp, ty) := edgeStartStep node.root node.interval.1 sp ep edge st.2
    let (out2, ty) := edgeEndStep node.root node.interval.1 node.interval.2 sp ep edge ty
    .ok (st.1 ++ out1 ++ out2, ty)

/-- The index of the polygon vertex closest to the right end of the edge (`instance.rs:365-392`): first
vertex within squared distance 0.001, else the closest one. `distances.sort_by(partial_cmp.unwrap())`
panics on NaN (when there are at least two), `first().unwrap()` on an empty polygon. -/
def rightIndex (layer : Layer K) (p : Polygon) (edge : Vec2 K) : Res Nat := do
  let near ← findFirst (fun (v : UInt32 × Nat) => do
    let vx ← idx layer.vertices v.1.toNat
    .ok (if (vx.coords + layer.offset).distanceSquared edge <. Scalar.lit 1 3 then some v.2 else none))
    p.vertices.zipIdx
  match near with
  | some i => .ok i
  | none => do
    let ds ← p.vertices.zipIdx.mapM (fun v => do
      let vx ← idx layer.vertices v.1.toNat
      .ok (v.2, (vx.coords + layer.offset).distanceSquared edge))
    if ds.length ≥ 2 && ds.any (fun d => Scalar.isNan d.2) then .error .panic
    else match (ds.mergeSort (fun a b => a.2 <=. b.2)).head? with
      | some d => .ok d.1
      | none => .error .panic

/-- `SearchInstance::edges_between` (`instance.rs:344-533`). -/
def edgesBetween (mesh : Mesh K) (node : SearchNode K) : Res (List (Successor K)) := do
  let layer ← idx mesh.layers (layerOf node.polygonTo).toNat
  let polygon ← idx layer.polygons (polygonOf node.polygonTo).toNat
  let prev ← idx mesh.layers node.previousPolygonLayer.toNat
  let ev ← idx prev.vertices node.edge.2.toNat
  let ri ← rightIndex layer polygon (ev.coords + prev.offset)
  let right := ri + 1
  let left := polygon.vertices.length + right - 2
  let edges ← polygon.circularEdgesIndex right left
  let r ← edges.foldlM (edgesBetweenStep layer node) ([], .rightNonObservable)
  .ok r.1

/-- Can the search bend at this vertex (`instance.rs:786-790` and `817-821`): it is a corner, or layers
are blocked and it touches the outside or a blocked layer. -/
def canTurnAt (blocked : List UInt8) (v : Vertex K) : Bool :=
  v.isCorner || (!blocked.isEmpty &&
    v.polygons.any (fun p => p == u32Max || blocked.contains (layerOf p)))

/-- The root of a successor (`instance.rs:770-839`); `none` is `continue`. -/
def successorRoot (mesh : Mesh K) (blocked : List UInt8) (node : SearchNode K) (layer : Layer K)
    (start stop : Vertex K) (s : Successor K) : Res (Option (Vec2 K)) :=
  match s.ty with
  | .rightNonObservable =>
    if tol10 <. s.interval.1.distanceSquared (start.coords + layer.offset) then .ok none
    else do
      let prev ← idx mesh.layers node.previousPolygonLayer.toNat
      let v ← idx prev.vertices node.edge.1.toNat
      if canTurnAt blocked v && (v.coords + prev.offset).distanceSquared node.interval.1 <. tol10 then
        .ok (some node.interval.1)
      else .ok none
  | .observable => .ok (some node.root)
  | .leftNonObservable =>
    if tol10 <. s.interval.2.distanceSquared (stop.coords + layer.offset) then .ok none
    else do
      let prev ← idx mesh.layers node.previousPolygonLayer.toNat
      let v ← idx prev.vertices node.edge.2.toNat
      if canTurnAt blocked v && (v.coords + prev.offset).distanceSquared node.interval.2 <. tol10 then
        .ok (some node.interval.2)
      else .ok none

/-- One successor in the loop of `successors` (`instance.rs:689-863`). -/
def expandOne (cfg : Cfg) (mesh : Mesh K) (node : SearchNode K) (inst : Inst K) (s : Successor K) :
    Res (Inst K) := do
  let layer ← idx mesh.layers (layerOf node.polygonTo).toNat
  let start ← idxUnchecked layer.vertices s.edge.1.toNat
  let stop ← idxUnchecked layer.vertices s.edge.2.toNat
  let otherSide := otherSideOf start stop node.polygonTo
  if otherSide = u32Max then .ok inst
  else if inst.blocked.contains (layerOf otherSide) then .ok inst
  else
    let deadEnd ← (if inst.polygonTo ≠ otherSide then do
        let l ← idx mesh.layers (layerOf otherSide).toNat
        let p ← idx l.polygons (polygonOf otherSide).toNat
        .ok p.isOneWay
      else .ok false : Res Bool)
    if deadEnd then .ok inst
    else if node.polygonFrom = otherSide then .ok inst
    else
      match ← successorRoot mesh inst.blocked node layer start stop s with
      | none => .ok inst
      | some root =>
        if s.interval.1.distanceSquared s.interval.2 <. tol10 then .ok inst
        else inst.addNode cfg mesh root otherSide (s.interval.1, s.edge.1) (s.interval.2, s.edge.2) node

/-- "Going the exact reverse way as we went into this polygon" (`instance.rs:878-883`). -/
def isReverse (node previous : SearchNode K) : Bool :=
  node.root.beq previous.root && node.polygonTo == previous.polygonFrom
    && node.polygonFrom == previous.polygonTo
    && node.interval.1.beq previous.interval.2 && node.interval.2.beq previous.interval.1

/-- The loop of `successors` (`instance.rs:676-913`), without the final flush. `visited` is the set of
intermediate polygons. -/
def successorsLoop (cfg : Cfg) (mesh : Mesh K) : Nat → List UInt32 → SearchNode K → Inst K →
    Res (Inst K)
  | 0, _, _, _ => .error .fuel
  | fuel + 1, visited, node, inst => do
    let succs ← edgesBetween mesh node
    let inst ← succs.foldlM (expandOne cfg mesh node) inst
    match inst.nodeBuffer with
    | [next] =>
      if next.polygonTo ≠ inst.polygonTo then
        let inst := { inst with nodeBuffer := [] }
        if isReverse next node then .ok inst
        else if visited.contains next.polygonTo then .ok inst
        else successorsLoop cfg mesh fuel (next.polygonTo :: visited) next inst
      else .ok inst
    | _ => .ok inst

/-- Fuel for `successorsLoop`: more than the number of distinct `u32`. -/
def succFuel : Nat := 2 ^ 32 + 1

/-- `SearchInstance::successors` (`instance.rs:675-915`). -/
def Inst.successors (cfg : Cfg) (mesh : Mesh K) (inst : Inst K) (node : SearchNode K) :
    Res (Inst K) := do
  let inst ← successorsLoop cfg mesh succFuel [] node inst
  .ok inst.flushNodes

/-- `InstanceStep` (`instance.rs:88-92`). -/
inductive Step (K : Type) where
  | found (p : Path K)
  | notFound
  | continue

/-- The end of the path (`instance.rs:262-271`): the turning point, if any, and the destination, with
their layer. -/
def pathEnd (inst : Inst K) (next : SearchNode K) : List (Vec2 K × UInt8) :=
  (match turningPoint next.root inst.goal next.interval with
    | some t => [(t, layerOf next.polygonTo)]
    | none => []) ++ [(inst.goal, layerOf next.polygonTo)]

/-- Resolution of the layer changes (`instance.rs:274-298`): `rest` is what remains of
`next.path_with_layers`, `last` is `path_with_layers_end[0].0`. -/
def resolveLayers (last : Vec2 K) : Vec2 K → List (Vec2 K × Vec2 K × UInt8) → List (Vec2 K × UInt8)
  | _, [] => []
  | frm, p :: rest =>
    if p.1.beq p.2.1 then (p.1, p.2.2) :: resolveLayers last p.1 rest
    else
      let to := ((rest.find? (fun q => q.1.beq q.2.1)).map (·.1)).getD last
      match lineIntersectSegment (frm, to) (p.1, p.2.1) with
      | some it => (it, p.2.2) :: resolveLayers last it rest
      | none => resolveLayers last frm rest

/-- Dropping of points that are too close to the next one (`instance.rs:300-310`). -/
def dropClose : List (Vec2 K × UInt8) → List (Vec2 K × UInt8)
  | [] => []
  | [p] => [p]
  | p :: n :: rest =>
    if p.1.distanceSquared n.1 <. epsilon then dropClose (n :: rest)
    else p :: dropClose (n :: rest)

/-- The detailed length (`instance.rs:319-326`): a fold over `path_with_layers` from `self.from`. -/
def detailedLength (mesh : Mesh K) : K → Vec2 K × UInt8 → List (Vec2 K × UInt8) → Res K
  | acc, _, [] => .ok acc
  | acc, cur, p :: rest => do
    let l ← idx mesh.layers cur.2.toNat
    detailedLength mesh (acc +. (cur.1.cmul l.scale).distance (p.1.cmul l.scale)) p rest

/-- The path returned when the popped node enters the target polygon (`instance.rs:260-329`). -/
def foundPath (cfg : Cfg) (mesh : Mesh K) (inst : Inst K) (next : SearchNode K) : Res (Path K) := do
  let ends := pathEnd inst next
  let path := next.path ++ ends.map (·.1)
  if cfg.detailed then
    let last := (ends.head?.map (·.1)).getD inst.goal
    let pwl := dropClose (resolveLayers last inst.start.1 next.pathWithLayers ++ ends)
    let len ← detailedLength mesh (Scalar.lit 0 0) inst.start pwl
    .ok { length := len, path := path, pathWithLayers := pwl }
  else
    .ok { length := next.distanceStartToRoot +. next.heuristic, path := path, pathWithLayers := [] }

/-- Is the popped node dominated (`instance.rs:228-241`)? -/
def isDominated (inst : Inst K) (next : SearchNode K) : Bool :=
  match histGet inst.rootHistory next.root with
  | some o => o <. next.distanceStartToRoot
  | none => false

/-- `SearchInstance::next` (`instance.rs:218-340`). -/
def Inst.next (heap : Heap K) (cfg : Cfg) (mesh : Mesh K) (inst : Inst K) :
    Res (Step K × Inst K) :=
  match heap.pop inst.queue with
  | none => .ok (.notFound, inst)
  | some (next, rest) =>
    let inst := { inst with queue := rest }
    if isDominated inst next then .ok (.continue, inst)
    else if next.polygonTo = inst.polygonTo then do
      let p ← foundPath cfg mesh inst next
      .ok (.found p, inst)
    else do
      let inst ← inst.successors cfg mesh next
      .ok (.continue, inst)

end Polyanya
