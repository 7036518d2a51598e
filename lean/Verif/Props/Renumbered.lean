import Verif.Proofs.Renumbered
import Verif.Proofs.Locate
import Verif.Props.Islands
import Verif.Props.Alike
import Verif.Spec.RatScalar
import Mathlib.Logic.Equiv.Basic
/-
C69: answers do not depend on how the polygons are numbered, nor on how they are divided into layers.
-/

namespace Polyanya

set_option linter.unusedSectionVars false

variable {K : Type} [Scalar K] {m m' : Mesh K} {π : UInt32 → UInt32}

/-- C69: two meshes that consist of the same polygons give the same answer (the same path, no path in both, or the
same fault in both), however the polygons and vertices are numbered, and however the polygons are divided into
(stitched) layers. The ends of the query are in corresponding polygons, and corresponding polygons are blocked.
With `detailed-layers`, polygons keep their layers, layers their scales, and vertex numbers are below `2^24` (paths
name layers). The islands are not baked. -/
theorem C69_path (bvh bvh' : Bvh K) {heap : Heap K} (hh : heap.ByCost) (cfg : Cfg)
    (hd : cfg.detailed = true → (∀ q, layerOf (π q) = layerOf q) ∧ SameScales m m' ∧ m.SmallNumbers ∧ m'.SmallNumbers)
    (h : SamePolygons π m m') (hl : m.ListsPolygons) (hi : m.NoIslands) (hi' : m'.NoIslands)
    {B B' : List UInt8} (hB : BlockedAs π m B B') (src dst src' dst' : Coords K) (s e : UInt32)
    (hs : m.Has s) (he : m.Has e) (hsrc : Located m bvh src s) (hdst : Located m bvh dst e)
    (hsrc' : Located m' bvh' src' (π s)) (hdst' : Located m' bvh' dst' (π e))
    (h1 : src'.pos = src.pos) (h2 : dst'.pos = dst.pos) :
    m'.pathOnLayers bvh' heap cfg src' dst' B' = m.pathOnLayers bvh heap cfg src dst B := by
  have hs' : m'.Has (π s) := by
    obtain ⟨l, p, hp⟩ := hs
    obtain ⟨l', p', hp', -⟩ := h.polygons s l p hp
    exact ⟨l', p', hp'⟩
  unfold Mesh.pathOnLayers
  rw [endpointPolygon_located.2 hsrc, endpointPolygon_located.2 hsrc', res_bind_ok, res_bind_ok]
  simp only
  rw [endpointPolygon_located.2 hdst, endpointPolygon_located.2 hdst', res_bind_ok, res_bind_ok]
  simp only
  rw [h1, h2]
  exact pathBetween_to hh (h.renum hl hB hd) (by unfold Mesh.stepBudget; rw [h.count]) _ _ hs he (by rw [hi.differ hs, hi'.differ hs'])

/-- C69, without blocked layers. -/
theorem C69_unblocked (bvh bvh' : Bvh K) {heap : Heap K} (hh : heap.ByCost) (cfg : Cfg)
    (hd : cfg.detailed = true → (∀ q, layerOf (π q) = layerOf q) ∧ SameScales m m' ∧ m.SmallNumbers ∧ m'.SmallNumbers)
    (h : SamePolygons π m m') (hl : m.ListsPolygons) (hi : m.NoIslands) (hi' : m'.NoIslands)
    (src dst src' dst' : Coords K) (s e : UInt32)
    (hs : m.Has s) (he : m.Has e) (hsrc : Located m bvh src s) (hdst : Located m bvh dst e)
    (hsrc' : Located m' bvh' src' (π s)) (hdst' : Located m' bvh' dst' (π e))
    (h1 : src'.pos = src.pos) (h2 : dst'.pos = dst.pos) :
    m'.path bvh' heap cfg src' dst' = m.path bvh heap cfg src dst :=
  C69_path bvh bvh' hh cfg hd h hl hi hi' ⟨Iff.rfl, fun _ _ => by simp, Iff.rfl⟩ src dst src' dst' s e hs he hsrc
    hdst hsrc' hdst' h1 h2

/-- Futures resolve to the same answers, when the searches correspond. -/
theorem future_to {N : Vertex K → Vertex K → Prop} {P : UInt32 → Prop} (bvh bvh' : Bvh K) {heap : Heap K} (hh : heap.ByCost) {cfg : Cfg}
    (hm : Renum cfg N π m m' [] [] P) (hi : m.NoIslands) (hi' : m'.NoIslands)
    (src dst : Vec2 K) (s e : UInt32) (hs : P s) (he : P e)
    (hsrc : m.getPointLocation bvh (Coords.onMesh src) = .ok s)
    (hdst : m.getPointLocation bvh (Coords.onMesh dst) = .ok e)
    (hsrc' : m'.getPointLocation bvh' (Coords.onMesh src) = .ok (π s))
    (hdst' : m'.getPointLocation bvh' (Coords.onMesh dst) = .ok (π e)) (r : Option (Path K)) :
    Resolves bvh' heap cfg m' (Mesh.getPath src dst) r ↔ Resolves bvh heap cfg m (Mesh.getPath src dst) r := by
  have hf : FutureTo cfg N P π m m' src dst (Mesh.getPath src dst) (Mesh.getPath src dst) :=
    ⟨rfl, rfl, rfl, rfl, .inl ⟨rfl, rfl⟩⟩
  have key : ∀ {f f' : FuturePath K}, FutureTo cfg N P π m m' src dst f f' →
      RR (fun r r' => r'.1 = r.1 ∧ FutureTo cfg N P π m m' src dst r.2 r'.2) (f.poll bvh heap cfg m)
        (f'.poll bvh' heap cfg m') := fun hf => poll_to hh hm hi hi' hs he hsrc hdst hsrc' hdst' hf
  constructor
  · generalize Mesh.getPath src dst = g at hf
    suffices ∀ f', FutureTo cfg N P π m m' src dst g f' → Resolves bvh' heap cfg m' f' r → Resolves bvh heap cfg m g r from
      this _ hf
    intro f' hf' hr
    clear hf
    induction hr generalizing g with
    | @ready f' g' r hp =>
      have := key hf'
      rw [hp] at this
      cases hq : g.poll bvh heap cfg m with
      | error e => rw [hq] at this; cases this
      | ok x =>
        rw [hq] at this
        obtain ⟨p, g2⟩ := x
        cases this with
        | ok h => obtain ⟨h1, -⟩ := h; simp only at h1; subst h1; exact .ready hq
    | @pending f' g' w r hp _ ih =>
      have := key hf'
      rw [hp] at this
      cases hq : g.poll bvh heap cfg m with
      | error e => rw [hq] at this; cases this
      | ok x =>
        rw [hq] at this
        obtain ⟨p, g2⟩ := x
        cases this with
        | ok h => obtain ⟨h1, h2⟩ := h; simp only at h1; subst h1; exact .pending hq (ih _ h2)
  · generalize Mesh.getPath src dst = g at hf
    suffices ∀ f', FutureTo cfg N P π m m' src dst g f' → Resolves bvh heap cfg m g r → Resolves bvh' heap cfg m' f' r from
      this _ hf
    intro f' hf' hr
    clear hf
    induction hr generalizing f' with
    | @ready g g' r hp =>
      have := key hf'
      rw [hp] at this
      cases hq : f'.poll bvh' heap cfg m' with
      | error e => rw [hq] at this; cases this
      | ok x =>
        rw [hq] at this
        obtain ⟨p, g2⟩ := x
        cases this with
        | ok h => obtain ⟨h1, -⟩ := h; simp only at h1; subst h1; exact .ready hq
    | @pending g g' w r hp _ ih =>
      have := key hf'
      rw [hp] at this
      cases hq : f'.poll bvh' heap cfg m' with
      | error e => rw [hq] at this; cases this
      | ok x =>
        rw [hq] at this
        obtain ⟨p, g2⟩ := x
        cases this with
        | ok h => obtain ⟨h1, h2⟩ := h; simp only at h1; subst h1; exact .pending hq (ih _ h2)

/-- C69: futures resolve to the same answers. -/
theorem C69_future (bvh bvh' : Bvh K) {heap : Heap K} (hh : heap.ByCost) (cfg : Cfg)
    (hd : cfg.detailed = true → (∀ q, layerOf (π q) = layerOf q) ∧ SameScales m m' ∧ m.SmallNumbers ∧ m'.SmallNumbers)
    (h : SamePolygons π m m') (hl : m.ListsPolygons) (hi : m.NoIslands) (hi' : m'.NoIslands) (src dst : Vec2 K)
    (s e : UInt32) (hs : m.Has s) (he : m.Has e)
    (hsrc : m.getPointLocation bvh (Coords.onMesh src) = .ok s)
    (hdst : m.getPointLocation bvh (Coords.onMesh dst) = .ok e)
    (hsrc' : m'.getPointLocation bvh' (Coords.onMesh src) = .ok (π s))
    (hdst' : m'.getPointLocation bvh' (Coords.onMesh dst) = .ok (π e)) (r : Option (Path K)) :
    Resolves bvh' heap cfg m' (Mesh.getPath src dst) r ↔ Resolves bvh heap cfg m (Mesh.getPath src dst) r := by
  exact future_to bvh bvh' hh (h.renum hl ⟨Iff.rfl, fun _ _ => by simp, Iff.rfl⟩ hd) hi hi' src dst s e hs he hsrc
    hdst hsrc' hdst' r

/-! ### Checking a renumbering -/

/-- Every polygon of the mesh with its number. -/
def Mesh.numberedPolygons (m : Mesh K) : List (UInt32 × Layer K × Polygon) :=
  m.layers.zipIdx.flatMap (fun li => li.1.polygons.zipIdx.map (fun pj =>
    (UInt32.ofNat (li.2 * 2 ^ 24 + pj.2), li.1, pj.1)))

theorem mem_numberedPolygons {id : UInt32} {l : Layer K} {p : Polygon} (h : HasPolygon m id l p) :
    (id, l, p) ∈ m.numberedPolygons := by
  unfold Mesh.numberedPolygons
  rw [List.mem_flatMap]
  refine ⟨(l, idLayer id), ?_, ?_⟩
  · rw [List.mem_zipIdx_iff_getElem?]
    exact h.1
  · rw [List.mem_map]
    refine ⟨(p, idPolygon id), ?_, ?_⟩
    · rw [List.mem_zipIdx_iff_getElem?]
      exact h.2
    · have : idLayer id * 2 ^ 24 + idPolygon id = id.toNat := by
        unfold idLayer idPolygon
        omega
      simp only
      rw [this, UInt32.ofNat_toNat]

/-! ### Example -/

/-- The three squares of `exMesh`, divided into two layers: the upper square in layer 0, the two lower ones, in the
opposite order, in layer 1, which has an offset. -/
def exDivided : Mesh Rat :=
  { exMesh with layers := [
      Layer.mk' [ Vertex.new (v2 0 1) [16777217, 0, u32Max], Vertex.new (v2 1 1) [16777217, 16777216, 0, u32Max],
        Vertex.new (v2 1 2) [0, u32Max], Vertex.new (v2 0 2) [0, u32Max] ] [ Polygon.new [0, 1, 2, 3] false ],
      { Layer.mk' [ Vertex.new (v2 0 (-1)) [16777217, u32Max], Vertex.new (v2 1 (-1)) [16777217, 16777216, u32Max],
          Vertex.new (v2 2 (-1)) [16777216, u32Max], Vertex.new (v2 2 0) [16777216, u32Max],
          Vertex.new (v2 1 0) [16777217, 16777216, 0, u32Max], Vertex.new (v2 0 0) [16777217, 0, u32Max] ]
          [ Polygon.new [1, 2, 3, 4] false, Polygon.new [0, 1, 4, 5] false ] with offset := v2 0 1 }] }

/-- The numbers of the polygons of `exMesh` in `exDivided`. -/
def exNumbers : Equiv.Perm UInt32 := (Equiv.swap 0 16777217).trans ((Equiv.swap 2 0).trans (Equiv.swap 1 16777216))

theorem exDivided_renumbered : SamePolygons exNumbers exMesh exDivided := by
  refine ⟨exNumbers.injective, by decide +kernel, by decide +kernel, ?_⟩
  intro id l p hp
  have h := mem_numberedPolygons hp
  have e : exMesh.numberedPolygons = [(0, exLayer, Polygon.new [0, 1, 4, 3] false),
    (1, exLayer, Polygon.new [1, 2, 5, 4] false), (2, exLayer, Polygon.new [3, 4, 7, 6] false)] := by rfl
  rw [e] at h
  simp only [List.mem_cons, List.not_mem_nil, or_false, Prod.mk.injEq] at h
  rcases h with ⟨rfl, rfl, rfl⟩ | ⟨rfl, rfl, rfl⟩ | ⟨rfl, rfl, rfl⟩
  · rw [show exNumbers 0 = 16777217 from by decide +kernel]
    exact ⟨_, _, ⟨rfl, rfl⟩, rfl,
      .cons ⟨_, _, rfl, rfl, by decide +kernel, by decide +kernel, rfl⟩
      (.cons ⟨_, _, rfl, rfl, by decide +kernel, by decide +kernel, rfl⟩
      (.cons ⟨_, _, rfl, rfl, by decide +kernel, by decide +kernel, rfl⟩
      (.cons ⟨_, _, rfl, rfl, by decide +kernel, by decide +kernel, rfl⟩ .nil)))⟩
  · rw [show exNumbers 1 = 16777216 from by decide +kernel]
    exact ⟨_, _, ⟨rfl, rfl⟩, rfl,
      .cons ⟨_, _, rfl, rfl, by decide +kernel, by decide +kernel, rfl⟩
      (.cons ⟨_, _, rfl, rfl, by decide +kernel, by decide +kernel, rfl⟩
      (.cons ⟨_, _, rfl, rfl, by decide +kernel, by decide +kernel, rfl⟩
      (.cons ⟨_, _, rfl, rfl, by decide +kernel, by decide +kernel, rfl⟩ .nil)))⟩
  · rw [show exNumbers 2 = 0 from by decide +kernel]
    exact ⟨_, _, ⟨rfl, rfl⟩, rfl,
      .cons ⟨_, _, rfl, rfl, by decide +kernel, by decide +kernel, rfl⟩
      (.cons ⟨_, _, rfl, rfl, by decide +kernel, by decide +kernel, rfl⟩
      (.cons ⟨_, _, rfl, rfl, by decide +kernel, by decide +kernel, rfl⟩
      (.cons ⟨_, _, rfl, rfl, by decide +kernel, by decide +kernel, rfl⟩ .nil)))⟩

theorem exMesh_has (id : UInt32) (h : id = 0 ∨ id = 1 ∨ id = 2) : exMesh.Has id := by
  rcases h with rfl | rfl | rfl
  · exact ⟨_, _, rfl, rfl⟩
  · exact ⟨_, _, rfl, rfl⟩
  · exact ⟨_, _, rfl, rfl⟩

theorem exMesh_lists : exMesh.ListsPolygons := by
  intro id l p hp v hv x hx q hq
  have hl : l = exLayer := by
    have := List.mem_of_getElem? hp.1
    simpa [exMesh, Mesh.ofLayers] using this
  subst hl
  have hall : ∀ x ∈ exVertices, ∀ q ∈ x.polygons, q = u32Max ∨ q = 0 ∨ q = 1 ∨ q = 2 := by decide +kernel
  rcases hall x (List.mem_of_getElem? hx) q hq with h | h
  · exact .inl h
  · exact .inr (exMesh_has q h)

/-- Non-vacuity of C69: the query around the corner has the same answer in the divided mesh. -/
theorem C69_example : exDivided.path allBvh ratHeap ⟨false⟩ (Coords.onMesh (v2 (3/2) (1/2)))
      (Coords.onMesh (v2 (3/4) (3/2))) =
    exMesh.path allBvh ratHeap ⟨false⟩ (Coords.onMesh (v2 (3/2) (1/2))) (Coords.onMesh (v2 (3/4) (3/2))) ∧
    ∃ len, exMesh.path allBvh ratHeap ⟨false⟩ (Coords.onMesh (v2 (3/2) (1/2))) (Coords.onMesh (v2 (3/4) (3/2))) =
      .ok (some ⟨len, [⟨1,1⟩, ⟨3/4,3/2⟩], []⟩) := by
  refine ⟨?_, 633061/500000, by decide +kernel⟩
  refine C69_unblocked allBvh allBvh (heap := ratHeap) maxHeap_byCost ⟨false⟩ (fun h => by cases h) exDivided_renumbered exMesh_lists
    (by unfold Mesh.NoIslands; decide +kernel) (by unfold Mesh.NoIslands; decide +kernel) _ _ _ _ 1 2
    (exMesh_has 1 (by simp)) (exMesh_has 2 (by simp))
    (endpointPolygon_located.1 (by decide +kernel)) (endpointPolygon_located.1 (by decide +kernel))
    (endpointPolygon_located.1 (by decide +kernel)) (endpointPolygon_located.1 (by decide +kernel)) rfl rfl

/-- Non-vacuity of `C69_future`: the future on the divided mesh resolves to what it does on `exMesh`. -/
example (r : Option (Path Rat)) : Resolves allBvh ratHeap ⟨false⟩ exDivided (Mesh.getPath (v2 (3/2) (1/2)) (v2 (3/4) (3/2))) r ↔
    Resolves allBvh ratHeap ⟨false⟩ exMesh (Mesh.getPath (v2 (3/2) (1/2)) (v2 (3/4) (3/2))) r :=
  C69_future allBvh allBvh (heap := ratHeap) maxHeap_byCost ⟨false⟩ (fun h => by cases h) exDivided_renumbered exMesh_lists
    (by unfold Mesh.NoIslands; decide +kernel) (by unfold Mesh.NoIslands; decide +kernel) _ _ 1 2
    (exMesh_has 1 (by simp)) (exMesh_has 2 (by simp)) (by decide +kernel) (by decide +kernel) (by decide +kernel)
    (by decide +kernel) r

/-- Non-vacuity of `BlockedAs`: blocking the only layer of `exMesh` is blocking both layers of `exDivided`. -/
example : BlockedAs exNumbers exMesh [0] [0, 1] := by
  refine ⟨by simp, ?_, by decide⟩
  rintro id ⟨l, p, hp⟩
  have h := mem_numberedPolygons hp
  have e : exMesh.numberedPolygons = [(0, exLayer, Polygon.new [0, 1, 4, 3] false),
    (1, exLayer, Polygon.new [1, 2, 5, 4] false), (2, exLayer, Polygon.new [3, 4, 7, 6] false)] := by rfl
  rw [e] at h
  simp only [List.mem_cons, List.not_mem_nil, or_false, Prod.mk.injEq] at h
  rcases h with ⟨rfl, -⟩ | ⟨rfl, -⟩ | ⟨rfl, -⟩ <;> decide +kernel

end Polyanya
