import Verif.Props.Renumbered
import Verif.Proofs.IslandWalk
/-
C12 and C69 for meshes as they are made by `Mesh::new`: baked, with islands.
-/

namespace Polyanya

variable {K : Type} [Scalar K] {m m' : Mesh K} {π : UInt32 → UInt32}

omit [Scalar K] in
theorem bakeIslands_noIslands (l : Layer K) : l.noIslands.bakeIslands = l.bakeIslands := by
  have flood : ∀ (root fuel : Nat) (stack : List Nat) (labels : List (Option Nat)),
      l.noIslands.flood root fuel stack labels = l.flood root fuel stack labels := by
    intro root fuel
    induction fuel with
    | zero => intros; rfl
    | succ fuel ih =>
      intro stack labels
      cases stack with
      | nil => rfl
      | cons x xs =>
        unfold Layer.flood
        simp only [ih]
        have hn : ∀ p, l.noIslands.neighbours p = l.neighbours p := fun _ => rfl
        have hp : l.noIslands.polygons = l.polygons := rfl
        simp only [hn, hp]
  have fuelEq : l.noIslands.floodFuel = l.floodFuel := rfl
  have all : ∀ (fuel : Nat) (labels : List (Option Nat)),
      l.noIslands.floodAll fuel labels = l.floodAll fuel labels := by
    intro fuel
    induction fuel with
    | zero => intros; rfl
    | succ fuel ih =>
      intro labels
      unfold Layer.floodAll
      simp only [flood, fuelEq, ih]
  have hp : l.noIslands.polygons = l.polygons := rfl
  unfold Layer.bakeIslands
  rw [all, hp]
  rfl

omit [Scalar K] in
theorem hasPolygon_noIslands {id : UInt32} {l : Layer K} {p : Polygon} :
    HasPolygon m.noIslands id l p ↔ ∃ l₀, HasPolygon m id l₀ p ∧ l = l₀.noIslands := by
  unfold HasPolygon
  have hl : m.noIslands.layers = m.layers.map Layer.noIslands := rfl
  rw [hl, List.getElem?_map]
  constructor
  · rintro ⟨h1, h2⟩
    cases h : m.layers[idLayer id]? with
    | none => rw [h] at h1; cases h1
    | some l₀ =>
      rw [h] at h1
      obtain rfl : l₀.noIslands = l := by simpa using h1
      exact ⟨l₀, ⟨rfl, h2⟩, rfl⟩
  · rintro ⟨l₀, ⟨h1, h2⟩, rfl⟩
    rw [h1]
    exact ⟨rfl, h2⟩

omit [Scalar K] in
theorem has_noIslands {id : UInt32} : m.noIslands.Has id ↔ m.Has id := by
  constructor
  · rintro ⟨l, p, h⟩
    obtain ⟨l₀, h, -⟩ := hasPolygon_noIslands.1 h
    exact ⟨l₀, p, h⟩
  · rintro ⟨l, p, h⟩
    exact ⟨_, p, hasPolygon_noIslands.2 ⟨l, h, rfl⟩⟩

omit [Scalar K] in
theorem mem_noIslands {l : Layer K} (h : l ∈ m.noIslands.layers) : ∃ l₀ ∈ m.layers, l = l₀.noIslands := by
  obtain ⟨l₀, h1, h2⟩ := List.mem_map.1 h
  exact ⟨l₀, h1, h2.symm⟩

omit [Scalar K] in
theorem wf_noIslands {cfg : Cfg} (h : m.WF cfg) : m.noIslands.WF cfg := by
  refine ⟨by show (m.layers.map _).length ≤ _; rw [List.length_map]; exact h.layers, ?_, ?_, ?_⟩
  · intro l hl
    obtain ⟨l₀, h1, rfl⟩ := mem_noIslands hl
    have := h.layer l₀ h1
    exact { this with }
  · intro l hl v hv id hid hne
    obtain ⟨l₀, h1, rfl⟩ := mem_noIslands hl
    obtain ⟨l', p, h2⟩ := h.refs l₀ h1 v hv id hid hne
    exact ⟨_, p, hasPolygon_noIslands.2 ⟨l', h2, rfl⟩⟩
  · intro hd l hl
    obtain ⟨l₀, h1, rfl⟩ := mem_noIslands hl
    exact h.vertices hd l₀ h1

theorem noNan_noIslands (h : m.NoNan) : m.noIslands.NoNan := by
  refine ⟨?_⟩
  intro l hl v hv l' hl' v' hv'
  obtain ⟨l₀, h1, rfl⟩ := mem_noIslands hl
  obtain ⟨l₁, h2, rfl⟩ := mem_noIslands hl'
  exact h.dist l₀ h1 v hv l₁ h2 v' hv'

omit [Scalar K] in
theorem coordsWF_noIslands {c : Coords K} (h : c.WF m) : c.WF m.noIslands := by
  refine ⟨?_, ?_⟩
  · intro i hi
    show _ < (m.layers.map _).length
    rw [List.length_map]
    exact h.layer i hi
  · intro hne
    obtain ⟨l, p, hp⟩ := h.polygon hne
    exact ⟨_, p, hasPolygon_noIslands.2 ⟨l, hp, rfl⟩⟩

theorem located_noIslands {bvh : Bvh K} {c : Coords K} {id : UInt32} :
    Located m.noIslands bvh c id ↔ Located m bvh c id := by
  rw [← endpointPolygon_located, endpointPolygon_noIslands, endpointPolygon_located]

/-- The numbers of the islands can be forgotten, in the vocabulary of C69. -/
theorem samePolygons_noIslands (h : SamePolygons π m m') : SamePolygons π m.noIslands m'.noIslands := by
  refine ⟨h.injective, h.outside, ?_, ?_⟩
  · have e : ∀ x : Mesh K, x.noIslands.layers.map (·.polygons.length) = x.layers.map (·.polygons.length) := by
      intro x
      show (x.layers.map Layer.noIslands).map _ = _
      rw [List.map_map]
      rfl
    rw [e, e]
    exact h.count
  · intro id l p hp
    obtain ⟨l₀, hp₀, rfl⟩ := hasPolygon_noIslands.1 hp
    obtain ⟨l', p', h1, h2, h3⟩ := h.polygons id l₀ p hp₀
    exact ⟨_, p', hasPolygon_noIslands.2 ⟨l', h1, rfl⟩, h2, h3⟩

omit [Scalar K] in
theorem listsPolygons_noIslands (h : m.ListsPolygons) : m.noIslands.ListsPolygons := by
  intro id l p hp v hv x hx q hq
  obtain ⟨l₀, hp₀, rfl⟩ := hasPolygon_noIslands.1 hp
  rcases h id l₀ p hp₀ v hv x hx q hq with h | h
  · exact .inl h
  · exact .inr (has_noIslands.2 h)

omit [Scalar K] in
theorem blockedAs_noIslands {B B' : List UInt8} (h : BlockedAs π m B B') : BlockedAs π m.noIslands B B' :=
  ⟨h.any, fun id hid => h.polygon id (has_noIslands.1 hid), h.outside⟩

omit [Scalar K] in
theorem sameScales_noIslands (h : SameScales m m') : SameScales m.noIslands m'.noIslands := by
  unfold SameScales at h ⊢
  show List.Forall₂ _ (m.layers.map _) (m'.layers.map _)
  rw [List.forall₂_map_left_iff, List.forall₂_map_right_iff]
  exact h

omit [Scalar K] in
theorem smallNumbers_noIslands (h : m.SmallNumbers) : m.noIslands.SmallNumbers := by
  intro l hl p hp v hv
  obtain ⟨l₀, h1, rfl⟩ := mem_noIslands hl
  exact h l₀ h1 p hp v hv

/-- C12, for every mesh whose islands are the ones that baking computes (in every layer of a mesh with several layers,
any islands): a path query returns what it returns when the islands are forgotten. -/
theorem C12_forget_islands [NanLaws K] (bvh : Bvh K) (heap : Heap K) (cfg : Cfg) (m : Mesh K)
    (hisl : m.layers.length = 1 → m.IslandsTrue) (src dst : Coords K) (blocked : List UInt8)
    (hb : bvh.InRange) (hwf : m.WF cfg) (hn : m.NoNan) (hs : src.WF m) (hd : dst.WF m)
    (hlen : cfg.detailed = true → ∀ s e p, Located m bvh src s → Located m bvh dst e →
      FoundBy ⟨cfg, m.noIslands, (src.pos, s), (dst.pos, e), blocked⟩ p → Scalar.isNan p.length = false) :
    m.pathOnLayers bvh heap cfg src dst blocked = m.noIslands.pathOnLayers bvh heap cfg src dst blocked := by
  have free : (∀ s e, m.islandsDiffer s e = .ok false) →
      m.pathOnLayers bvh heap cfg src dst blocked = m.noIslands.pathOnLayers bvh heap cfg src dst blocked := by
    intro h
    unfold Mesh.pathOnLayers
    simp only [endpointPolygon_noIslands, pathBetween_noIslands heap cfg m _ _ _ _ blocked (h _ _)]
  by_cases h1 : m.layers.length = 1
  · rcases hisl h1 with h | ⟨l, hl, hc, hbk⟩
    · have : m.noIslands = m := by
        have e : m.layers.map Layer.noIslands = m.layers := by
          conv_rhs => rw [← List.map_id m.layers]
          refine List.map_congr_left ?_
          intro l hl
          have := h l hl
          unfold Layer.noIslands
          cases l
          simp only at this
          subst this
          rfl
        unfold Mesh.noIslands
        rw [e]
      rw [this]
    · have hl0 : m.noIslands.layers = [l.noIslands] := by
        show m.layers.map _ = _
        rw [hl]; rfl
      refine C12_islands_do_not_change_results bvh heap cfg m.noIslands m l.noIslands l src dst blocked hl0 rfl
        ⟨hc.sized, hc.polygonVertex, hc.vertexPolygon⟩ (by rw [bakeIslands_noIslands]; exact hbk) ?_ hb
        (wf_noIslands hwf) (noNan_noIslands hn) (coordsWF_noIslands hs) (coordsWF_noIslands hd) ?_
      · unfold Mesh.noIslands
        cases m
        simp only at hl
        subst hl
        rfl
      · intro hdet s e p h1 h2
        exact hlen hdet s e p (located_noIslands.1 h1) (located_noIslands.1 h2)
  · refine free fun s e => ?_
    unfold Mesh.islandsDiffer
    rw [if_neg h1]

/-- C69, for meshes as they are made by `Mesh::new`, with islands baked: the numbers of the polygons and of the
vertices are irrelevant. -/
theorem C69_baked [NanLaws K] (bvh bvh' : Bvh K) {heap : Heap K} (hh : heap.ByCost) (cfg : Cfg)
    (hd : cfg.detailed = true → (∀ q, layerOf (π q) = layerOf q) ∧ SameScales m m' ∧ m.SmallNumbers ∧ m'.SmallNumbers)
    (h : SamePolygons π m m') (hl : m.ListsPolygons)
    (hi : m.layers.length = 1 → m.IslandsTrue) (hi' : m'.layers.length = 1 → m'.IslandsTrue)
    {B B' : List UInt8} (hB : BlockedAs π m B B') (src dst src' dst' : Coords K) (s e : UInt32)
    (hs : m.Has s) (he : m.Has e) (hsrc : Located m bvh src s) (hdst : Located m bvh dst e)
    (hsrc' : Located m' bvh' src' (π s)) (hdst' : Located m' bvh' dst' (π e))
    (h1 : src'.pos = src.pos) (h2 : dst'.pos = dst.pos)
    (hb : bvh.InRange) (hb' : bvh'.InRange) (hwf : m.WF cfg) (hwf' : m'.WF cfg) (hn : m.NoNan) (hn' : m'.NoNan)
    (hw : src.WF m ∧ dst.WF m) (hw' : src'.WF m' ∧ dst'.WF m')
    (hlen : cfg.detailed = true → ∀ p, FoundBy ⟨cfg, m.noIslands, (src.pos, s), (dst.pos, e), B⟩ p →
      Scalar.isNan p.length = false)
    (hlen' : cfg.detailed = true → ∀ p, FoundBy ⟨cfg, m'.noIslands, (src.pos, π s), (dst.pos, π e), B'⟩ p →
      Scalar.isNan p.length = false) :
    m'.pathOnLayers bvh' heap cfg src' dst' B' = m.pathOnLayers bvh heap cfg src dst B := by
  have uniq : ∀ {x : Mesh K} {b : Bvh K} {c : Coords K} {i j : UInt32}, Located x b c i → Located x b c j → i = j := by
    intro x b c i j hi hj
    have e1 := endpointPolygon_located.2 hi
    have e2 := endpointPolygon_located.2 hj
    rw [e1] at e2
    simpa using e2
  have none_ : ∀ x : Mesh K, x.noIslands.NoIslands := by
    intro x l hl
    obtain ⟨l₀, -, rfl⟩ := mem_noIslands hl
    rfl
  rw [C12_forget_islands bvh heap cfg m hi src dst B hb hwf hn hw.1 hw.2 ?_,
    C12_forget_islands bvh' heap cfg m' hi' src' dst' B' hb' hwf' hn' hw'.1 hw'.2 ?_]
  · refine C69_path bvh bvh' hh cfg ?_ (samePolygons_noIslands h) (listsPolygons_noIslands hl) (none_ m) (none_ m')
      (blockedAs_noIslands hB) src dst src' dst' s e (has_noIslands.2 hs) (has_noIslands.2 he)
      (located_noIslands.2 hsrc) (located_noIslands.2 hdst) (located_noIslands.2 hsrc') (located_noIslands.2 hdst') h1 h2
    intro hdet
    obtain ⟨a, b, c, d⟩ := hd hdet
    exact ⟨a, sameScales_noIslands b, smallNumbers_noIslands c, smallNumbers_noIslands d⟩
  · intro hdet s1 e1 p g1 g2 g3
    rw [uniq g1 hsrc', uniq g2 hdst', h1, h2] at g3
    exact hlen' hdet p g3
  · intro hdet s1 e1 p g1 g2 g3
    rw [uniq g1 hsrc, uniq g2 hdst] at g3
    exact hlen hdet p g3

/-! ### Example -/

/-- The mesh that `Mesh::new` makes of the example. -/
def exBaked : Mesh Rat :=
  { exMesh with layers := [{ exLayer with
      baked := some [(v2 0 0, v2 1 1), (v2 1 0, v2 2 1), (v2 0 1, v2 1 2)], islands := some [0, 0, 0] }] }

/-- The same three squares in another order, with the vertices in the opposite order. -/
def exOtherVertices : List (Vertex Rat) :=
  [ Vertex.new (v2 1 2) [0, u32Max], Vertex.new (v2 0 2) [0, u32Max], Vertex.new (v2 2 1) [2, u32Max],
    Vertex.new (v2 1 1) [1, 2, 0, u32Max], Vertex.new (v2 0 1) [1, 0, u32Max],
    Vertex.new (v2 2 0) [2, u32Max], Vertex.new (v2 1 0) [1, 2, u32Max], Vertex.new (v2 0 0) [1, u32Max] ]

def exOtherPolygons : List Polygon :=
  [ Polygon.new [4, 3, 0, 1] false, Polygon.new [7, 6, 3, 4] false, Polygon.new [6, 5, 2, 3] false ]

def exOtherLayer : Layer Rat :=
  { Layer.mk' exOtherVertices exOtherPolygons with
      baked := some [(v2 0 1, v2 1 2), (v2 0 0, v2 1 1), (v2 1 0, v2 2 1)], islands := some [0, 0, 0] }

def exOther : Mesh Rat := { exMesh with layers := [exOtherLayer] }

namespace BakedRenumbered
deriving instance DecidableEq for Layer
deriving instance DecidableEq for Mesh
end BakedRenumbered
open BakedRenumbered

theorem exBaked_new : Mesh.new exVertices exPolygons = .ok (.ok exBaked) := by decide +kernel

theorem exOther_new : Mesh.new exOtherVertices exOtherPolygons = .ok (.ok exOther) := by decide +kernel

/-- The numbers of the polygons of `exBaked` in `exOther`. -/
def otherNumbers : Equiv.Perm UInt32 := (Equiv.swap 0 1).trans (Equiv.swap 0 2)

theorem exOther_renumbered : SamePolygons otherNumbers exBaked exOther := by
  refine ⟨otherNumbers.injective, by decide +kernel, by decide +kernel, ?_⟩
  intro id l p hp
  have h := mem_numberedPolygons hp
  have e : exBaked.numberedPolygons = exPolygons.zipIdx.map fun pj =>
      (UInt32.ofNat pj.2, { exLayer with
        baked := some [(v2 0 0, v2 1 1), (v2 1 0, v2 2 1), (v2 0 1, v2 1 2)], islands := some [0, 0, 0] }, pj.1) := by rfl
  rw [e] at h
  simp only [exPolygons, List.zipIdx_cons, List.zipIdx_nil, List.map_cons, List.map_nil, List.mem_cons,
    List.not_mem_nil, or_false, Prod.mk.injEq] at h
  rcases h with ⟨rfl, rfl, rfl⟩ | ⟨rfl, rfl, rfl⟩ | ⟨rfl, rfl, rfl⟩
  · rw [show otherNumbers (UInt32.ofNat 0) = 1 from by decide +kernel]
    exact ⟨_, _, ⟨rfl, rfl⟩, rfl,
      .cons ⟨_, _, rfl, rfl, by decide +kernel, by decide +kernel, rfl⟩
      (.cons ⟨_, _, rfl, rfl, by decide +kernel, by decide +kernel, rfl⟩
      (.cons ⟨_, _, rfl, rfl, by decide +kernel, by decide +kernel, rfl⟩
      (.cons ⟨_, _, rfl, rfl, by decide +kernel, by decide +kernel, rfl⟩ .nil)))⟩
  · rw [show otherNumbers (UInt32.ofNat (0 + 1)) = 2 from by decide +kernel]
    exact ⟨_, _, ⟨rfl, rfl⟩, rfl,
      .cons ⟨_, _, rfl, rfl, by decide +kernel, by decide +kernel, rfl⟩
      (.cons ⟨_, _, rfl, rfl, by decide +kernel, by decide +kernel, rfl⟩
      (.cons ⟨_, _, rfl, rfl, by decide +kernel, by decide +kernel, rfl⟩
      (.cons ⟨_, _, rfl, rfl, by decide +kernel, by decide +kernel, rfl⟩ .nil)))⟩
  · rw [show otherNumbers (UInt32.ofNat (0 + 1 + 1)) = 0 from by decide +kernel]
    exact ⟨_, _, ⟨rfl, rfl⟩, rfl,
      .cons ⟨_, _, rfl, rfl, by decide +kernel, by decide +kernel, rfl⟩
      (.cons ⟨_, _, rfl, rfl, by decide +kernel, by decide +kernel, rfl⟩
      (.cons ⟨_, _, rfl, rfl, by decide +kernel, by decide +kernel, rfl⟩
      (.cons ⟨_, _, rfl, rfl, by decide +kernel, by decide +kernel, rfl⟩ .nil)))⟩

theorem exBaked_lists : exBaked.ListsPolygons := by
  intro id l p hp v hv x hx q hq
  have hl : l.vertices = exVertices := by
    have := List.mem_of_getElem? hp.1
    simp only [exBaked, List.mem_cons, List.not_mem_nil, or_false] at this
    rw [this]; rfl
  rw [hl] at hx
  have hall : ∀ x ∈ exVertices, ∀ q ∈ x.polygons, q = u32Max ∨ q = 0 ∨ q = 1 ∨ q = 2 := by decide +kernel
  rcases hall x (List.mem_of_getElem? hx) q hq with h | rfl | rfl | rfl
  · exact .inl h
  · exact .inr ⟨_, _, rfl, rfl⟩
  · exact .inr ⟨_, _, rfl, rfl⟩
  · exact .inr ⟨_, _, rfl, rfl⟩

theorem ratNoNan (m : Mesh Rat) : m.NoNan := ⟨fun _ _ _ _ _ _ _ _ => rfl⟩

/-- Non-vacuity of `C69_baked`: `Mesh::new`, given the same squares in two orders, makes two meshes that give the same
answer to a query around the corner. -/
theorem C69_baked_example :
    Mesh.new exVertices exPolygons = .ok (.ok exBaked) ∧ Mesh.new exOtherVertices exOtherPolygons = .ok (.ok exOther) ∧
    exOther.path allBvh ratHeap ⟨false⟩ (Coords.onMesh (v2 (3/2) (1/2))) (Coords.onMesh (v2 (3/4) (3/2))) =
      exBaked.path allBvh ratHeap ⟨false⟩ (Coords.onMesh (v2 (3/2) (1/2))) (Coords.onMesh (v2 (3/4) (3/2))) ∧
    ∃ len, exBaked.path allBvh ratHeap ⟨false⟩ (Coords.onMesh (v2 (3/2) (1/2))) (Coords.onMesh (v2 (3/4) (3/2))) =
      .ok (some ⟨len, [⟨1,1⟩, ⟨3/4,3/2⟩], []⟩) := by
  refine ⟨exBaked_new, exOther_new, ?_, 633061/500000, by decide +kernel⟩
  have w : ∀ (m : Mesh Rat) (a : Vec2 Rat), (Coords.onMesh a).WF m :=
    fun m a => ⟨by simp [Coords.onMesh], by simp [Coords.onMesh]⟩
  exact C69_baked allBvh allBvh (heap := ratHeap) maxHeap_byCost ⟨false⟩ (fun h => by cases h) exOther_renumbered
    exBaked_lists
    (fun _ => meshNew_islandsTrue exBaked_new (consistent_of_check (l := exLayer) (by decide +kernel)))
    (fun _ => meshNew_islandsTrue exOther_new
      (consistent_of_check (l := Layer.mk' exOtherVertices exOtherPolygons) (by decide +kernel)))
    (B := []) (B' := []) ⟨Iff.rfl, fun _ _ => by simp, Iff.rfl⟩ _ _ _ _ 1 2 ⟨_, _, rfl, rfl⟩ ⟨_, _, rfl, rfl⟩
    (endpointPolygon_located.1 (by decide +kernel)) (endpointPolygon_located.1 (by decide +kernel))
    (endpointPolygon_located.1 (by decide +kernel)) (endpointPolygon_located.1 (by decide +kernel)) rfl rfl
    allBvh_inRange allBvh_inRange (wf_of_check (by decide +kernel) _) (wf_of_check (by decide +kernel) _)
    (ratNoNan _) (ratNoNan _) ⟨w _ _, w _ _⟩ ⟨w _ _, w _ _⟩ (fun h => by cases h) (fun h => by cases h)

end Polyanya
