import Verif.Proofs.Alike
/-
Point location, futures and cleaned meshes: meshes that differ in the numbering of their vertices (C62).
-/

namespace Polyanya

set_option linter.unusedSectionVars false

variable {K : Type} [Scalar K] {cfg : Cfg} {m m' : Mesh K} {l l' : Layer K}

theorem forall₂_both {α β : Type} {R S : α → β → Prop} {xs : List α} {ys : List β} (h : List.Forall₂ R xs ys)
    (h' : List.Forall₂ S xs ys) : List.Forall₂ (fun a b => R a b ∧ S a b) xs ys := by
  induction h with
  | nil => exact .nil
  | cons hab _ ih => cases h' with | cons h1 h2 => exact .cons ⟨hab, h1⟩ (ih h2)

/-- Vertices with the same coordinates in their layers. -/
def SamePlace (l l' : Layer K) (v v' : UInt32) : Prop :=
  ∃ x x' : Vertex K, l.vertices[v.toNat]? = some x ∧ l'.vertices[v'.toNat]? = some x' ∧ x'.coords = x.coords

theorem SameLayer.places (h : SameLayer l l') :
    List.Forall₂ (fun p p' => List.Forall₂ (SamePlace l l') p.vertices p'.vertices) l.polygons l'.polygons := by
  refine (forall₂_both h.rings.polygons h.coords).imp ?_
  rintro p p' ⟨⟨-, h1⟩, h2⟩
  refine (forall₂_both h1 h2).imp ?_
  rintro v v' ⟨⟨x, x', a, b, -⟩, c⟩
  refine ⟨x, x', a, b, ?_⟩
  rw [a, b] at c
  simpa using c

/-- Layers in which points are located alike. -/
structure LocLayer (l l' : Layer K) : Prop where
  places : List.Forall₂ (fun p p' => List.Forall₂ (SamePlace l l') p.vertices p'.vertices) l.polygons l'.polygons
  offset : l'.offset = l.offset
  baked : l'.baked = l.baked

/-- Meshes in which points are located alike. -/
structure LocMesh (m m' : Mesh K) : Prop where
  layers : List.Forall₂ LocLayer m.layers m'.layers
  searchDelta : m'.searchDelta = m.searchDelta
  searchSteps : m'.searchSteps = m.searchSteps

theorem SameLayer.loc (h : SameLayer l l') : LocLayer l l' := ⟨h.places, h.offset, h.baked⟩

theorem SameMesh.loc (h : SameMesh m m') : LocMesh m m' :=
  ⟨h.layers.imp fun _ _ h => h.loc, h.searchDelta, h.searchSteps⟩

theorem pointInEdges_alike (pt : Vec2 K) {es es' : List (UInt32 × UInt32)}
    (h : List.Forall₂ (OnEnds (SamePlace l l')) es es') : l'.pointInEdges pt es' = l.pointInEdges pt es := by
  induction h with
  | nil => rfl
  | @cons e e' es es' he _ ih =>
    obtain ⟨⟨x, x', h1, h2, h3⟩, y, y', k1, k2, k3⟩ := he
    have hmax : ∀ a b : UInt32, (max a b).toNat = max a.toNat b.toNat := by
      intro a b
      rw [show max a b = if a ≤ b then b else a from rfl]
      split
      · rename_i h
        have := UInt32.le_iff_toNat_le.1 h
        omega
      · rename_i h
        have : ¬ a.toNat ≤ b.toNat := fun hc => h (UInt32.le_iff_toNat_le.2 hc)
        omega
    have hlt : ∀ (a b n : Nat), a < n → b < n → ¬ n ≤ max a b := by intro a b n; omega
    unfold Layer.pointInEdges
    rw [if_neg (by simp only; rw [hmax]; exact hlt _ _ _ (lt_of_getElem? h2) (lt_of_getElem? k2)),
      if_neg (by simp only; rw [hmax]; exact hlt _ _ _ (lt_of_getElem? h1) (lt_of_getElem? k1)),
      idxUnchecked_eq_ok.2 h1, idxUnchecked_eq_ok.2 h2, idxUnchecked_eq_ok.2 k1, idxUnchecked_eq_ok.2 k2]
    simp only [res_bind_ok]
    rw [h3, k3, ih]

theorem pointInPolygon_alike (pt : Vec2 K) {p p' : Polygon}
    (h : List.Forall₂ (SamePlace l l') p.vertices p'.vertices) : l'.pointInPolygon pt p' = l.pointInPolygon pt p := by
  unfold Layer.pointInPolygon
  refine RR.eq ((edgesIndex_alike h).bind fun es es' h => ?_)
  rw [pointInEdges_alike pt h]
  exact RR.refl _

theorem scanPolygons_alike (pt : Vec2 K) {ps ps' : List Polygon}
    (h : List.Forall₂ (fun p p' => List.Forall₂ (SamePlace l l') p.vertices p'.vertices) ps ps') : ∀ i,
    l'.scanPolygons pt i ps' = l.scanPolygons pt i ps := by
  induction h with
  | nil => intro i; rfl
  | cons h _ ih => intro i; simp only [Layer.scanPolygons, ih, pointInPolygon_alike pt h]

theorem locate_loc (bvh : Bvh K) (h : LocLayer l l') (pt : Vec2 K) : l'.locate bvh pt = l.locate bvh pt := by
  unfold Layer.locate
  rw [h.baked]
  cases l.baked with
  | none => exact scanPolygons_alike pt h.places 0
  | some boxes =>
    simp only
    unfold Layer.locationUnitBaked
    have hf : ∀ i, (do
        let p ← idx l'.polygons i
        if ← l'.pointInPolygon pt p then .ok (some (UInt32.ofNat i)) else .ok none : Res (Option UInt32)) = (do
        let p ← idx l.polygons i
        if ← l.pointInPolygon pt p then .ok (some (UInt32.ofNat i)) else .ok none : Res (Option UInt32)) := by
      intro i
      refine RR.eq ((RR.idx h.places i).bind fun p p' hp => ?_)
      rw [pointInPolygon_alike pt hp]
      exact RR.refl _
    simp only [hf]

theorem LocMesh.numbered (h : LocMesh m m') :
    List.Forall₂ (fun a b => b.1 = a.1 ∧ LocLayer a.2 b.2) m.numbered m'.numbered := by
  unfold Mesh.numbered
  rw [List.forall₂_map_left_iff, List.forall₂_map_right_iff]
  exact (forall₂_zipIdx h.layers 0).imp fun a b h => ⟨by rw [h.2], h.1⟩

theorem LocMesh.layer? (h : LocMesh m m') (i : Nat) :
    (m.layers[i]? = none ∧ m'.layers[i]? = none) ∨
    ∃ l l', m.layers[i]? = some l ∧ m'.layers[i]? = some l' ∧ LocLayer l l' := by
  by_cases hi : i < m.layers.length
  · have hi' : i < m'.layers.length := h.layers.length_eq ▸ hi
    exact .inr ⟨_, _, List.getElem?_eq_getElem hi, List.getElem?_eq_getElem hi', List.Forall₂.get h.layers hi hi'⟩
  · exact .inl ⟨List.getElem?_eq_none (by omega), List.getElem?_eq_none (by rw [← h.layers.length_eq]; omega)⟩

theorem locationInLayer_loc (bvh : Bvh K) (h : LocMesh m m') (pos : Vec2 K) (i : UInt8) (hl : LocLayer l l') :
    m'.locationInLayer bvh pos i l' = m.locationInLayer bvh pos i l := by
  unfold Mesh.locationInLayer Layer.getPointLocation
  simp only [h.searchDelta, hl.offset, locate_loc bvh hl]

theorem getPointLocation_loc (bvh : Bvh K) (h : LocMesh m m') (c : Coords K) :
    m'.getPointLocation bvh c = m.getPointLocation bvh c := by
  unfold Mesh.getPointLocation
  cases c.layer with
  | some i =>
    simp only
    rcases h.layer? i.toNat with ⟨h1, h2⟩ | ⟨l, l', h1, h2, hl⟩
    · rw [h1, h2]
    · rw [h1, h2]
      simp only [locationInLayer_loc bvh h _ _ hl]
  | none =>
    simp only
    rw [findFirst_alike h.numbered fun a b hab => ?_]
    rw [hab.1, locationInLayer_loc bvh h _ _ hab.2]

theorem getPointLocations_loc (bvh : Bvh K) (h : LocMesh m m') (c : Coords K) :
    m'.getPointLocations bvh c = m.getPointLocations bvh c := by
  unfold Mesh.getPointLocations
  cases c.layer with
  | some i =>
    simp only
    rcases h.layer? i.toNat with ⟨h1, h2⟩ | ⟨l, l', h1, h2, hl⟩
    · rw [h1, h2]
    · rw [h1, h2]
      simp only [locationInLayer_loc bvh h _ _ hl]
  | none =>
    simp only
    have : RR (List.Forall₂ Eq) (m.numbered.mapM fun il => m.locationInLayer bvh c.pos il.1 il.2)
        (m'.numbered.mapM fun il => m'.locationInLayer bvh c.pos il.1 il.2) := by
      refine RR.mapM h.numbered fun a b hab => ?_
      rw [hab.1, locationInLayer_loc bvh h _ _ hab.2]
      exact RR.refl _
    rw [this.listEq]

theorem closestLoop_loc (h : LocMesh m m') (layer : Option UInt8)
    {f g : Nat → Layer K → Res (Option (Vec2 K × UInt32))} (hfg : ∀ l l', LocLayer l l' → ∀ n, g n l' = f n l) :
    m'.closestLoop layer g = m.closestLoop layer f := by
  have hc : ∀ n i l l', LocLayer l l' → closestInLayer (g n) i l' = closestInLayer (f n) i l := by
    intro n i l l' hl
    unfold closestInLayer
    rw [hfg _ _ hl n, hl.offset]
  unfold Mesh.closestLoop
  rw [h.searchSteps]
  cases layer with
  | some i =>
    refine RR.eq ((RR.idx h.layers _).bind fun l l' hl => ?_)
    simp only [hc _ _ _ _ hl]
    exact RR.refl _
  | none =>
    simp only
    have : ∀ step, findFirst (fun (il : UInt8 × Layer K) => closestInLayer (g step) il.1 il.2) m'.numbered =
        findFirst (fun (il : UInt8 × Layer K) => closestInLayer (f step) il.1 il.2) m.numbered := by
      intro step
      exact findFirst_alike h.numbered fun a b hab => by rw [hab.1, hc _ _ _ _ hab.2]
    simp only [this]

theorem getClosestPoint_loc (bvh : Bvh K) (h : LocMesh m m') (c : Coords K) :
    m'.getClosestPoint bvh c = m.getClosestPoint bvh c := by
  unfold Mesh.getClosestPoint
  refine closestLoop_loc h _ fun l l' hl n => ?_
  unfold Layer.closestInner
  simp only [locate_loc bvh hl, hl.offset, h.searchDelta]

theorem getClosestPointTowards_loc (bvh : Bvh K) (h : LocMesh m m') (c : Coords K) (t : Vec2 K) :
    m'.getClosestPointTowards bvh c t = m.getClosestPointTowards bvh c t := by
  unfold Mesh.getClosestPointTowards
  refine closestLoop_loc h _ fun l l' hl n => ?_
  unfold Layer.towardsInner
  simp only [locate_loc bvh hl, hl.offset, h.searchDelta]

theorem endpointPolygon_loc (bvh : Bvh K) (h : LocMesh m m') (c : Coords K) :
    m'.endpointPolygon bvh c = m.endpointPolygon bvh c := by
  unfold Mesh.endpointPolygon
  rw [getClosestPoint_loc bvh h]

theorem getPointLocation_alike (bvh : Bvh K) (h : SameMesh m m') (c : Coords K) :
    m'.getPointLocation bvh c = m.getPointLocation bvh c := getPointLocation_loc bvh h.loc c

theorem getPointLocations_alike (bvh : Bvh K) (h : SameMesh m m') (c : Coords K) :
    m'.getPointLocations bvh c = m.getPointLocations bvh c := getPointLocations_loc bvh h.loc c

theorem getClosestPoint_alike (bvh : Bvh K) (h : SameMesh m m') (c : Coords K) :
    m'.getClosestPoint bvh c = m.getClosestPoint bvh c := getClosestPoint_loc bvh h.loc c

theorem getClosestPointTowards_alike (bvh : Bvh K) (h : SameMesh m m') (c : Coords K) (t : Vec2 K) :
    m'.getClosestPointTowards bvh c t = m.getClosestPointTowards bvh c t := getClosestPointTowards_loc bvh h.loc c t

theorem SameMesh.alike (h : SameMesh m m') (hd : cfg.detailed = true → m.SmallNumbers ∧ m'.SmallNumbers) :
    MeshAlike cfg m m' := by
  have key : ∀ ls ls' : List (Layer K), (cfg.detailed = true →
      (∀ l ∈ ls, ∀ p ∈ l.polygons, ∀ v ∈ p.vertices, v.toNat < 2 ^ 24) ∧
      (∀ l ∈ ls', ∀ p ∈ l.polygons, ∀ v ∈ p.vertices, v.toNat < 2 ^ 24)) →
      List.Forall₂ SameLayer ls ls' → List.Forall₂ (LayerAlike cfg) ls ls' := by
    intro ls ls' hd h
    induction h with
    | nil => exact .nil
    | @cons l l' ls ls' hl hls ih =>
      refine .cons ⟨?_, hl.rings.scale, hl.rings.islands⟩ (ih fun hc =>
        ⟨fun k hk => (hd hc).1 k (List.mem_cons_of_mem _ hk), fun k hk => (hd hc).2 k (List.mem_cons_of_mem _ hk)⟩)
      have hp := hl.rings.polygons
      have h1 : ∀ p ∈ l.polygons, cfg.detailed = true → ∀ v ∈ p.vertices, layerOf v = 0 :=
        fun p hp hc v hv => UInt8.toNat_inj.1 (layerOf_small ((hd hc).1 l (List.mem_cons_self ..) p hp v hv))
      have h2 : ∀ p ∈ l'.polygons, cfg.detailed = true → ∀ v ∈ p.vertices, layerOf v = 0 :=
        fun p hp hc v hv => UInt8.toNat_inj.1 (layerOf_small ((hd hc).2 l' (List.mem_cons_self ..) p hp v hv))
      revert hp h1 h2
      generalize l.polygons = ps
      generalize l'.polygons = ps'
      intro hp h1 h2
      induction hp with
      | nil => exact .nil
      | @cons p p' ps ps' hpp _ ihp =>
        refine .cons ⟨hpp.1, ?_⟩ (ihp (fun q hq => h1 q (List.mem_cons_of_mem _ hq))
          (fun q hq => h2 q (List.mem_cons_of_mem _ hq)))
        have g1 := h1 p (List.mem_cons_self ..)
        have g2 := h2 p' (List.mem_cons_self ..)
        have hv := hpp.2
        revert hv g1 g2
        generalize p.vertices = vs
        generalize p'.vertices = vs'
        intro g1 g2 hv
        induction hv with
        | nil => exact .nil
        | @cons v v' vs vs' hvv _ ihv =>
          exact .cons ⟨hvv, fun hc => by rw [g1 hc v (List.mem_cons_self ..), g2 hc v' (List.mem_cons_self ..)]⟩
            (ihv (fun hc u hu => g1 hc u (List.mem_cons_of_mem _ hu)) (fun hc u hu => g2 hc u (List.mem_cons_of_mem _ hu)))
  exact key _ _ hd h.layers

/-- Futures whose searches differ in the numbers of vertices. -/
structure FutureAlike (cfg : Cfg) (m m' : Mesh K) (f f' : FuturePath K) : Prop where
  rest : f' = { f with instance? := f'.instance? }
  inst : (f.instance? = none ∧ f'.instance? = none) ∨
    ∃ i i', f.instance? = some i ∧ f'.instance? = some i' ∧ InstAlike cfg m m' i i'

theorem poll_alike (bvh : Bvh K) {heap : Heap K} (hh : heap.ByCost) (h : SameMesh m m') (hm : MeshAlike cfg m m')
    {f f' : FuturePath K} (hf : FutureAlike cfg m m' f f') :
    RR (fun r r' => r'.1 = r.1 ∧ FutureAlike cfg m m' r.2 r'.2) (f.poll bvh heap cfg m) (f'.poll bvh heap cfg m') := by
  have hs : f'.src = f.src := by rw [hf.rest]
  have hd : f'.dst = f.dst := by rw [hf.rest]
  unfold FuturePath.poll
  rcases hf.inst with ⟨h1, h2⟩ | ⟨i, i', h1, h2, hi⟩
  · rw [h1, h2]
    simp only
    rw [hs, hd, getPointLocation_alike bvh h]
    refine RR.bindEq fun s => ?_
    split
    · exact .ok ⟨rfl, hf⟩
    rw [getPointLocation_alike bvh h]
    refine RR.bindEq fun e => ?_
    split
    · exact .ok ⟨rfl, hf⟩
    rw [islandsDifferAsync_alike hm]
    refine RR.bindEq fun b => ?_
    split
    · exact .ok ⟨rfl, hf⟩
    split
    · exact .ok ⟨rfl, hf⟩
    refine (setup_alike hm _ _ _).bind fun i i' hi => .ok ⟨rfl, rfl, .inr ⟨_, _, rfl, rfl, hi⟩⟩
  · rw [h1, h2]
    simp only
    refine (pollSteps_alike hh hm 3 hi).bind ?_
    rintro ⟨r, j⟩ ⟨r', j'⟩ ⟨hr, hj⟩
    simp only at hr
    subst hr
    have hff : FutureAlike cfg m m' { f with instance? := some j } { f' with instance? := some j' } :=
      ⟨by rw [hf.rest], .inr ⟨_, _, rfl, rfl, hj⟩⟩
    cases r' with
    | some p => exact .ok ⟨rfl, hff⟩
    | none => exact .ok ⟨rfl, hff⟩

/-! ### Baking -/

theorem neighbours_alike {p p' : Polygon} (h : List.Forall₂ (SameCorner l l') p.vertices p'.vertices) :
    l'.neighbours p' = l.neighbours p := by
  unfold Layer.neighbours
  have : RR (List.Forall₂ (fun x x' : Vertex K => x'.polygons = x.polygons))
      (p.vertices.mapM (fun v => idx l.vertices v.toNat)) (p'.vertices.mapM (fun v => idx l'.vertices v.toNat)) := by
    refine RR.mapM h ?_
    rintro v v' ⟨x, x', h1, h2, -, h4, -⟩
    rw [idx_eq_ok.2 h1, idx_eq_ok.2 h2]
    exact .ok h4
  refine RR.eq (this.bind fun vs vs' hv => ?_)
  have : vs'.flatMap (·.polygons) = vs.flatMap (·.polygons) := by
    induction hv with
    | nil => rfl
    | cons h _ ih => rw [List.flatMap_cons, List.flatMap_cons, ih, h]
  rw [this]
  exact .ok rfl

theorem floodFuel_alike (h : SameRings l l') : l'.floodFuel = l.floodFuel := by
  unfold Layer.floodFuel
  congr 2
  have := h.polygons
  revert this
  generalize l.polygons = ps
  generalize l'.polygons = ps'
  intro hp
  induction hp with
  | nil => rfl
  | cons hpp _ ih => rw [List.map_cons, List.map_cons, ih, neighbours_alike hpp.2]

theorem flood_alike (h : SameRings l l') (root : Nat) : ∀ (fuel : Nat) (stack : List Nat) (isl : List (Option Nat)),
    l'.flood root fuel stack isl = l.flood root fuel stack isl := by
  intro fuel
  induction fuel with
  | zero => intros; rfl
  | succ fuel ih =>
    intro stack isl
    cases stack with
    | nil => rfl
    | cons next stack =>
      rw [Layer.flood, Layer.flood]
      refine RR.eq (RR.bindEq fun label => ?_)
      split
      · refine (RR.idx h.polygons next).bind fun p p' hp => ?_
        simp only
        rw [neighbours_alike hp.2]
        refine RR.bindEq fun nb => ?_
        rw [ih]
        exact RR.refl _
      · rw [ih]
        exact RR.refl _

theorem floodAll_alike (h : SameRings l l') : ∀ (fuel : Nat) (isl : List (Option Nat)),
    l'.floodAll fuel isl = l.floodAll fuel isl := by
  intro fuel
  induction fuel with
  | zero => intros; rfl
  | succ fuel ih =>
    intro isl
    simp only [Layer.floodAll, ih, flood_alike h, floodFuel_alike h]

theorem polygonAabb_alike {p p' : Polygon} (h : List.Forall₂ (SamePlace l l') p.vertices p'.vertices) :
    l'.polygonAabb p' = l.polygonAabb p := by
  unfold Layer.polygonAabb
  generalize ((⟨Scalar.maxVal, Scalar.maxVal⟩, Vec2.zero) : Aabb K) = a
  revert h a
  generalize p.vertices = vs
  generalize p'.vertices = vs'
  intro h
  induction h with
  | nil => intro a; rfl
  | cons hv _ ih =>
    intro a
    obtain ⟨x, x', h1, h2, h3⟩ := hv
    rw [List.foldl_cons, List.foldl_cons, ih]
    congr 1
    unfold Layer.aabbVertex
    rw [h1, h2]
    simp only [h3]

theorem layer_bake_alike (h : SameLayer l l') : RR SameLayer l.bake l'.bake := by
  unfold Layer.bake
  have hb : l'.polygons.map l'.polygonAabb = l.polygons.map l.polygonAabb := by
    have := h.places
    revert this
    generalize l.polygons = ps
    generalize l'.polygons = ps'
    intro hp
    induction hp with
    | nil => rfl
    | cons hpp _ ih => rw [List.map_cons, List.map_cons, ih, polygonAabb_alike hpp]
  have h1 : SameLayer l.bakePolygonFinder l'.bakePolygonFinder :=
    ⟨⟨h.rings.polygons, h.rings.scale, h.rings.islands⟩, h.offset, congrArg some hb, h.coords⟩
  unfold Layer.bakeIslands
  rw [floodAll_alike h1.rings, h1.rings.polygons.length_eq]
  exact RR.bindEq fun isl => .ok ⟨⟨h1.rings.polygons, h1.rings.scale, rfl⟩, h1.offset, h1.baked, h1.coords⟩

theorem mesh_bake_alike (h : SameMesh m m') : RR SameMesh m.bake m'.bake := by
  unfold Mesh.bake
  exact (RR.mapM h.layers fun l l' hl => layer_bake_alike hl).bind fun ls ls' hls =>
    .ok ⟨hls, h.searchDelta, h.searchSteps⟩

end Polyanya
