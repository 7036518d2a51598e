import Verif.Proofs.Found
import Verif.Proofs.Fuel
import Verif.Spec.WellFormed
/-
No faults on well-formed meshes.
-/

namespace Polyanya

variable {K : Type} [Scalar K] {α β σ : Type}

/-- The computation succeeds. -/
structure Safe (x : Res α) : Prop where
  ex : ∃ a, x = .ok a

theorem safe_ok (a : α) : Safe (.ok a : Res α) := ⟨a, rfl⟩

theorem safe_bind {x : Res α} {f : α → Res β} (hx : Safe x)
    (hf : ∀ a, x = .ok a → Safe (f a)) : Safe (x >>= f) := by
  obtain ⟨a, rfl⟩ := hx
  exact hf a rfl

theorem safe_idx {l : List α} {i : Nat} (h : i < l.length) : Safe (idx l i) :=
  ⟨l[i], idx_eq_ok.2 (List.getElem?_eq_getElem h)⟩

theorem safe_idxUnchecked {l : List α} {i : Nat} (h : i < l.length) : Safe (idxUnchecked l i) :=
  ⟨l[i], idxUnchecked_eq_ok.2 (List.getElem?_eq_getElem h)⟩

theorem safe_findFirst {f : α → Res (Option β)} (l : List α) (h : ∀ a ∈ l, Safe (f a)) :
    Safe (findFirst f l) := by
  induction l with
  | nil => exact safe_ok _
  | cons a l ih =>
    refine safe_bind (h a (List.mem_cons_self ..)) (fun r _ => ?_)
    cases r with
    | some b => exact safe_ok _
    | none => exact ih (fun x hx => h x (List.mem_cons_of_mem _ hx))

theorem safe_mapM {f : α → Res β} (l : List α) (h : ∀ a ∈ l, Safe (f a)) : Safe (l.mapM f) := by
  induction l with
  | nil => simpa using safe_ok _
  | cons a l ih =>
    rw [List.mapM_cons]
    refine safe_bind (h a (List.mem_cons_self ..)) (fun _ _ => ?_)
    exact safe_bind (ih (fun x hx => h x (List.mem_cons_of_mem _ hx))) (fun _ _ => safe_ok _)

theorem safe_foldlM {f : σ → α → Res σ} (P : σ → Prop) (l : List α) (s : σ) (h0 : P s)
    (h : ∀ s, ∀ a ∈ l, P s → Safe (f s a)) (hp : ∀ s a s', a ∈ l → P s → f s a = .ok s' → P s') :
    Safe (l.foldlM f s) := by
  induction l generalizing s with
  | nil => exact safe_ok _
  | cons a l ih =>
    rw [List.foldlM_cons]
    refine safe_bind (h s a (List.mem_cons_self ..) h0) (fun s' hs' => ?_)
    exact ih s' (hp s a s' (List.mem_cons_self ..) h0 hs')
      (fun s x hx => h s x (List.mem_cons_of_mem _ hx))
      (fun s x s' hx => hp s x s' (List.mem_cons_of_mem _ hx))

theorem safe_edgesIndex {p : Polygon} (h : p.vertices ≠ []) : Safe p.edgesIndex := by
  unfold Polygon.edgesIndex
  split
  · contradiction
  · exact safe_ok _

theorem isEdge_mem {vs : List UInt32} {a b : UInt32} (h : IsEdge vs a b) : a ∈ vs ∧ b ∈ vs := by
  obtain ⟨i, -, h1, h2⟩ := h
  exact ⟨List.mem_of_getElem? h1, List.mem_of_getElem? h2⟩

theorem lt_of_getElem? {l : List α} {i : Nat} {a : α} (h : l[i]? = some a) : i < l.length :=
  (List.getElem?_eq_some_iff.1 h).1

theorem max_toNat (a b : UInt32) : (max a b).toNat = max a.toNat b.toNat := by
  rw [show max a b = if a ≤ b then b else a from rfl]
  split
  · rename_i h
    have := UInt32.le_iff_toNat_le.1 h
    omega
  · rename_i h
    have : ¬ a.toNat ≤ b.toNat := fun hh => h (UInt32.le_iff_toNat_le.2 hh)
    omega

theorem safe_pointInEdges (l : Layer K) (pt : Vec2 K) : ∀ es, Safe (l.pointInEdges pt es)
  | [] => safe_ok _
  | e :: es => by
    unfold Layer.pointInEdges
    split
    · exact safe_ok _
    · rename_i h
      have h := Nat.lt_of_not_le h
      rw [max_toNat] at h
      refine safe_bind (safe_idxUnchecked (by omega)) (fun _ _ => safe_bind
        (safe_idxUnchecked (by omega)) (fun _ _ => ?_))
      simp only
      split
      · exact safe_ok _
      · split
        · exact safe_ok _
        · exact safe_pointInEdges l pt es

theorem safe_pointInPolygon {l : Layer K} (pt : Vec2 K) {p : Polygon} (h : p.vertices ≠ []) :
    Safe (l.pointInPolygon pt p) :=
  safe_bind (safe_edgesIndex h) (fun _ _ => safe_pointInEdges _ _ _)

theorem safe_scanPolygons {l : Layer K} (pt : Vec2 K) : ∀ ps i, (∀ p ∈ ps, p.vertices ≠ []) →
    Safe (l.scanPolygons pt i ps)
  | [], _, _ => safe_ok _
  | p :: ps, i, h => by
    unfold Layer.scanPolygons
    refine safe_bind (safe_pointInPolygon _ (h p (List.mem_cons_self ..))) (fun b _ => ?_)
    split
    · exact safe_ok _
    · exact safe_scanPolygons pt ps _ (fun p hp => h p (List.mem_cons_of_mem _ hp))

theorem safe_locate {l : Layer K} {bvh : Bvh K} (hb : bvh.InRange) (hl : l.Findable) (pt : Vec2 K) :
    Safe (l.locate bvh pt) := by
  unfold Layer.locate
  split
  · exact safe_scanPolygons _ _ _ hl.nonempty
  · rename_i boxes hbk
    unfold Layer.locationUnitBaked
    refine safe_bind (safe_findFirst _ (fun i hi => ?_)) (fun _ _ => safe_ok _)
    have hlt : i < l.polygons.length := by rw [← hl.baked boxes hbk]; exact hb _ _ i hi
    refine safe_bind (safe_idx hlt) (fun p hp => safe_bind (safe_pointInPolygon _
      (hl.nonempty p (List.mem_of_getElem? (idx_eq_ok.1 hp)))) (fun _ _ => ?_))
    split <;> exact safe_ok _

theorem safe_locationInLayer {m : Mesh K} {bvh : Bvh K} (hb : bvh.InRange) {l : Layer K}
    (hl : l.Findable) (pt : Vec2 K) (i : UInt8) : Safe (m.locationInLayer bvh pt i l) := by
  unfold Mesh.locationInLayer
  refine safe_bind (safe_findFirst _ (fun d _ => ?_)) (fun _ _ => safe_ok _)
  exact safe_bind (safe_locate hb hl _) (fun _ _ => safe_ok _)

theorem mem_numbered' {m : Mesh K} {il : UInt8 × Layer K} (h : il ∈ m.numbered) : il.2 ∈ m.layers := by
  obtain ⟨j, hj, -⟩ := mem_numbered (m := m) (i := il.1) (l := il.2) h
  exact List.mem_of_getElem? hj

theorem safe_getPointLocation {m : Mesh K} {bvh : Bvh K} (hb : bvh.InRange)
    (hm : ∀ l ∈ m.layers, l.Findable) (c : Coords K) : Safe (m.getPointLocation bvh c) := by
  unfold Mesh.getPointLocation
  split
  · split
    · rename_i l hl
      exact safe_bind (safe_locationInLayer hb (hm l (List.mem_of_getElem? hl)) _ _)
        (fun _ _ => safe_ok _)
    · exact safe_ok _
  · refine safe_bind (safe_findFirst _ (fun il hil => ?_)) (fun _ _ => safe_ok _)
    exact safe_bind (safe_locationInLayer hb (hm _ (mem_numbered' hil)) _ _) (fun _ _ => safe_ok _)

theorem safe_getPointLocations {m : Mesh K} {bvh : Bvh K} (hb : bvh.InRange)
    (hm : ∀ l ∈ m.layers, l.Findable) (c : Coords K) : Safe (m.getPointLocations bvh c) := by
  unfold Mesh.getPointLocations
  split
  · split
    · rename_i l hl
      exact safe_bind (safe_locationInLayer hb (hm l (List.mem_of_getElem? hl)) _ _)
        (fun _ _ => safe_ok _)
    · exact safe_ok _
  · refine safe_bind (safe_mapM _ (fun il hil => ?_)) (fun _ _ => safe_ok _)
    exact safe_locationInLayer hb (hm _ (mem_numbered' hil)) _ _

theorem safe_closestLoop {m : Mesh K} {layer : Option UInt8}
    {inner : Nat → Layer K → Res (Option (Vec2 K × UInt32))}
    (hl : ∀ i, layer = some i → i.toNat < m.layers.length)
    (h : ∀ s, ∀ l ∈ m.layers, Safe (inner s l)) : Safe (m.closestLoop layer inner) := by
  have h' : ∀ s i, ∀ l ∈ m.layers, Safe (closestInLayer (inner s) i l) :=
    fun s i l hl => safe_bind (h s l hl) (fun _ _ => safe_ok _)
  unfold Mesh.closestLoop
  split
  · refine safe_bind (safe_idx (hl _ rfl)) (fun l hl => safe_findFirst _ (fun _ _ => h' _ _ _ ?_))
    exact List.mem_of_getElem? (idx_eq_ok.1 hl)
  · exact safe_findFirst _ (fun _ _ => safe_findFirst _ (fun _ hil => h' _ _ _ (mem_numbered' hil)))

theorem safe_getClosestPoint {m : Mesh K} {bvh : Bvh K} (hb : bvh.InRange)
    (hm : ∀ l ∈ m.layers, l.Findable) {c : Coords K}
    (hc : ∀ i, c.layer = some i → i.toNat < m.layers.length) : Safe (m.getClosestPoint bvh c) := by
  refine safe_closestLoop hc (fun s l hl => ?_)
  unfold Layer.closestInner
  refine safe_findFirst _ (fun _ _ => ?_)
  exact safe_bind (safe_locate hb (hm l hl) _) (fun _ _ => safe_ok _)

theorem safe_getClosestPointTowards {m : Mesh K} {bvh : Bvh K} (hb : bvh.InRange)
    (hm : ∀ l ∈ m.layers, l.Findable) {c : Coords K}
    (hc : ∀ i, c.layer = some i → i.toNat < m.layers.length) (t : Vec2 K) :
    Safe (m.getClosestPointTowards bvh c t) := by
  refine safe_closestLoop hc (fun s l hl => ?_)
  unfold Layer.towardsInner
  exact safe_bind (safe_locate hb (hm l hl) _) (fun _ _ => safe_ok _)

/-- A located polygon exists. -/
theorem located_hasPolygon {cfg : Cfg} {m : Mesh K} {bvh : Bvh K} (hm : m.WF cfg) {c : Coords K}
    (hc : c.WF m) {id : UInt32} (h : Located m bvh c id) : ∃ l p, HasPolygon m id l p := by
  rcases h with ⟨h1, rfl⟩ | ⟨-, c', h1, rfl⟩
  · exact hc.polygon h1
  · obtain ⟨step, j, l, np, r, -, hj, -, hi, rfl⟩ := closestLoop_found h1
    obtain ⟨h2, h3⟩ := closestInner_found hi
    have hl := (hm.layer l (List.mem_of_getElem? hj)).sized
    have hlt := locate_lt hl h2 h3
    have hj' := lt_of_getElem? hj
    have hm := hm.layers
    refine ⟨l, l.polygons[r.toNat], ?_, ?_⟩
    · simp only
      rw [idLayer_packId _ _ (by omega), UInt8.toNat_ofNat_of_lt' (show j < 256 by omega)]
      exact hj
    · simp only
      rw [idPolygon_packId _ _ (by omega)]
      exact List.getElem?_eq_getElem hlt

theorem getPointLocation_hasPolygon {cfg : Cfg} {m : Mesh K} {bvh : Bvh K} (hm : m.WF cfg)
    {c : Coords K} {id : UInt32} (hloc : m.getPointLocation bvh c = .ok id) (hid : id ≠ u32Max) :
    ∃ l p, HasPolygon m id l p := by
  have key : ∀ (i : UInt8) (l : Layer K), m.layers[i.toNat]? = some l →
      m.locationInLayer bvh c.pos i l = .ok (some id) → ∃ l p, HasPolygon m id l p := by
    clear hloc
    intro i l hl h
    unfold Mesh.locationInLayer at h
    simp only [bind_eq_ok, Except.ok.injEq, Option.map_eq_some_iff] at h
    obtain ⟨_, h, r, rfl, rfl⟩ := h
    unfold Layer.getPointLocation at h
    obtain ⟨l1, d, l2, -, h, -⟩ := findFirst_some h
    simp only [bind_eq_ok, Except.ok.injEq] at h
    obtain ⟨p, hp, h⟩ := h
    split at h
    · rename_i hne
      simp only [Option.some.injEq] at h
      subst h
      have hs := (hm.layer l (List.mem_of_getElem? hl)).sized
      have hlt := locate_lt hs hp hne
      refine ⟨l, l.polygons[p.toNat], ?_, ?_⟩
      · rw [idLayer_packId _ _ (by omega)]; exact hl
      · rw [idPolygon_packId _ _ (by omega)]; exact List.getElem?_eq_getElem hlt
    · simp at h
  unfold Mesh.getPointLocation at hloc
  have h := hloc
  clear hloc
  split at h
  · rename_i i _
    split at h
    · rename_i l hl
      simp only [bind_eq_ok, Except.ok.injEq] at h
      obtain ⟨o, ho, h⟩ := h
      cases o with
      | none => exact absurd h.symm hid
      | some r => simp only [Option.getD_some] at h; subst h; exact key i l hl ho
    · simp only [Except.ok.injEq] at h; exact absurd h.symm hid
  · simp only [bind_eq_ok, Except.ok.injEq] at h
    obtain ⟨o, ho, h⟩ := h
    cases o with
    | none => exact absurd h.symm hid
    | some r =>
      simp only [Option.getD_some] at h
      subst h
      obtain ⟨l1, ⟨i, l⟩, l2, hn, h, -⟩ := findFirst_some ho
      simp only [bind_eq_ok, Except.ok.injEq, Option.filter_eq_some_iff] at h
      obtain ⟨_, h, rfl, -⟩ := h
      obtain ⟨j, hj, rfl⟩ := mem_numbered (m := m) (i := i) (l := l) (by rw [hn]; simp)
      have := lt_of_getElem? hj
      have := hm.layers
      exact key _ l (by rw [UInt8.toNat_ofNat_of_lt' (show j < 256 by omega)]; exact hj) h

/-- `id` denotes a polygon. -/
def Exists (m : Mesh K) (id : UInt32) : Prop := ∃ l p, HasPolygon m id l p

theorem Exists.layer_lt {m : Mesh K} {id : UInt32} (h : Exists m id) :
    (layerOf id).toNat < m.layers.length := by
  obtain ⟨l, p, h1, -⟩ := h
  rw [layerOf_toNat]
  exact lt_of_getElem? h1

theorem exists_of_open {m : Mesh K} {id : UInt32} (h : Open m id) : Exists m id := by
  obtain ⟨l, p, h1, h2, -⟩ := h
  rw [layerOf_toNat] at h1
  rw [polygonOf_toNat] at h2
  exact ⟨l, p, h1, h2⟩

/-- The two lookups of a polygon succeed. -/
theorem safe_lookup {m : Mesh K} {id : UInt32} (h : Exists m id) {f : Polygon → Res α}
    (hf : ∀ l p, HasPolygon m id l p → Safe (f p)) :
    Safe (do let l ← idx m.layers (layerOf id).toNat
             let p ← idx l.polygons (polygonOf id).toNat
             f p) := by
  obtain ⟨l, p, h1, h2⟩ := h
  refine safe_bind (safe_idx (by rw [layerOf_toNat]; exact lt_of_getElem? h1)) (fun l' hl' => ?_)
  rw [idx_eq_ok, layerOf_toNat, h1] at hl'
  obtain rfl := Option.some.inj hl'
  refine safe_bind (safe_idx (by rw [polygonOf_toNat]; exact lt_of_getElem? h2)) (fun p' hp' => ?_)
  rw [idx_eq_ok, polygonOf_toNat] at hp'
  exact hf l p' ⟨h1, hp'⟩

/-- Vertices lead to existing polygons. -/
theorem otherSide_exists {cfg : Cfg} {m : Mesh K} (hm : m.WF cfg) {l : Layer K} (hl : l ∈ m.layers)
    {start stop : Vertex K} (hs : start ∈ l.vertices) {cur : UInt32}
    (h : otherSideOf start stop cur ≠ u32Max) : Exists m (otherSideOf start stop cur) :=
  hm.refs l hl start hs _ (otherSideOf_mem h).1 h

theorem layerOf_small {v : UInt32} (h : v.toNat < 2 ^ 24) : (layerOf v).toNat = 0 := by
  rw [layerOf_toNat]; unfold idLayer; omega

theorem safe_addNode {cfg : Cfg} {m : Mesh K} (hm : m.WF cfg) (inst : Inst K) (root : Vec2 K)
    (o : UInt32) (start stop : Vec2 K × UInt32) (node : SearchNode K) (hn : Exists m node.polygonTo)
    {l : Layer K} (hl : l ∈ m.layers) (hs : start.2.toNat < l.vertices.length)
    (he : stop.2.toNat < l.vertices.length) : Safe (inst.addNode cfg m root o start stop node) := by
  unfold Inst.addNode
  have hpos : 0 < m.layers.length := by have := hn.layer_lt; omega
  refine safe_bind ?_ (fun _ _ => safe_bind ?_ (fun _ _ => ?_))
  · unfold newDistance
    split
    · exact safe_ok _
    · split
      · exact safe_bind (safe_idx hn.layer_lt) (fun _ _ => safe_ok _)
      · exact safe_ok _
  · unfold newHeuristic
    split
    · rename_i hd
      have := hm.vertices hd l hl
      exact safe_bind (safe_idx (by rw [layerOf_small (by omega)]; exact hpos)) (fun _ _ =>
        safe_bind (safe_idx (by rw [layerOf_small (by omega)]; exact hpos)) (fun _ _ => safe_ok _))
    · exact safe_ok _
  · split
    · exact safe_ok _
    · simp only
      split
      · split <;> exact safe_ok _
      · exact safe_ok _

theorem safe_setup {cfg : Cfg} {m : Mesh K} (hm : m.WF cfg) (src dst : Vec2 K × UInt32)
    (blocked : List UInt8) (hs : Exists m src.2) : Safe (Inst.setup cfg m src dst blocked) := by
  unfold Inst.setup
  obtain ⟨l, p, h1, h2⟩ := hs
  have hl := List.mem_of_getElem? h1
  have hp := List.mem_of_getElem? h2
  refine safe_bind (safe_idx (by rw [layerOf_toNat]; exact lt_of_getElem? h1)) (fun l' hl' => ?_)
  rw [idx_eq_ok, layerOf_toNat, h1] at hl'
  obtain rfl := Option.some.inj hl'
  refine safe_bind (safe_idx (by rw [polygonOf_toNat]; exact lt_of_getElem? h2)) (fun p' hp' => ?_)
  rw [idx_eq_ok, polygonOf_toNat, h2] at hp'
  obtain rfl := Option.some.inj hp'
  refine safe_bind (safe_edgesIndex ((hm.layer l hl).nonempty p hp)) (fun es hes => ?_)
  refine safe_bind (safe_foldlM (fun _ => True) _ _ trivial (fun inst e he _ => ?_)
    (fun _ _ _ _ _ _ => trivial)) (fun _ _ => safe_ok _)
  unfold setupEdge
  split
  · rename_i start stop hst hsp
    simp only
    split
    · exact safe_ok _
    · refine safe_bind ?_ (fun _ _ => ?_)
      · split
        · exact safe_ok _
        · split
          · exact safe_ok _
          · rename_i hne
            exact safe_lookup (otherSide_exists hm hl (List.mem_of_getElem? hst) hne)
              (fun _ _ _ => safe_ok _)
      · split
        · exact safe_addNode hm _ _ _ _ _ _ ⟨l, p, h1, h2⟩ hl (lt_of_getElem? hst)
            (lt_of_getElem? hsp)
        · exact safe_ok _
  · exact safe_ok _

theorem safe_rightIndex {cfg : Cfg} {m : Mesh K} (hm : m.WF cfg) (hn : m.NoNan) {l l' : Layer K}
    (hl : l ∈ m.layers) (hl' : l' ∈ m.layers) {p : Polygon} (hp : p ∈ l.polygons) {v : Vertex K}
    (hv : v ∈ l'.vertices) : Safe (rightIndex l p (v.coords + l'.offset)) := by
  have hr := (hm.layer l hl).inRange p hp
  have hmem : ∀ x ∈ p.vertices.zipIdx, x.1.toNat < l.vertices.length := by
    intro x hx
    exact hr x.1 (List.fst_mem_of_mem_zipIdx hx)
  unfold rightIndex
  refine safe_bind (safe_findFirst _ (fun x hx => safe_bind (safe_idx (hmem x hx))
    (fun _ _ => safe_ok _))) (fun r _ => ?_)
  cases r with
  | some i => exact safe_ok _
  | none =>
    refine safe_bind (safe_mapM _ (fun x hx => safe_bind (safe_idx (hmem x hx))
      (fun _ _ => safe_ok _))) (fun ds hds => ?_)
    have hf := mapM_ok_iff.1 hds
    split
    · rename_i hnan
      exfalso
      simp only [Bool.and_eq_true, List.any_eq_true] at hnan
      obtain ⟨-, d, hd, hnan⟩ := hnan
      obtain ⟨i, hi⟩ := List.mem_iff_getElem?.1 hd
      have hlen := hf.length_eq
      have hi' := lt_of_getElem? hi
      have := (List.forall₂_iff_get.1 hf).2 i (by omega) hi'
      simp only [bind_eq_ok, idx_eq_ok, Except.ok.injEq] at this
      obtain ⟨vx, hvx, hd2⟩ := this
      have hd3 : ds.get ⟨i, hi'⟩ = d := by
        have := List.getElem?_eq_getElem hi'
        rw [hi] at this
        simpa using this.symm
      rw [hd3] at hd2
      rw [← hd2] at hnan
      rw [hn.dist l hl vx (List.mem_of_getElem? hvx) l' hl' v hv] at hnan
      exact Bool.noConfusion hnan
    · split
      · exact safe_ok _
      · rename_i hnone
        exfalso
        rw [List.head?_eq_none_iff] at hnone
        have h1 := List.length_mergeSort (le := fun (a b : Nat × K) => a.2 <=. b.2) ds
        rw [hnone] at h1
        have h2 := hf.length_eq
        have h3 := (hm.layer l hl).nonempty p hp
        have : p.vertices.length ≠ 0 := by simpa using h3
        simp only [List.length_nil, List.length_zipIdx] at h1 h2
        omega

theorem safe_edgesBetween {q : Query K} (hm : q.mesh.WF q.cfg) (hn : q.mesh.NoNan)
    {node : SearchNode K} {cs : List Crossing} (hi : NodeInv q node cs)
    (hto : Exists q.mesh node.polygonTo) : Safe (edgesBetween q.mesh node) := by
  obtain ⟨l, p, h1, h2⟩ := hto
  have hl := List.mem_of_getElem? h1
  have hp := List.mem_of_getElem? h2
  obtain ⟨l', p', va, vb, ⟨h1', h2'⟩, -, -, hvb, -⟩ := hi.valid
  have hl' := List.mem_of_getElem? h1'
  unfold edgesBetween
  refine safe_bind (safe_idx (by rw [layerOf_toNat]; exact lt_of_getElem? h1)) (fun l2 hl2 => ?_)
  rw [idx_eq_ok, layerOf_toNat, h1] at hl2
  obtain rfl := Option.some.inj hl2
  refine safe_bind (safe_idx (by rw [polygonOf_toNat]; exact lt_of_getElem? h2)) (fun p2 hp2 => ?_)
  rw [idx_eq_ok, polygonOf_toNat, h2] at hp2
  obtain rfl := Option.some.inj hp2
  rw [hi.prev]
  refine safe_bind (safe_idx (by rw [layerOf_toNat]; exact lt_of_getElem? h1')) (fun l2 hl2 => ?_)
  rw [idx_eq_ok, layerOf_toNat] at hl2
  have : l' = l2 := Option.some.inj (h1'.symm.trans hl2)
  subst this
  refine safe_bind (safe_idx (lt_of_getElem? hvb)) (fun ev hev => ?_)
  rw [idx_eq_ok] at hev
  refine safe_bind (safe_rightIndex hm hn hl hl' hp (List.mem_of_getElem? hev)) (fun ri _ => ?_)
  refine safe_bind ?_ (fun es hes => safe_bind ?_ (fun _ _ => safe_ok _))
  · exact safe_bind (safe_edgesIndex ((hm.layer l hl).nonempty p hp)) (fun _ _ => safe_ok _)
  · refine safe_foldlM (fun _ => True) _ _ trivial (fun st e he _ => ?_) (fun _ _ _ _ _ _ => trivial)
    unfold Polygon.circularEdgesIndex at hes
    simp only [bind_eq_ok, Except.ok.injEq] at hes
    obtain ⟨es', hes', rfl⟩ := hes
    have he' := List.mem_of_mem_drop (List.mem_of_mem_take he)
    rw [List.mem_append, or_self] at he'
    obtain ⟨m1, m2⟩ := isEdge_mem ((mem_edgesIndex hes' e.1 e.2).1 he')
    have r1 := (hm.layer l hl).inRange p hp _ m1
    have r2 := (hm.layer l hl).inRange p hp _ m2
    unfold edgesBetweenStep
    split
    · exact safe_ok _
    · exact safe_bind (safe_idxUnchecked r1) (fun _ _ => safe_bind (safe_idxUnchecked r2)
        (fun _ _ => safe_ok _))

theorem safe_successorRoot {q : Query K} {node : SearchNode K} {cs : List Crossing}
    (hi : NodeInv q node cs) (layer : Layer K) (start stop : Vertex K) (s : Successor K) :
    Safe (successorRoot q.mesh q.blocked node layer start stop s) := by
  obtain ⟨l', p', va, vb, ⟨h1', h2'⟩, -, hva, hvb, -⟩ := hi.valid
  have hlt : node.previousPolygonLayer.toNat < q.mesh.layers.length := by
    rw [hi.prev, layerOf_toNat]; exact lt_of_getElem? h1'
  have key : ∀ l2, idx q.mesh.layers node.previousPolygonLayer.toNat = .ok l2 → l2 = l' := by
    intro l2 h
    rw [idx_eq_ok, hi.prev, layerOf_toNat] at h
    exact (Option.some.inj (h1'.symm.trans h)).symm
  unfold successorRoot
  split
  · split
    · exact safe_ok _
    · refine safe_bind (safe_idx hlt) (fun l2 hl2 => ?_)
      rw [key l2 hl2]
      refine safe_bind (safe_idx (lt_of_getElem? hva)) (fun _ _ => ?_)
      split <;> exact safe_ok _
  · exact safe_ok _
  · split
    · exact safe_ok _
    · refine safe_bind (safe_idx hlt) (fun l2 hl2 => ?_)
      rw [key l2 hl2]
      refine safe_bind (safe_idx (lt_of_getElem? hvb)) (fun _ _ => ?_)
      split <;> exact safe_ok _

theorem safe_expandOne {q : Query K} (hm : q.mesh.WF q.cfg) {node : SearchNode K}
    {cs : List Crossing} (hi : NodeInv q node cs) (hto : Exists q.mesh node.polygonTo)
    {succs : List (Successor K)} (he : edgesBetween q.mesh node = .ok succs) {s : Successor K}
    (hs : s ∈ succs) {inst : Inst K} (hinst : InstOk q inst) :
    Safe (expandOne q.cfg q.mesh node inst s) := by
  obtain ⟨layer, poly, hl, hp, hon⟩ := edgesBetween_on he
  obtain ⟨-, va, vb, hva, hvb, -⟩ := hon s hs
  unfold expandOne
  refine safe_bind (safe_idx (lt_of_getElem? hl)) (fun l2 hl2 => ?_)
  rw [idx_eq_ok, hl] at hl2
  obtain rfl := Option.some.inj hl2
  refine safe_bind (safe_idxUnchecked (lt_of_getElem? hva)) (fun v2 hv2 => ?_)
  rw [idxUnchecked_eq_ok, hva] at hv2
  obtain rfl := Option.some.inj hv2
  refine safe_bind (safe_idxUnchecked (lt_of_getElem? hvb)) (fun v2 hv2 => ?_)
  rw [idxUnchecked_eq_ok, hvb] at hv2
  obtain rfl := Option.some.inj hv2
  simp only
  split
  · exact safe_ok _
  rename_i hmax
  have hex := otherSide_exists hm (List.mem_of_getElem? hl) (List.mem_of_getElem? hva) hmax
  split
  · exact safe_ok _
  refine safe_bind ?_ (fun _ _ => ?_)
  · split
    · exact safe_lookup hex (fun _ _ _ => safe_ok _)
    · exact safe_ok _
  split
  · exact safe_ok _
  split
  · exact safe_ok _
  rw [hinst.blocked]
  refine safe_bind (safe_successorRoot hi ..) (fun r _ => ?_)
  cases r with
  | none => exact safe_ok _
  | some root =>
    simp only
    split
    · exact safe_ok _
    · exact safe_addNode hm _ _ _ _ _ _ hto (List.mem_of_getElem? hl) (lt_of_getElem? hva)
        (lt_of_getElem? hvb)

/-- The layers recorded in `path_with_layers` exist. -/
theorem gen_layers {q : Query K} (hm : q.mesh.WF q.cfg) (hs : Exists q.mesh q.src.2)
    (hd : q.dst.2 ≠ u32Max) (hde : Exists q.mesh q.dst.2)
    {n : SearchNode K} (h : Gen q n) : Exists q.mesh n.polygonTo ∧
      ∀ e ∈ n.pathWithLayers, e.2.2.toNat < q.mesh.layers.length := by
  have added : ∀ {root other start stop node n}, Added q root other start stop node n →
      Exists q.mesh other → Exists q.mesh node.polygonTo →
      (∀ e ∈ node.pathWithLayers, e.2.2.toNat < q.mesh.layers.length) →
      Exists q.mesh n.polygonTo ∧ ∀ e ∈ n.pathWithLayers, e.2.2.toNat < q.mesh.layers.length := by
    intro root other start stop node n hA ho hn hl
    obtain ⟨newF, hh, -, -, -, -, rfl⟩ := hA
    refine ⟨ho, ?_⟩
    intro e he
    simp only [mkNode, newPathWithLayers] at he
    split at he
    · split at he
      · rcases List.mem_append.1 he with he | he
        · split at he
          · exact hl e he
          · rcases List.mem_append.1 he with he | he
            · exact hl e he
            · rw [List.mem_singleton.1 he]; exact hn.layer_lt
        · rw [List.mem_singleton.1 he]; exact ho.layer_lt
      · split at he
        · exact hl e he
        · rcases List.mem_append.1 he with he | he
          · exact hl e he
          · rw [List.mem_singleton.1 he]; exact hn.layer_lt
    · simp at he
  induction h with
  | setup hset =>
    obtain ⟨layer, poly, edges, edge, start, stop, hl, hp, he, hmem, h0, h1, hb, hgo, hA⟩ := hset
    refine added hA ?_ hs (by simp [emptyNode])
    rcases hgo with hgo | hgo
    · rw [hgo]; exact hde
    · exact exists_of_open hgo.2
  | @child node n _ hc ih =>
    obtain ⟨layer, succs, s, start, stop, root, hnd, hl, he, hsm, h0, h1, hmax, hb, hgo, hfrom, hr, -, hA⟩
      := hc
    exact added hA (otherSide_exists hm (List.mem_of_getElem? hl) (List.mem_of_getElem? h0) hmax)
      ih.1 ih.2

theorem successorsLoop_res [NanLaws K] {q : Query K} (hm : q.mesh.WF q.cfg) (hnan : q.mesh.NoNan)
    (hs : Exists q.mesh q.src.2) (hd : q.dst.2 ≠ u32Max) (hde : Exists q.mesh q.dst.2) :
    ∀ (fuel : Nat) (visited : List UInt32) (node : SearchNode K) (inst : Inst K), Gen q node →
    node.polygonTo ≠ q.dst.2 → InstOk q inst →
    Safe (successorsLoop q.cfg q.mesh fuel visited node inst) ∨
      successorsLoop q.cfg q.mesh fuel visited node inst = .error .fuel := by
  intro fuel
  induction fuel with
  | zero => intro _ _ _ _ _ _; exact .inr rfl
  | succ fuel ih =>
    intro visited node inst hg hnd hi
    obtain ⟨cs, hinv⟩ := gen_inv hd hg
    have hto := (gen_layers hm hs hd hde hg).1
    unfold successorsLoop
    obtain ⟨succs, he⟩ := (safe_edgesBetween hm hnan hinv hto).ex
    rw [he, res_bind_ok]
    obtain ⟨inst1, hf⟩ := (safe_foldlM (InstOk q) succs inst hi
      (fun s a ha hs => safe_expandOne hm hinv hto he ha hs)
      (fun s a s' ha hs hst => expandOne_ok hg hnd he ha hs hst)).ex
    rw [hf, res_bind_ok]
    have h1 : InstOk q inst1 :=
      foldlM_inv (InstOk q) hi (fun s a s' ha hs hst => expandOne_ok hg hnd he ha hs hst) hf
    split
    · rename_i next hb
      have hnext : Gen q next := h1.buffer next (by simp [hb])
      have h2 : InstOk q { inst1 with nodeBuffer := [] } := { h1 with buffer := by simp }
      split
      · rename_i hne
        rw [h1.polygonTo] at hne
        simp only
        split
        · exact .inl (safe_ok _)
        · split
          · exact .inl (safe_ok _)
          · exact ih _ _ _ hnext hne h2
      · exact .inl (safe_ok _)
    · exact .inl (safe_ok _)

theorem safe_detailedLength {m : Mesh K} : ∀ (l : List (Vec2 K × UInt8)) (acc : K)
    (cur : Vec2 K × UInt8), cur.2.toNat < m.layers.length →
    (∀ x ∈ l, x.2.toNat < m.layers.length) → Safe (detailedLength m acc cur l)
  | [], _, _, _, _ => safe_ok _
  | p :: l, _, _, h, hl => safe_bind (safe_idx h) (fun _ _ => safe_detailedLength l _ _
      (hl p (List.mem_cons_self ..)) (fun x hx => hl x (List.mem_cons_of_mem _ hx)))

theorem dropClose_subset : ∀ (l : List (Vec2 K × UInt8)), ∀ x ∈ dropClose l, x ∈ l
  | [], x, h => by simp [dropClose] at h
  | [p], x, h => by simpa [dropClose] using h
  | p :: n :: rest, x, h => by
    simp only [dropClose] at h
    split at h
    · exact List.mem_cons_of_mem _ (dropClose_subset (n :: rest) x h)
    · rcases List.mem_cons.1 h with rfl | h
      · exact List.mem_cons_self ..
      · exact List.mem_cons_of_mem _ (dropClose_subset (n :: rest) x h)

theorem resolveLayers_layers (last : Vec2 K) : ∀ (l : List (Vec2 K × Vec2 K × UInt8)) (frm : Vec2 K),
    ∀ x ∈ resolveLayers last frm l, ∃ e ∈ l, x.2 = e.2.2
  | [], _, x, h => by simp [resolveLayers] at h
  | p :: rest, frm, x, h => by
    have lift : ∀ frm', x ∈ resolveLayers last frm' rest → ∃ e ∈ p :: rest, x.2 = e.2.2 := by
      intro frm' h
      obtain ⟨e, he, hx⟩ := resolveLayers_layers last rest frm' x h
      exact ⟨e, List.mem_cons_of_mem _ he, hx⟩
    simp only [resolveLayers] at h
    split at h
    · rcases List.mem_cons.1 h with rfl | h
      · exact ⟨p, List.mem_cons_self .., rfl⟩
      · exact lift _ h
    · split at h
      · rcases List.mem_cons.1 h with rfl | h
        · exact ⟨p, List.mem_cons_self .., rfl⟩
        · exact lift _ h
      · exact lift _ h

theorem safe_foundPath {q : Query K} (hm : q.mesh.WF q.cfg) (hs : Exists q.mesh q.src.2)
    (hd : q.dst.2 ≠ u32Max) (hde : Exists q.mesh q.dst.2) {inst : Inst K} (hi : InstOk q inst)
    {n : SearchNode K} (hn : Gen q n) : Safe (foundPath q.cfg q.mesh inst n) := by
  obtain ⟨hto, hlay⟩ := gen_layers hm hs hd hde hn
  unfold foundPath
  simp only
  split
  · refine safe_bind (safe_detailedLength _ _ _ ?_ ?_) (fun _ _ => safe_ok _)
    · rw [hi.start]; exact hs.layer_lt
    · intro x hx
      rcases List.mem_append.1 (dropClose_subset _ x hx) with hx | hx
      · obtain ⟨e, he, hxe⟩ := resolveLayers_layers _ _ _ x hx
        rw [hxe]
        exact hlay e he
      · obtain ⟨extra, hpe, -, -⟩ := pathEnd_shape inst n
        rw [hpe] at hx
        rcases List.mem_append.1 hx with hx | hx
        · obtain ⟨t, -, rfl⟩ := List.mem_map.1 hx
          exact hto.layer_lt
        · rw [List.mem_singleton.1 hx]; exact hto.layer_lt
  · exact safe_ok _

theorem exists_ne_max {cfg : Cfg} {m : Mesh K} (hm : m.WF cfg) {id : UInt32} (h : Exists m id) :
    id ≠ u32Max := by
  rintro rfl
  obtain ⟨l, p, h1, h2⟩ := h
  have := (hm.layer l (List.mem_of_getElem? h1)).sized
  have := lt_of_getElem? h2
  have : idPolygon u32Max = 2 ^ 24 - 1 := by decide
  omega

/-- A query both of whose ends are in existing polygons of a well-formed mesh. -/
structure GoodQuery (q : Query K) : Prop where
  wf : q.mesh.WF q.cfg
  nan : q.mesh.NoNan
  src : Exists q.mesh q.src.2
  dst : Exists q.mesh q.dst.2

theorem safe_next [NanLaws K] {q : Query K} (g : GoodQuery q) {heap : Heap K} {inst : Inst K}
    (hi : InstOk q inst) : Safe (inst.next heap q.cfg q.mesh) := by
  have hd := exists_ne_max g.wf g.dst
  unfold Inst.next
  split
  · exact safe_ok _
  · rename_i next rest hp
    have hperm := heap.pop_perm _ _ _ hp
    have hn : Gen q next := hi.queue next (hperm.subset (List.mem_cons_self ..))
    have hi' : InstOk q { inst with queue := rest } :=
      { hi with queue := fun n hn => hi.queue n (hperm.subset (List.mem_cons_of_mem _ hn)) }
    simp only
    split
    · exact safe_ok _
    · split
      · exact safe_bind (safe_foundPath g.wf g.src hd g.dst hi' hn) (fun _ _ => safe_ok _)
      · rename_i hto
        refine safe_bind ?_ (fun _ _ => safe_ok _)
        unfold Inst.successors
        refine safe_bind ?_ (fun _ _ => safe_ok _)
        rcases successorsLoop_res g.wf g.nan g.src hd g.dst succFuel [] next _ hn
          (by rw [← hi.polygonTo]; exact hto) hi' with h | h
        · exact h
        · exact absurd h (noFuel_successorsLoop' _ _ _ _ List.nodup_nil (by simp [succFuel])).ne

theorem safe_searchLoop [NanLaws K] {q : Query K} (g : GoodQuery q) {heap : Heap K} :
    ∀ (n : Nat) (inst : Inst K) (paths : List (Path K)), InstOk q inst →
    Safe (searchLoop heap q.cfg q.mesh n inst paths) := by
  intro n
  induction n with
  | zero => intro _ _ _; exact safe_ok _
  | succ n ih =>
    intro inst paths hi
    unfold searchLoop
    refine safe_bind (safe_next g hi) (fun r hr => ?_)
    obtain ⟨st, inst'⟩ := r
    have hi' := (next_ok hi hr).1
    cases st with
    | found p =>
      simp only
      split
      · exact ih _ _ hi'
      · exact safe_ok _
    | notFound =>
      simp only
      split
      · exact ih _ _ hi'
      · exact ih _ _ hi'
    | «continue» => exact ih _ _ hi'

theorem safe_pathBetween [NanLaws K] {heap : Heap K} {cfg : Cfg} {m : Mesh K} (hm : m.WF cfg)
    (hn : m.NoNan) (src dst : Vec2 K) {s e : UInt32} (hs : Exists m s) (he : Exists m e)
    (blocked : List UInt8)
    (hlen : cfg.detailed = true → ∀ p, FoundBy ⟨cfg, m, (src, s), (dst, e), blocked⟩ p →
      Scalar.isNan p.length = false) : Safe (m.pathBetween heap cfg src dst s e blocked) := by
  have g : GoodQuery (⟨cfg, m, (src, s), (dst, e), blocked⟩ : Query K) := ⟨hm, hn, hs, he⟩
  unfold Mesh.pathBetween
  refine safe_bind ?_ (fun b _ => ?_)
  · unfold Mesh.islandsDiffer
    split
    · refine safe_bind (safe_idx hs.layer_lt) (fun _ _ => ?_)
      split
      · exact safe_ok _
      · split <;> exact safe_ok _
    · exact safe_ok _
  · split
    · exact safe_ok _
    · split
      · exact safe_ok _
      · refine safe_bind (safe_setup hm _ _ _ hs) (fun inst hset => ?_)
        have hi := setup_ok (q := ⟨cfg, m, (src, s), (dst, e), blocked⟩) hset
        refine safe_bind (safe_searchLoop g _ _ _ hi) (fun r hr => ?_)
        have hF := (searchLoop_ok (q := ⟨cfg, m, (src, s), (dst, e), blocked⟩) _ _ _ _ hi
          (by simp) hr).2
        cases r with
        | inl p => exact safe_ok _
        | inr ps =>
          simp only [pickPath]
          split
          · rename_i hdet
            split
            · rename_i hnan
              simp only [Bool.and_eq_true, List.any_eq_true] at hnan
              obtain ⟨-, p, hmem, hp⟩ := hnan
              rw [hlen hdet p (hF ps rfl p hmem)] at hp
              exact Bool.noConfusion hp
            · exact safe_ok _
          · exact safe_ok _

theorem safe_pollSteps [NanLaws K] {q : Query K} (g : GoodQuery q) {heap : Heap K} :
    ∀ (n : Nat) (inst : Inst K), InstOk q inst → Safe (pollSteps heap q.cfg q.mesh n inst) := by
  intro n
  induction n with
  | zero => intro _ _; exact safe_ok _
  | succ n ih =>
    intro inst hi
    unfold pollSteps
    refine safe_bind (safe_next g hi) (fun r hr => ?_)
    obtain ⟨st, inst'⟩ := r
    have hi' := (next_ok hi hr).1
    cases st with
    | found p => exact safe_ok _
    | notFound => exact safe_ok _
    | «continue» => exact ih _ hi'

theorem safe_poll [NanLaws K] {bvh : Bvh K} {heap : Heap K} {cfg : Cfg} {m : Mesh K}
    (hb : bvh.InRange) (hm : m.WF cfg) (hn : m.NoNan) {src dst : Vec2 K} {f : FuturePath K}
    (hf : FutOk bvh cfg m src dst f) : Safe (f.poll bvh heap cfg m) := by
  obtain ⟨h1, h2, h3⟩ := hf
  unfold FuturePath.poll
  split
  · rename_i inst hinst
    obtain ⟨s, e, hs, he, hs', he', hne, hi⟩ := h3 inst hinst
    have g : GoodQuery (⟨cfg, m, (src, s), (dst, e), []⟩ : Query K) :=
      ⟨hm, hn, getPointLocation_hasPolygon hm hs hs', getPointLocation_hasPolygon hm he he'⟩
    refine safe_bind (safe_pollSteps g _ _ hi) (fun r _ => ?_)
    obtain ⟨o, inst⟩ := r
    simp only
    split <;> exact safe_ok _
  · refine safe_bind (safe_getPointLocation hb (fun l hl => (hm.layer l hl).toFindable) _) (fun s hs => ?_)
    split
    · exact safe_ok _
    · rename_i hs'
      have hse : Exists m s := getPointLocation_hasPolygon hm hs hs'
      refine safe_bind (safe_getPointLocation hb (fun l hl => (hm.layer l hl).toFindable) _) (fun e _ => ?_)
      split
      · exact safe_ok _
      · refine safe_bind ?_ (fun b _ => ?_)
        · unfold Mesh.islandsDifferAsync
          split
          · refine safe_bind (safe_idx hse.layer_lt) (fun _ _ => ?_)
            split
            · exact safe_ok _
            · split <;> exact safe_ok _
          · exact safe_ok _
        · split
          · exact safe_ok _
          · split
            · exact safe_ok _
            · exact safe_bind (safe_setup hm _ _ _ hse) (fun _ _ => safe_ok _)

end Polyanya
