import Verif.Proofs.MergeWalk
import Verif.Props.MergeLoop
import Verif.Props.Metric
/-
C64: merging polygons changes neither where one can walk nor the lengths of shortest paths.
-/

namespace Polyanya

/-! ### Places -/

/-- The place of a vertex, offset included. -/
noncomputable def sitePos (l : Layer (Ext ℝ)) (v : UInt32) : Vec2 ℝ :=
  ⟨(l.place Ext.value v).x + l.offset.x.value, (l.place Ext.value v).y + l.offset.y.value⟩

theorem sitePos_at {l : Layer (Ext ℝ)} (h : l.FinitePlaces) (v : UInt32) (vx : Vertex (Ext ℝ))
    (hv : l.vertices[v.toNat]? = some vx) : VertexAt l v (sitePos l v) := by
  refine ⟨vx, hv, ?_⟩
  obtain ⟨c, hc⟩ := h.vertices vx (List.mem_of_getElem? hv)
  obtain ⟨o, ho⟩ := h.offset
  have hpl : l.place Ext.value v = c := by
    unfold Layer.place
    rw [hv]
    simp only [hc]
    rfl
  unfold sitePos
  rw [hpl, hc, ho]
  rfl

theorem convex_shift {vs : List UInt32} {p p' : UInt32 → Vec2 ℝ} {o : Vec2 ℝ}
    (ho : ∀ v, p' v = ⟨(p v).x + o.x, (p v).y + o.y⟩) (h : ConvexOutline (vs.map p)) : ConvexOutline (vs.map p') := by
  have htri : ∀ a b c, tri (p' a) (p' b) (p' c) = tri (p a) (p b) (p c) := by
    intro a b c
    rw [ho, ho, ho]
    unfold tri; ring
  constructor
  · intro A B hAB C hC
    obtain ⟨a, b, he, rfl, rfl⟩ := consecutive_map.1 hAB
    obtain ⟨c, hc, rfl⟩ := List.mem_map.1 hC
    rw [htri]
    exact h.left _ _ (consecutive_map.2 ⟨a, b, he, rfl, rfl⟩) _ (List.mem_map_of_mem hc)
  · intro A B hAB
    obtain ⟨a, b, he, rfl, rfl⟩ := consecutive_map.1 hAB
    obtain ⟨C, hC, hpos⟩ := h.proper _ _ (consecutive_map.2 ⟨a, b, he, rfl, rfl⟩)
    obtain ⟨c, hc, rfl⟩ := List.mem_map.1 hC
    exact ⟨p' c, List.mem_map_of_mem hc, by rw [htri]; exact hpos⟩

theorem mergeLoop_walk {m : Mesh (Ext ℝ)} {l l0 : Layer (Ext ℝ)} {pos : UInt32 → Vec2 ℝ} {geo : Geo (Ext ℝ)}
    (hg : geo.AcceptsConvexOnly Ext.value) (hs : Sited m l0 pos) (hl0 : l0.polygons = l.polygons)
    (hconv : ∀ vs cs, l.coordsOf vs = .ok cs → ConvexOutline (cs.map (Vec2.valued Ext.value)) →
      ConvexOutline (vs.map pos))
    (hcv : ∀ p ∈ l.polygons, ConvexOutline (p.vertices.map pos))
    (hcon : l.Consistent) (hc : l.Conforming) {order : List Nat} {st : MergeState} (ho : l.mergeOrder geo = .ok order)
    (h : order.foldlM (l.mergeOne geo) { polygons := l.polygons, parent := ufNew l.polygons.length } = .ok st) :
    MInv l [] st ∧ WInv m l pos st := by
  have hinit : WInv m l pos { polygons := l.polygons, parent := ufNew l.polygons.length } := by
    have := WInv.init hs (by rw [hl0]; exact hcv)
    unfold WInv at this ⊢
    intro r p hr hp
    obtain ⟨h1, h2, h3⟩ := this r p (by rw [hl0]; exact hr) (by rw [hl0]; exact hp)
    rw [hl0] at h2 h3
    exact ⟨h1, h2, h3⟩
  exact foldlM_todo (fun todo s => MInv l todo s ∧ WInv m l pos s)
    ((mergeOrder_perm ho).nodup_iff.2 List.nodup_range) ⟨MInv.init hc _, hinit⟩
    (fun s a t s' hnot hinv hs' => ⟨(mergeOne_step hs').inv (fun cs h => (hg cs h).1) hcon hc hnot hinv.1,
      (mergeOne_step hs').walk hg hs hl0 hconv hcv hcon hc hinv.1 hinv.2⟩) h

theorem roundOf_merge {geo : Geo (Ext ℝ)} (hg : geo.AcceptsConvexOnly Ext.value) {m m' : Mesh (Ext ℝ)}
    {l l' : Layer (Ext ℝ)} {b : Bool} (hm : m.layers = [l]) (hm' : m'.layers = [l']) (hT : l.Tiling Ext.value)
    (hF : l.FinitePlaces) (h : l.mergePolygons geo = .ok (l', b)) : ∃ f, RoundOf m m' l l' (sitePos l) f := by
  obtain ⟨hT', hA⟩ := C63_tiling Ext.value geo hg l l' b hT h
  have hplace : l'.place Ext.value = l.place Ext.value := by
    have hc := hA.coords
    funext v
    unfold Layer.place
    have := congrArg (fun cs => cs[v.toNat]?) hc
    simp only [List.getElem?_map] at this
    cases h1 : l.vertices[v.toNat]? <;> cases h2 : l'.vertices[v.toNat]? <;> rw [h1, h2] at this <;>
      simp at this
    simp only [this]
  have hpos : sitePos l' = sitePos l := by
    funext v
    unfold sitePos
    rw [hplace, hA.offset]
  have hF' : l'.FinitePlaces := by
    refine ⟨?_, by rw [hA.offset]; exact hF.offset⟩
    intro v hv
    have h1 : v.coords ∈ l'.vertices.map (·.coords) := List.mem_map_of_mem hv
    rw [hA.coords] at h1
    obtain ⟨w, hw, hwe⟩ := List.mem_map.1 h1
    rw [← hwe]
    exact hF.vertices w hw
  have hs : Sited m l (sitePos l) := ⟨hm, hT.consistent, fun v vx hv => sitePos_at hF v vx hv⟩
  have hs' : Sited m' l' (sitePos l) := ⟨hm', hT'.consistent, fun v vx hv => by
    rw [← hpos]; exact sitePos_at hF' v vx hv⟩
  have hcv : ∀ p ∈ l.polygons, ConvexOutline (p.vertices.map (sitePos l)) := fun p hp =>
    convex_shift (o := ⟨l.offset.x.value, l.offset.y.value⟩) (fun _ => rfl) (hT.convex p hp)
  have hcv' : ∀ p ∈ l'.polygons, ConvexOutline (p.vertices.map (sitePos l)) := fun p hp =>
    convex_shift (o := ⟨l.offset.x.value, l.offset.y.value⟩) (fun _ => rfl) (hplace ▸ hT'.convex p hp)
  obtain ⟨order, st, cst, vs, ho, hst, hb, hinv, -, hl', rfl⟩ := mergePolygons_ok h
  have hk := hinv.keptLe
  have hlen : (cst.polygons.take cst.kept).length = cst.kept := by
    rw [List.length_take, hinv.polyLen, hb.polyLen]; omega
  have hcon' : l.unbake.Consistent := ⟨hT.consistent.sized, hT.consistent.polygonVertex, hT.consistent.vertexPolygon⟩
  have hc := hT.conforming
  have hc' : l.unbake.Conforming := ⟨hc.nodup, hc.three, hc.opposite⟩
  obtain ⟨hM, hW⟩ := mergeLoop_walk hg hs (l := l.unbake) rfl (fun vs cs h1 h2 => by
    refine convex_shift (p := l.place Ext.value) (o := ⟨l.offset.x.value, l.offset.y.value⟩) (fun _ => rfl) ?_
    rw [← coordsOf_place (l := l) Ext.value h1]
    exact h2) hcv hcon' hc' ho hst
  have hroot : ∀ (j : Nat) p', l'.polygons[j]? = some p' → ∃ r, Root st.parent r r ∧
      cst.new[r]? = some (some j) ∧ st.polygons[r]? = some p' := by
    intro j p' hp
    rw [hl'] at hp
    have hp2 : (cst.polygons.take cst.kept)[j]? = some p' := hp
    have hj : j < cst.kept := by
      rw [← hlen]; exact (List.getElem?_eq_some_iff.1 hp2).1
    rw [List.getElem?_take_of_lt hj] at hp2
    obtain ⟨r, hr, hrj⟩ := hinv.surj j hj
    refine ⟨r, hr, hrj, ?_⟩
    rw [← hp2]
    exact (hinv.moved r j (by rw [← hb.parLen]; exact hr.lt) hr hrj).symm
  have hcls : ∀ r j, Root st.parent r r → cst.new[r]? = some (some j) → ∀ m, m < l.polygons.length →
      (newIndex cst.new m = j ↔ Root st.parent m r) := by
    intro r j hr hrj m hmlt
    obtain ⟨j', hj'⟩ := hinv.done m hmlt
    rw [newIndex_eq hj']
    obtain ⟨_, s, hs, hsj⟩ := hinv.slot m j' hj'
    constructor
    · rintro rfl
      rw [hinv.inj r s j' hr hs.rootSelf hrj hsj]; exact hs
    · intro hmr
      have := hmr.unique hs
      subst this
      rw [hrj] at hsj
      simpa using hsj.symm
  have hplen : l'.polygons.length = cst.kept := by rw [hl']; exact hlen
  have hrange : ∀ (t : Nat) q, l.polygons[t]? = some q → ∃ p', l'.polygons[newIndex cst.new t]? = some p' := by
    intro t q hq
    obtain ⟨j, hj⟩ := hinv.done t (lt_of_getElem? hq)
    rw [newIndex_eq hj]
    exact ⟨_, List.getElem?_eq_getElem (by rw [hplen]; exact (hinv.slot t j hj).1)⟩
  refine ⟨newIndex cst.new, hs, hs', hc, hT'.conforming, hcv, hcv', hrange, ?_, ?_, ?_⟩
  · intro j p' hp x
    obtain ⟨r, hr, hrj, hrp⟩ := hroot j p' hp
    rw [(hW r p' hr hrp).inside x]
    constructor
    · rintro ⟨t, q, ht, hq, hx⟩
      exact ⟨t, q, (hcls r j hr hrj t (lt_of_getElem? hq)).2 ht, hq, hx⟩
    · rintro ⟨t, q, ht, hq, hx⟩
      exact ⟨t, q, (hcls r j hr hrj t (lt_of_getElem? hq)).1 ht, hq, hx⟩
  · intro t t' q q' x y hf hq hq' hx hy
    obtain ⟨p', hp'⟩ := hrange t q hq
    obtain ⟨r, hr, hrj, hrp⟩ := hroot _ p' hp'
    exact (hW r p' hr hrp).straight t t' q q' x y ((hcls r _ hr hrj t (lt_of_getElem? hq)).1 rfl)
      ((hcls r _ hr hrj t' (lt_of_getElem? hq')).1 hf.symm) hq hq' hx hy
  · intro j p' hp
    obtain ⟨r, hr, hrj, hrp⟩ := hroot j p' hp
    have heq : (fun q => ∃ m, newIndex cst.new m = j ∧ l.polygons[m]? = some q) =
        InClass l.unbake st.parent r := by
      funext q
      unfold InClass
      apply propext
      constructor
      · rintro ⟨m, h1, h2⟩
        exact ⟨m, (hcls r j hr hrj m (lt_of_getElem? h2)).1 h1, h2⟩
      · rintro ⟨m, h1, h2⟩
        exact ⟨m, (hcls r j hr hrj m (lt_of_getElem? h2)).2 h1, h2⟩
    rw [heq]
    exact (hM.poly r p' hr hrp).union

/-! ### C64 -/

theorem SameWalks.refl (m : Mesh (Ext ℝ)) : SameWalks m m (fun s => s) :=
  ⟨fun _ _ h => h, fun s _ h => ⟨s, rfl, h⟩, fun _ _ _ _ _ h => h, fun _ _ _ _ _ _ _ _ h => h⟩

theorem SameWalks.trans {m m' m'' : Mesh (Ext ℝ)} {F G : UInt32 → UInt32} (h : SameWalks m m' F)
    (h' : SameWalks m' m'' G) : SameWalks m m'' (fun s => G (F s)) where
  inPolygon := fun s p hp => h'.inPolygon _ _ (h.inPolygon s p hp)
  covered := fun s'' p hp => by
    obtain ⟨s', rfl, hp'⟩ := h'.covered s'' p hp
    obtain ⟨s, rfl, hp''⟩ := h.covered s' p hp'
    exact ⟨s, rfl, hp''⟩
  walk := fun s p e q ws hw => h'.walk _ _ _ _ _ (h.walk s p e q ws hw)
  back := fun s p e q ws hp hq hn hw => h.back s p e q ws hp hq hn
    (h'.back _ p _ q ws (h.inPolygon s p hp) (h.inPolygon e q hq) hn hw)

/-- C64, one call of `merge_polygons`. -/
theorem C64_round (geo : Geo (Ext ℝ)) (hg : geo.AcceptsConvexOnly Ext.value) (m m' : Mesh (Ext ℝ)) (b : Bool)
    (hone : m.layers.length = 1) (hT : ∀ l ∈ m.layers, l.Tiling Ext.value) (hF : ∀ l ∈ m.layers, l.FinitePlaces)
    (h : m.mergePolygons geo = .ok (m', b)) :
    (∃ F, SameWalks m m' F) ∧ m'.layers.length = 1 ∧ (∀ l ∈ m'.layers, l.Tiling Ext.value) ∧
      ∀ l ∈ m'.layers, l.FinitePlaces := by
  obtain ⟨l, hl⟩ := List.length_eq_one_iff.1 hone
  obtain ⟨hT', hA⟩ := C63_mesh Ext.value geo hg m m' b hT h
  have hlm : l ∈ m.layers := by rw [hl]; simp
  unfold Mesh.mergePolygons at h
  rw [hl] at h
  simp only [mergeLayers] at h
  rw [bind_eq_ok] at h
  obtain ⟨⟨ls, b1⟩, h1, h⟩ := h
  cases h
  rw [bind_eq_ok] at h1
  obtain ⟨⟨l', b2⟩, h2, h1⟩ := h1
  have hls : ls = [l'] := by
    cases b2
    · simp only [Bool.false_eq_true, if_false] at h1
      cases h1; rfl
    · simp only [if_true] at h1
      cases h1; rfl
  subst hls
  obtain ⟨f, hf⟩ := roundOf_merge hg (m := m) (m' := { m with layers := [l'] }) hl rfl (hT l hlm) (hF l hlm) h2
  refine ⟨⟨moveId f, hf.sameWalks⟩, rfl, hT', ?_⟩
  intro l1 hl1
  simp only [List.mem_singleton] at hl1
  subst hl1
  rw [hl] at hA
  cases hA with
  | cons hA _ =>
    refine ⟨?_, by rw [hA.offset]; exact (hF l hlm).offset⟩
    intro v hv
    have h3 : v.coords ∈ l1.vertices.map (·.coords) := List.mem_map_of_mem hv
    rw [hA.coords] at h3
    obtain ⟨w, hw, hwe⟩ := List.mem_map.1 h3
    rw [← hwe]
    exact (hF l hlm).vertices w hw

/-- **C64**. In a mesh with one layer that is a proper tiling, any number of rounds of `merge_polygons` does not change
where one can walk. -/
theorem C64_walks (geo : Geo (Ext ℝ)) (hg : geo.AcceptsConvexOnly Ext.value) (m m' : Mesh (Ext ℝ)) (k : Nat)
    (hone : m.layers.length = 1) (hT : ∀ l ∈ m.layers, l.Tiling Ext.value) (hF : ∀ l ∈ m.layers, l.FinitePlaces)
    (h : MergeRounds geo m k m') : ∃ F, SameWalks m m' F := by
  have key : (∃ F, SameWalks m m' F) ∧ m'.layers.length = 1 ∧ (∀ l ∈ m'.layers, l.Tiling Ext.value) ∧
      ∀ l ∈ m'.layers, l.FinitePlaces := by
    induction h with
    | zero => exact ⟨⟨_, SameWalks.refl m⟩, hone, hT, hF⟩
    | succ _ h2 ih =>
      obtain ⟨⟨F, hF1⟩, i1, i2, i3⟩ := ih
      obtain ⟨⟨G, hG⟩, j1, j2, j3⟩ := C64_round geo hg _ _ _ i1 i2 i3 h2
      exact ⟨⟨_, hF1.trans hG⟩, j1, j2, j3⟩
  exact key.1

/-- Shortest walks have the same length. -/
theorem SameWalks.shortest {m m' : Mesh (Ext ℝ)} {F : UInt32 → UInt32} (h : SameWalks m m' F) {s e : UInt32}
    {p q : Vec2 ℝ} (hp : InPolygon m s p) (hq : InPolygon m e q) {ws ws' : List (Vec2 ℝ)}
    (h1 : ShortestWalk m s p e q ws) (h2 : ShortestWalk m' (F s) p (F e) q ws') :
    polyLen (p :: ws) = polyLen (p :: ws') := by
  apply le_antisymm
  · by_cases hn : ws' = []
    · subst hn
      obtain ⟨he, rfl, -⟩ := walk_nil_inv h2.1
      have hw : Walk m' (F s) p (F e) p [p] := .cons (.stay (h.inPolygon s p hp) (h.inPolygon s p hp)) h2.1
      have := h1.2 [p] (h.back s p e p [p] hp hq (by simp) hw)
      refine this.trans ?_
      simp [polyLen, dist2_self]
    · exact h1.2 ws' (h.back s p e q ws' hp hq hn h2.1)
  · exact h2.2 ws (h.walk s p e q ws h1.1)

/-- **C64** (paths). When both the query before and the query after merging are within the scope of exact path finding
(C54), and the end points are in one polygon of the merged mesh only, `path` returns paths of the same length. -/
theorem C64_lengths (bvh bvh' : Bvh (Ext ℝ)) (heap heap' : Heap (Ext ℝ)) (hmax : heap.Max) (hmax' : heap'.Max)
    (cfg : Cfg) (geo : Geo (Ext ℝ)) (hg : geo.AcceptsConvexOnly Ext.value)
    (m m' : Mesh (Ext ℝ)) (k : Nat) (hone : m.layers.length = 1) (hT : ∀ l ∈ m.layers, l.Tiling Ext.value)
    (hF : ∀ l ∈ m.layers, l.FinitePlaces) (h : MergeRounds geo m k m')
    (hsize : m.Sized) (hsize' : m'.Sized) (hc : Conforming m) (hc' : Conforming m')
    (a b a' b' : Coords (Ext ℝ)) (start goal : Vec2 ℝ) (hcfg : cfg.Plain m start goal)
    (hcfg' : cfg.Plain m' start goal) (s e s' e' : UInt32)
    (hab : ExactQuery m bvh a start s b goal e) (hab' : ExactQuery m' bvh' a' start s' b' goal e')
    (hus : ∀ t, InPolygon m' t start → t = s') (hue : ∀ t, InPolygon m' t goal → t = e') (p p' : Path (Ext ℝ))
    (hp : m.path bvh heap cfg a b = .ok (some p)) (hp' : m'.path bvh' heap' cfg a' b' = .ok (some p')) :
    p'.length = p.length := by
  obtain ⟨F, hF⟩ := C64_walks geo hg m m' k hone hT hF h
  obtain ⟨ws, -, hl, hw⟩ := hab.shortest hmax hsize hc hcfg hp
  obtain ⟨ws', -, hl', hw'⟩ := hab'.shortest hmax' hsize' hc' hcfg' hp'
  have es := hus _ (hF.inPolygon s start hab.start_in)
  have ee := hue _ (hF.inPolygon e goal hab.goal_in)
  subst es ee
  rw [hl, hl', hF.shortest hab.start_in hab.goal_in hw hw']

end Polyanya
