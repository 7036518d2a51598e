import Verif.Spec.History
import Verif.Props.Cleanup
import Verif.Props.Merging
import Verif.Props.StitchPoints
import Verif.Props.Small
/-
The invariant behind C78: what holds of a mesh after any history of operations.
-/

namespace Polyanya

variable {K : Type} [Scalar K]

/-- The vertices of layer `a` list polygons by their number in the layer (otherwise: by packed ids). -/
def Phase.Local : Phase → Nat → Prop
  | .loose, _ => True
  | .joined, _ => False
  | .opened t, a => a = t.toNat

/-- Static facts of a layer. -/
structure Layer.Plain (l : Layer K) : Prop extends l.Findable where
  size : l.vertices.length < 2 ^ 32

/-- The invariant. -/
structure HistInv (ph : Phase) (m : Mesh K) : Prop where
  layers : m.layers.length ≤ 256
  plain : ∀ l ∈ m.layers, l.Plain
  corners : ∀ (a : Nat) l, m.layers[a]? = some l → ∀ p ∈ l.polygons, ∀ v ∈ p.vertices,
    ∃ id, id ≠ u32Max ∧ Lists m a v.toNat id ∧ (¬ ph.Local a → idLayer id = a)
  refs : ∀ a i id, Lists m a i id → id ≠ u32Max →
    (ph.Local a → ∃ l, m.layers[a]? = some l ∧ id.toNat < l.polygons.length) ∧
    (¬ ph.Local a → (∃ l p, HasPolygon m id l p) ∧ ¬ ph.Local (idLayer id))

theorem HistInv.range {ph : Phase} {m : Mesh K} (h : HistInv ph m) :
    ∀ l ∈ m.layers, ∀ p ∈ l.polygons, ∀ v ∈ p.vertices, v.toNat < l.vertices.length := by
  intro l hl p hp v hv
  obtain ⟨a, ha⟩ := List.mem_iff_getElem?.1 hl
  obtain ⟨id, -, ⟨l', vx, h1, h2, -⟩, -⟩ := h.corners a l ha p hp v hv
  rw [ha, Option.some.injEq] at h1
  subst h1
  exact lt_of_getElem? h2

theorem kept_loose {m : Mesh K} : HistInv .loose m ↔ m.layers.length ≤ 256 ∧ ∀ l ∈ m.layers, l.Proper := by
  constructor
  · intro h
    refine ⟨h.layers, fun l hl => ?_⟩
    obtain ⟨a, ha⟩ := List.mem_iff_getElem?.1 hl
    refine ⟨(h.plain l hl).toFindable, (h.plain l hl).size, ?_, ?_⟩
    · intro p hp v hv
      obtain ⟨id, hne, ⟨l', vx, h1, h2, h3⟩, -⟩ := h.corners a l ha p hp v hv
      rw [ha, Option.some.injEq] at h1
      subst h1
      exact ⟨vx, h2, id, h3, hne⟩
    · intro v hv id hid hne
      obtain ⟨i, hi⟩ := List.mem_iff_getElem?.1 hv
      obtain ⟨l', h1, h2⟩ := (h.refs a i id ⟨l, v, ha, hi, hid⟩ hne).1 trivial
      rw [ha, Option.some.injEq] at h1
      subst h1
      exact h2
  · rintro ⟨h1, h2⟩
    refine ⟨h1, fun l hl => ⟨(h2 l hl).toFindable, (h2 l hl).size⟩, ?_, ?_⟩
    · intro a l hl p hp v hv
      obtain ⟨vx, h3, id, h4, h5⟩ := (h2 l (List.mem_of_getElem? hl)).corners p hp v hv
      exact ⟨id, h5, ⟨l, vx, hl, h3, h4⟩, fun h => absurd trivial h⟩
    · rintro a i id ⟨l, v, hl, hv, hid⟩ hne
      exact ⟨fun _ => ⟨l, hl, (h2 l (List.mem_of_getElem? hl)).refs v (List.mem_of_getElem? hv) id hid hne⟩,
        fun h => absurd trivial h⟩

theorem HistInv.unstitched {m : Mesh K} (h : HistInv .loose m) : m.Unstitched := by
  obtain ⟨h1, h2⟩ := kept_loose.1 h
  exact ⟨h1, fun l hl => (h2 l hl).sized, fun l hl => (h2 l hl).refs, h.range⟩

theorem SameButNeighbours.plain {l l' : Layer K} (h : SameButNeighbours l l') (hl : l.Plain) : l'.Plain := by
  refine ⟨⟨?_, ?_, ?_⟩, ?_⟩
  · rw [h.polygons]; exact hl.sized
  · rw [h.polygons]; exact hl.nonempty
  · rw [h.polygons, h.baked]; exact hl.baked
  · rw [h.length]; exact hl.size

theorem SameShape.plain {m m' : Mesh K} (h : SameShape m m') (hm : ∀ l ∈ m.layers, l.Plain) :
    ∀ l ∈ m'.layers, l.Plain := by
  intro l' hl'
  obtain ⟨a, ha⟩ := List.mem_iff_getElem?.1 hl'
  obtain ⟨l, hl, hs⟩ := h.layer ha
  exact hs.plain (hm l (List.mem_of_getElem? hl))

theorem SameShape.length_le {m m' : Mesh K} (h : SameShape m m') (hm : m.layers.length ≤ 256) :
    m'.layers.length ≤ 256 := by rw [← h.2.length_eq]; exact hm

/-- Stitching: everything is packed afterwards. `target = none`: from loose layers, `some t`: from an opened layer. -/
theorem stitch_kept {ph : Phase} {target : Option UInt8} {m : Mesh K} {s : StitchVertices} (oneWay : Bool)
    {sorter : Sorter} (hsort : sorter.Ok) (h : HistInv ph m) (hph : ∀ a, ph.Local a ↔ Lifted target a)
    (hs : StitchesExist m s) : ∃ m', m.stitchInternals sorter target s oneWay = .ok m' ∧ HistInv .joined m' := by
  have hpoly : ∀ (a : Nat) (l : Layer K), m.layers[a]? = some l → l.polygons.length ≤ 2 ^ 24 - 1 := fun a l hl =>
    (h.plain l (List.mem_of_getElem? hl)).sized
  have href : ∀ a i id, id ≠ u32Max → Renumbered m target a i id → ∃ l p, HasPolygon m id l p := by
    intro a i id hne hr
    rcases hr with ⟨h1, h2, h3⟩ | ⟨h1, h2⟩
    · obtain ⟨l, hl, hlt⟩ := (h.refs a i _ h3 (ofNat_idPolygon_ne id)).1 ((hph a).2 h1)
      rw [ofNat_idPolygon_toNat] at hlt
      exact ⟨l, _, by rw [h2]; exact hl, List.getElem?_eq_getElem hlt⟩
    · exact ((h.refs a i id h2 hne).2 (mt (hph a).1 h1)).1
  obtain ⟨m1, m', e, hsh, hl1, hl', -⟩ := internals_spec (target := target) (oneWay := oneWay) (s := s) hsort h.layers
    (fun a l hl ht v hv id hid hne => by
      obtain ⟨i, hi⟩ := List.mem_iff_getElem?.1 hv
      obtain ⟨l', h1, h2⟩ := (h.refs a i id ⟨l, v, hl, hi, hid⟩ hne).1 ((hph a).2 ht)
      have := hpoly a l' h1
      omega)
    (fun x hx => by
      obtain ⟨e, he, -, p, hp, rfl⟩ := mem_stitchList.1 hx
      exact ⟨(hs e he).1, (hs e he).2 p hp⟩)
    h.range href
  refine ⟨m', e, hsh.length_le h.layers, hsh.plain h.plain, ?_, ?_⟩
  · intro a l' hla p hp v hv
    obtain ⟨l, hl, hss⟩ := hsh.layer hla
    rw [hss.polygons] at hp
    obtain ⟨id, hne, hid, hown⟩ := h.corners a l hl p hp v hv
    by_cases hloc : ph.Local a
    · obtain ⟨l2, h1, h2⟩ := (h.refs a _ id hid hne).1 hloc
      have := hpoly a l2 h1
      obtain ⟨x, hx, h3, h4⟩ := idLayer_pack_lt (a := a) (by have := lt_of_getElem? hl; have := h.layers; omega)
        (show id.toNat < 2 ^ 24 - 1 by omega)
      have h5 : UInt32.ofNat (idPolygon x) = id := UInt32.toNat_inj.1 (by rw [ofNat_idPolygon_toNat, h4])
      exact ⟨x, hx, (hl' _ _ x hx).2 (.inl ((hl1 _ _ x hx).2 (.inl ⟨(hph a).1 hloc, h3, by rw [h5]; exact hid⟩))), fun _ => h3⟩
    · exact ⟨id, hne, (hl' _ _ id hne).2 (.inl ((hl1 _ _ id hne).2 (.inr ⟨mt (hph a).2 hloc, hid⟩))), fun _ => hown hloc⟩
  · intro a i id hid hne
    refine ⟨False.elim, fun _ => ⟨hsh.symm.hasPolygon ?_, fun hh => hh⟩⟩
    rcases (hl' a i id hne).1 hid with hid | ⟨x, -, ⟨-, -, -, hid⟩ | ⟨-, -, -, -, hid⟩⟩
    all_goals exact href _ _ id hne ((hl1 _ _ id hne).1 hid)

theorem kept_stitch {ph : Phase} {target : Option UInt8} {m m' : Mesh K} {s : StitchVertices} {oneWay : Bool}
    {sorter : Sorter} (hsort : sorter.Ok) (h : HistInv ph m) (hph : ∀ a, ph.Local a ↔ Lifted target a)
    (hs : StitchesExist m s) (he : m.stitchInternals sorter target s oneWay = .ok m') : HistInv .joined m' := by
  obtain ⟨m'', e, hk⟩ := stitch_kept oneWay hsort h hph hs
  rw [he, Except.ok.injEq] at e
  exact e ▸ hk

theorem loose_lifted (a : Nat) : Phase.loose.Local a ↔ Lifted none a := ⟨fun _ => lifted_none a, fun _ => trivial⟩

theorem opened_lifted (t : UInt8) (a : Nat) : (Phase.opened t).Local a ↔ Lifted (some t) a := lifted_some.symm

theorem kept_unstitch {m : Mesh K} (h : HistInv .joined m) : HistInv .loose m.removeStitches := by
  have hsh := removeStitches_shape m
  refine ⟨hsh.length_le h.layers, hsh.plain h.plain, ?_, ?_⟩
  · intro a l' hla p hp v hv
    obtain ⟨l, hl, hss⟩ := hsh.layer hla
    rw [hss.polygons] at hp
    obtain ⟨id, hne, hid, hown⟩ := h.corners a l hl p hp v hv
    exact ⟨_, ofNat_idPolygon_ne id, (removeStitches_lists h.layers (ofNat_idPolygon_ne id)).2
      ⟨id, hne, hid, hown (fun hh => hh), (ofNat_idPolygon_toNat id).symm⟩, fun hh => absurd trivial hh⟩
  · intro a i id hid hne
    refine ⟨fun _ => ?_, fun hh => absurd trivial hh⟩
    obtain ⟨x, hx, h1, h2, h3⟩ := (removeStitches_lists h.layers hne).1 hid
    obtain ⟨l, p, hl, hp⟩ := ((h.refs a i x h1 hx).2 (fun hh => hh)).1
    rw [h2] at hl
    obtain ⟨l', hl', hss⟩ := hsh.symm.layer hl
    refine ⟨l', hl', ?_⟩
    rw [← hss.polygons, ← h3]
    exact lt_of_getElem? hp

theorem removeTo_lists_own {m : Mesh K} {t : UInt8} {i : Nat} {id : UInt32} (hid : id ≠ u32Max) :
    Lists (m.removeStitchesTo t) t.toNat i id ↔
      ∃ x, x ≠ u32Max ∧ Lists m t.toNat i x ∧ idLayer x = t.toNat ∧ idPolygon x = id.toNat := by
  unfold Mesh.removeStitchesTo
  rw [lists_mapIdx (f := fun i ps => if UInt8.ofNat i = t then ps.filterMap (ownId i)
    else ps.filter (fun p => p == u32Max || layerOf p != t))]
  have ht : UInt8.ofNat t.toNat = t := by simp
  have ht2 : t.toNat < 256 := by have := t.toNat_lt; omega
  simp only [ht, if_true, List.mem_filterMap]
  constructor
  · rintro ⟨l, v, hl, hv, x, hx, h⟩
    rcases (ownId_spec ht2).1 h with ⟨-, h⟩ | ⟨h1, h2, h3⟩
    · exact absurd h hid
    · exact ⟨x, h1, ⟨l, v, hl, hv, hx⟩, h2, h3⟩
  · rintro ⟨x, hx, ⟨l, v, hl, hv, h⟩, h2, h3⟩
    exact ⟨l, v, hl, hv, x, h, (ownId_spec ht2).2 (.inr ⟨hx, h2, h3⟩)⟩

theorem kept_unstitchLayer {m : Mesh K} (t : UInt8) (h : HistInv .joined m) : HistInv (.opened t) (m.removeStitchesTo t) := by
  have hsh := removeTo_shape m t
  refine ⟨hsh.length_le h.layers, hsh.plain h.plain, ?_, ?_⟩
  · intro a l' hla p hp v hv
    obtain ⟨l, hl, hss⟩ := hsh.layer hla
    rw [hss.polygons] at hp
    obtain ⟨id, hne, hid, hown⟩ := h.corners a l hl p hp v hv
    have hown := hown (fun hh => hh)
    by_cases ha : a = t.toNat
    · subst ha
      exact ⟨_, ofNat_idPolygon_ne id, (removeTo_lists_own (ofNat_idPolygon_ne id)).2
        ⟨id, hne, hid, hown, (ofNat_idPolygon_toNat id).symm⟩, fun hh => absurd rfl hh⟩
    · exact ⟨id, hne, (removeTo_lists h.layers ha hne).2 ⟨hid, by rw [hown]; exact ha⟩, fun _ => hown⟩
  · intro a i id hid hne
    by_cases ha : a = t.toNat
    · subst ha
      refine ⟨fun _ => ?_, fun hh => absurd rfl hh⟩
      obtain ⟨x, hx, h1, h2, h3⟩ := (removeTo_lists_own hne).1 hid
      obtain ⟨l, p, hl, hp⟩ := ((h.refs _ i x h1 hx).2 (fun hh => hh)).1
      rw [h2] at hl
      obtain ⟨l', hl', hss⟩ := hsh.symm.layer hl
      refine ⟨l', hl', ?_⟩
      rw [← hss.polygons, ← h3]
      exact lt_of_getElem? hp
    · refine ⟨fun hh => absurd hh ha, fun _ => ?_⟩
      obtain ⟨h1, h2⟩ := (removeTo_lists h.layers ha hne).1 hid
      exact ⟨hsh.symm.hasPolygon ((h.refs a i id h1 hne).2 (fun hh => hh)).1, h2⟩

theorem kept_replace {m : Mesh K} {t : UInt8} {new : Layer K} (h : HistInv (.opened t) m) (hn : new.Proper) :
    HistInv (.opened t) { m with layers := m.layers.set t.toNat new } := by
  have hget : ∀ {a : Nat} {l : Layer K}, (m.layers.set t.toNat new)[a]? = some l →
      (a = t.toNat ∧ l = new) ∨ (a ≠ t.toNat ∧ m.layers[a]? = some l) := by
    intro a l hl
    by_cases ha : a = t.toNat
    · subst ha
      have := lt_of_getElem? hl
      rw [List.length_set] at this
      rw [List.getElem?_set_self this, Option.some.injEq] at hl
      exact .inl ⟨rfl, hl.symm⟩
    · rw [List.getElem?_set_ne (Ne.symm ha)] at hl
      exact .inr ⟨ha, hl⟩
  refine ⟨by simpa using h.layers, ?_, ?_, ?_⟩
  · intro l hl
    obtain ⟨a, ha⟩ := List.mem_iff_getElem?.1 hl
    rcases hget ha with ⟨-, rfl⟩ | ⟨-, h1⟩
    · exact ⟨hn.toFindable, hn.size⟩
    · exact h.plain l (List.mem_of_getElem? h1)
  · intro a l hl p hp v hv
    rcases hget hl with ⟨h0, rfl⟩ | ⟨h0, h1⟩
    · obtain ⟨vx, h3, id, h4, h5⟩ := hn.corners p hp v hv
      exact ⟨id, h5, ⟨l, vx, hl, h3, h4⟩, fun hh => absurd h0 hh⟩
    · obtain ⟨id, hne, hid, hown⟩ := h.corners a l h1 p hp v hv
      exact ⟨id, hne, (lists_set_ne h0).2 hid, hown⟩
  · intro a i id hid hne
    by_cases ha : a = t.toNat
    · refine ⟨fun _ => ?_, fun hh => absurd ha hh⟩
      obtain ⟨l, v, hl, hv, hid⟩ := hid
      rcases hget hl with ⟨-, rfl⟩ | ⟨h0, -⟩
      · exact ⟨l, hl, hn.refs v (List.mem_of_getElem? hv) id hid hne⟩
      · exact absurd ha h0
    · refine ⟨fun hh => absurd hh ha, fun _ => ?_⟩
      obtain ⟨⟨l, p, h1, h2⟩, h3⟩ := (h.refs a i id ((lists_set_ne ha).1 hid) hne).2 ha
      refine ⟨⟨l, p, ?_, h2⟩, h3⟩
      show (m.layers.set t.toNat new)[idLayer id]? = some l
      rw [List.getElem?_set_ne (fun hh => h3 hh.symm)]
      exact h1

/-! ### Operations on single layers -/

/-- `l'` has as many polygons as `l`, with the same corners as far as the lists of polygons of the vertices go. -/
structure AlikeLayer (l l' : Layer K) : Prop where
  plain : l.Plain → l'.Plain
  count : l'.polygons.length = l.polygons.length
  corners : (∀ p ∈ l.polygons, ∀ v ∈ p.vertices, ∃ vx, l.vertices[v.toNat]? = some vx ∧ ∃ id ∈ vx.polygons, id ≠ u32Max) →
    ∀ p' ∈ l'.polygons, ∀ v' ∈ p'.vertices, ∃ p ∈ l.polygons, ∃ v ∈ p.vertices, ∃ vx vx',
      l.vertices[v.toNat]? = some vx ∧ l'.vertices[v'.toNat]? = some vx' ∧ vx'.polygons = vx.polygons
  vertex : ∀ v' ∈ l'.vertices, ∃ v ∈ l.vertices, v'.polygons = v.polygons

theorem alike_geometry {l l' : Layer K} (hv : l'.vertices = l.vertices) (hp : l'.polygons = l.polygons)
    (hb : ∀ boxes, l'.baked = some boxes → boxes.length = l'.polygons.length ∨ l.baked = some boxes) : AlikeLayer l l' := by
  refine ⟨fun h => ⟨⟨by rw [hp]; exact h.sized, by rw [hp]; exact h.nonempty, ?_⟩, by rw [hv]; exact h.size⟩,
    by rw [hp], ?_, ?_⟩
  · intro boxes hbx
    rcases hb boxes hbx with hb | hb
    · exact hb
    · rw [hp]; exact h.baked boxes hb
  · intro hc p' hp' v' hv'
    rw [hp] at hp'
    obtain ⟨vx, h1, -⟩ := hc p' hp' v' hv'
    exact ⟨p', hp', v', hv', vx, vx, h1, by rw [hv]; exact h1, rfl⟩
  · intro v' hv'
    rw [hv] at hv'
    exact ⟨v', hv', rfl⟩

theorem alike_bake {l l' : Layer K} (h : l.bake = .ok l') : AlikeLayer l l' := by
  unfold Layer.bake Layer.bakeIslands at h
  simp only [bind_eq_ok, Except.ok.injEq] at h
  obtain ⟨isl, -, rfl⟩ := h
  refine alike_geometry rfl rfl (fun boxes hb => .inl ?_)
  simp only [Layer.bakePolygonFinder, Option.some.injEq] at hb
  subst hb
  simp [Layer.bakePolygonFinder]

theorem alike_cleaned {l l' : Layer K} (hcl : Cleaned l l') : AlikeLayer l l' := by
  have hlen := hcl.polygons.length_eq
  have hpp : ∀ p' ∈ l'.polygons, ∃ p ∈ l.polygons, List.Forall₂ (fun u u' => ∃ vx, l.vertices[u.toNat]? = some vx ∧
      (¬ Unused vx → l'.vertices[u'.toNat]? = some vx) ∧ (Unused vx → u' = u32Max)) p.vertices p'.vertices := by
    intro p' hp'
    obtain ⟨i, hi, rfl⟩ := List.getElem_of_mem hp'
    exact ⟨_, List.getElem_mem (by omega), ((List.forall₂_iff_get.1 hcl.polygons).2 i (by omega) hi).2⟩
  refine ⟨fun hp => ⟨⟨by rw [← hlen]; exact hp.sized, ?_, ?_⟩, ?_⟩, hlen.symm, ?_, ?_⟩
  · intro p' hp' hnil
    obtain ⟨p, hpm, hf⟩ := hpp p' hp'
    rw [hnil] at hf
    exact hp.nonempty p hpm (List.forall₂_nil_right_iff.1 hf)
  · intro boxes hb
    have : l'.baked = l.baked := by rw [hcl.rest]
    rw [this] at hb
    rw [← hlen]
    exact hp.baked boxes hb
  · rw [hcl.vertices]
    exact lt_of_le_of_lt (List.length_filter_le _ _) hp.size
  · intro hc p' hp' v' hv'
    obtain ⟨p, hpm, hf⟩ := hpp p' hp'
    obtain ⟨j, hj, rfl⟩ := List.getElem_of_mem hv'
    have hl2 := hf.length_eq
    obtain ⟨vx, h1, h2, -⟩ := (List.forall₂_iff_get.1 hf).2 j (by omega) hj
    simp only [List.get_eq_getElem] at h1 h2
    refine ⟨p, hpm, _, List.getElem_mem (by omega), vx, vx, h1, h2 ?_, rfl⟩
    obtain ⟨vy, h3, id, h4, h5⟩ := hc p hpm _ (List.getElem_mem (by omega : j < p.vertices.length))
    rw [h1, Option.some.injEq] at h3
    subst h3
    rintro (hu | hu) <;> rw [hu] at h4 <;> simp at h4
    exact h5 h4
  · intro v' hv'
    rw [hcl.vertices, List.mem_filter] at hv'
    exact ⟨v', hv'.1, rfl⟩

theorem alike_clean {l l' : Layer K} {b : Bool} (hl : l.Plain)
    (hr : ∀ p ∈ l.polygons, ∀ v ∈ p.vertices, v.toNat < l.vertices.length) (h : l.removeUseless = .ok (l', b)) :
    AlikeLayer l l' := by
  obtain ⟨l'', b', e, hcl, -⟩ := C28_layer l hl.size hr
  rw [h, Except.ok.injEq, Prod.mk.injEq] at e
  obtain ⟨rfl, rfl⟩ := e
  exact alike_cleaned hcl

theorem alike_op {l l' : Layer K} (hl : l.Plain)
    (hr : ∀ p ∈ l.polygons, ∀ v ∈ p.vertices, v.toNat < l.vertices.length) (h : LayerOp l l') : AlikeLayer l l' := by
  cases h with
  | bake h => exact alike_bake h
  | unbake => exact alike_geometry rfl rfl (fun boxes hb => by simp [Layer.unbake] at hb)
  | clean h => exact alike_clean hl hr h
  | place o s => exact alike_geometry rfl rfl (fun boxes hb => .inr hb)

theorem alike_refl (l : Layer K) : AlikeLayer l l := alike_geometry rfl rfl (fun _ h => .inr h)

/-- Replacing layers by alike ones, whatever the phase. -/
theorem kept_alike {ph : Phase} {m m' : Mesh K} (h : HistInv ph m) (hf : List.Forall₂ AlikeLayer m.layers m'.layers) : HistInv ph m' := by
  have hlen := hf.length_eq
  have hback : ∀ {a : Nat} {l' : Layer K}, m'.layers[a]? = some l' → ∃ l, m.layers[a]? = some l ∧ AlikeLayer l l' := by
    intro a l' hl'
    obtain ⟨hi, rfl⟩ := List.getElem?_eq_some_iff.1 hl'
    exact ⟨_, List.getElem?_eq_getElem (by omega), (List.forall₂_iff_get.1 hf).2 a (by omega) hi⟩
  have hforth : ∀ {a : Nat} {l : Layer K}, m.layers[a]? = some l → ∃ l', m'.layers[a]? = some l' ∧ AlikeLayer l l' := by
    intro a l hl
    obtain ⟨hi, rfl⟩ := List.getElem?_eq_some_iff.1 hl
    exact ⟨_, List.getElem?_eq_getElem (by omega), (List.forall₂_iff_get.1 hf).2 a hi (by omega)⟩
  refine ⟨by rw [← hlen]; exact h.layers, ?_, ?_, ?_⟩
  · intro l' hl'
    obtain ⟨a, ha⟩ := List.mem_iff_getElem?.1 hl'
    obtain ⟨l, hl, hal⟩ := hback ha
    exact hal.plain (h.plain l (List.mem_of_getElem? hl))
  · intro a l' hl' p' hp' v' hv'
    obtain ⟨l, hl, hal⟩ := hback hl'
    obtain ⟨p, hp, v, hv, vx, vx', h1, h2, h3⟩ := hal.corners (fun p hp v hv => by
      obtain ⟨id, hne, ⟨l2, vx, h1, h2, h3⟩, -⟩ := h.corners a l hl p hp v hv
      rw [hl, Option.some.injEq] at h1
      subst h1
      exact ⟨vx, h2, id, h3, hne⟩) p' hp' v' hv'
    obtain ⟨id, hne, ⟨l2, vy, h4, h5, h6⟩, hown⟩ := h.corners a l hl p hp v hv
    rw [hl, Option.some.injEq] at h4
    subst h4
    rw [h1, Option.some.injEq] at h5
    subst h5
    exact ⟨id, hne, ⟨l', vx', hl', h2, by rw [h3]; exact h6⟩, hown⟩
  · rintro a i id ⟨l', v', hl', hv', hid⟩ hne
    obtain ⟨l, hl, hal⟩ := hback hl'
    obtain ⟨v, hv, hvv⟩ := hal.vertex v' (List.mem_of_getElem? hv')
    obtain ⟨j, hj⟩ := List.mem_iff_getElem?.1 hv
    obtain ⟨h1, h2⟩ := h.refs a j id ⟨l, v, hl, hj, by rw [← hvv]; exact hid⟩ hne
    refine ⟨fun hh => ?_, fun hh => ?_⟩
    · obtain ⟨l2, h3, h4⟩ := h1 hh
      rw [hl, Option.some.injEq] at h3
      subst h3
      exact ⟨l', hl', by rw [hal.count]; exact h4⟩
    · obtain ⟨⟨l2, p, h3, h4⟩, h5⟩ := h2 hh
      refine ⟨?_, h5⟩
      obtain ⟨l3, h6, h7⟩ := hforth h3
      have := lt_of_getElem? h4
      exact ⟨l3, _, h6, List.getElem?_eq_getElem (by rw [h7.count]; exact this)⟩

theorem forall₂_set {R : Layer K → Layer K → Prop} (hR : ∀ l, R l l) {ls : List (Layer K)} {i : Nat} {l l' : Layer K}
    (hl : ls[i]? = some l) (h : R l l') : List.Forall₂ R ls (ls.set i l') := by
  refine List.forall₂_iff_get.2 ⟨by simp, fun a h1 h2 => ?_⟩
  simp only [List.get_eq_getElem, List.getElem_set]
  split
  · rename_i hia
    subst hia
    obtain ⟨_, rfl⟩ := List.getElem?_eq_some_iff.1 hl
    exact h
  · exact hR _

/-! ### Merging -/

theorem mem_joinVertices {poly other : List UInt32} {e : UInt32 × UInt32} {v : UInt32} (h : v ∈ joinVertices poly other e) :
    v ∈ poly ∨ v ∈ other := by
  unfold joinVertices at h
  rcases List.mem_append.1 h with h | h
  · exact .inl (by simpa using (List.dropWhile_sublist _).subset ((List.takeWhile_sublist _).subset h))
  · exact .inr (by simpa using (List.dropWhile_sublist _).subset ((List.takeWhile_sublist _).subset h))

theorem proper_merge {geo : Geo K} (hg : geo.ccwConvex [] = false) {l l' : Layer K} {b : Bool} (hl : l.Proper)
    (h : l.mergePolygons geo = .ok (l', b)) : l'.Proper := by
  obtain ⟨f, hf1, -, hlen, hv, -⟩ := C25_references geo l l' b hl.sized h
  obtain ⟨order, st, cst, vs, -, hst, hb, hinv, -, rfl, -⟩ := mergePolygons_ok h
  have hstp : ∀ p ∈ st.polygons, p.vertices ≠ [] ∧ ∀ v ∈ p.vertices, ∃ q ∈ l.polygons, v ∈ q.vertices := by
    refine foldlM_inv (fun st : MergeState => ∀ p ∈ st.polygons, p.vertices ≠ [] ∧
      ∀ v ∈ p.vertices, ∃ q ∈ l.polygons, v ∈ q.vertices) (fun p hp => ⟨hl.nonempty p hp, fun v hv => ⟨p, hp, hv⟩⟩)
      (fun s _ i s' hs hstep => ?_) hst
    cases mergeOne_step hstep with
    | skip => exact hs
    | @merge a b poly other o start stop cs par' hi hpoly he _ _ _ _ _ _ _ hother hcs hconv _ _ =>
      intro p hp
      rcases List.mem_or_eq_of_mem_set hp with hp | rfl
      · exact hs p hp
      · refine ⟨?_, ?_⟩
        · intro hnil
          simp only at hnil
          rw [hnil] at hcs
          simp only [Layer.coordsOf, List.mapM_nil, pure, Except.pure, Except.ok.injEq] at hcs
          subst hcs
          rw [hg] at hconv
          simp at hconv
        · intro v hv
          rcases mem_joinVertices hv with hv | hv
          · exact (hs poly (List.mem_of_getElem? hpoly)).2 v hv
          · exact (hs other (List.mem_of_getElem? hother)).2 v hv
  have hpoly : ∀ p ∈ cst.polygons.take cst.kept, p ∈ st.polygons := by
    intro p hp
    obtain ⟨j, hj⟩ := List.mem_iff_getElem?.1 hp
    have hjk : j < cst.kept := by
      have := lt_of_getElem? hj
      rw [List.length_take] at this
      omega
    rw [List.getElem?_take_of_lt hjk] at hj
    obtain ⟨r, hr1, hr2⟩ := hinv.surj j hjk
    have hrl : r < l.polygons.length := by
      have := lt_of_getElem? hr2
      rw [hinv.newLen, hb.polyLen] at this
      exact this
    rw [hinv.moved r j hrl hr1 hr2] at hj
    exact List.mem_of_getElem? hj
  simp only at hv hlen hf1
  refine ⟨⟨?_, fun p hp => (hstp p (hpoly p hp)).1, by simp [Layer.unbake]⟩, by rw [hlen]; exact hl.size, ?_, ?_⟩
  · have := hl.sized
    have h1 := hinv.keptLe
    show (cst.polygons.take cst.kept).length ≤ _
    rw [List.length_take]
    omega
  · intro p hp v hvp
    obtain ⟨q, hq, hvq⟩ := (hstp p (hpoly p hp)).2 v hvp
    obtain ⟨vx, h1, id, h2, h3⟩ := hl.corners q hq v hvq
    have hlt := lt_of_getElem? h1
    have hlt' : v.toNat < vs.length := by rw [hlen]; exact hlt
    obtain ⟨-, -, h4, -⟩ := hv v.toNat vx _ h1 (List.getElem?_eq_getElem hlt')
    refine ⟨_, List.getElem?_eq_getElem hlt', Redirect f id, (h4 _).2 ⟨id, h2, rfl⟩, ?_⟩
    have hid := hl.refs vx (List.mem_of_getElem? h1) id h2 h3
    have hfid := hf1 id.toNat hid
    rw [List.length_take, hinv.polyLen, hb.polyLen] at hfid
    have := hl.sized
    unfold Redirect
    rw [if_neg h3]
    intro hh
    have := congrArg UInt32.toNat hh
    rw [UInt32.toNat_ofNat_of_lt' (by show f id.toNat < 2 ^ 32; omega)] at this
    rw [show u32Max.toNat = 4294967295 from rfl] at this
    omega
  · intro v hvm id hid hne
    obtain ⟨i, hi⟩ := List.mem_iff_getElem?.1 hvm
    have hlt := lt_of_getElem? hi
    simp only at hlt hi
    have hlt' : i < l.vertices.length := by omega
    exact (hv i _ v (List.getElem?_eq_getElem hlt') hi).2.2.2.2 id hid hne

theorem proper_mergeLayers {geo : Geo K} (hg : geo.ccwConvex [] = false) : ∀ {ls ls' : List (Layer K)} {b : Bool},
    (∀ l ∈ ls, l.Proper) → mergeLayers geo ls = .ok (ls', b) → ls'.length = ls.length ∧ ∀ l ∈ ls', l.Proper
  | [], ls', b, _, h => by
    simp only [mergeLayers, Except.ok.injEq, Prod.mk.injEq] at h
    obtain ⟨rfl, rfl⟩ := h
    simp
  | l :: ls, ls', b, hp, h => by
    unfold mergeLayers at h
    rw [bind_eq_ok] at h
    obtain ⟨⟨l1, b1⟩, h1, h⟩ := h
    have hl1 := proper_merge hg (hp l (by simp)) h1
    simp only at h
    split at h
    · simp only [Except.ok.injEq, Prod.mk.injEq] at h
      obtain ⟨rfl, rfl⟩ := h
      refine ⟨by simp, fun x hx => ?_⟩
      rcases List.mem_cons.1 hx with rfl | hx
      · exact hl1
      · exact hp x (by simp [hx])
    · rw [bind_eq_ok] at h
      obtain ⟨⟨ls2, b2⟩, h2, h⟩ := h
      simp only [Except.ok.injEq, Prod.mk.injEq] at h
      obtain ⟨rfl, rfl⟩ := h
      obtain ⟨h3, h4⟩ := proper_mergeLayers hg (fun x hx => hp x (by simp [hx])) h2
      refine ⟨by simp [h3], fun x hx => ?_⟩
      rcases List.mem_cons.1 hx with rfl | hx
      · exact hl1
      · exact h4 x hx

/-! ### All histories -/

theorem kept_settings {ph : Phase} {m m' : Mesh K} (h : HistInv ph m) (hl : m'.layers = m.layers) : HistInv ph m' :=
  kept_alike h (by rw [hl]; exact List.forall₂_same.2 (fun l _ => alike_refl l))

theorem built_kept {geo : Geo K} (hg : geo.ccwConvex [] = false) {sorter : Sorter} (hsort : sorter.Ok) {ph : Phase}
    {m : Mesh K} (h : Built geo sorter ph m) : HistInv ph m := by
  induction h with
  | start h1 h2 => exact kept_loose.2 ⟨h1, h2⟩
  | assemble source h1 _ h3 ih =>
    exact kept_loose.2 ⟨h1, fun l hl => (kept_loose.1 (ih l hl)).2 l (h3 l hl)⟩
  | merge _ he ih =>
    unfold Mesh.mergePolygons at he
    rw [bind_eq_ok] at he
    obtain ⟨⟨ls, b⟩, h1, he⟩ := he
    simp only [Except.ok.injEq, Prod.mk.injEq] at he
    obtain ⟨rfl, rfl⟩ := he
    obtain ⟨h2, h3⟩ := proper_mergeLayers hg (kept_loose.1 ih).2 h1
    exact kept_loose.2 ⟨by show ls.length ≤ 256; rw [h2]; exact ih.layers, h3⟩
  | mergeLayer _ hl he ih =>
    obtain ⟨h1, h2⟩ := kept_loose.1 ih
    refine kept_loose.2 ⟨by simpa using h1, fun x hx => ?_⟩
    rcases List.mem_or_eq_of_mem_set hx with hx | rfl
    · exact h2 x hx
    · exact proper_merge hg (h2 _ (List.mem_of_getElem? hl)) he
  | @clean ph m m' b _ he ih =>
    rcases C28_mesh_partial m ⟨fun l hl => (ih.plain l hl).size, ih.range⟩ with ⟨-, h1⟩ | ⟨bf, d, af, d', h0, -, -, h3, h4⟩
    · rw [he, Except.ok.injEq, Prod.mk.injEq] at h1
      obtain ⟨rfl, -⟩ := h1
      exact ih
    · rw [he, Except.ok.injEq, Prod.mk.injEq] at h4
      obtain ⟨rfl, -⟩ := h4
      refine kept_alike ih ?_
      show List.Forall₂ AlikeLayer m.layers (bf ++ d' :: af)
      have hal := alike_cleaned h3
      rw [h0]
      exact List.rel_append (List.forall₂_same.2 (fun l _ => alike_refl l))
        (.cons hal (List.forall₂_same.2 (fun l _ => alike_refl l)))
  | bake _ he ih =>
    unfold Mesh.bake at he
    simp only [bind_eq_ok, Except.ok.injEq] at he
    obtain ⟨ls, hls, rfl⟩ := he
    rw [mapM_ok_iff] at hls
    exact kept_alike ih (hls.imp (fun _ _ hh => alike_bake hh))
  | @unbake ph m _ ih =>
    refine kept_alike ih ?_
    simp only [Mesh.unbake, List.forall₂_map_right_iff, List.forall₂_same]
    exact fun l _ => alike_geometry rfl rfl (fun boxes hb => by simp [Layer.unbake] at hb)
  | layer _ hl hop ih =>
    have hm := List.mem_of_getElem? hl
    exact kept_alike ih (forall₂_set alike_refl hl (alike_op (ih.plain _ hm) (ih.range _ hm) hop))
  | delta _ he ih =>
    unfold Mesh.setSearchDelta at he
    split at he
    · simp only [Except.ok.injEq] at he; subst he; exact kept_settings ih rfl
    · simp at he
  | steps _ he ih =>
    unfold Mesh.setSearchSteps at he
    split at he
    · simp only [Except.ok.injEq] at he; subst he; exact kept_settings ih rfl
    · simp at he
  | stitch _ hs he ih => exact kept_stitch hsort ih loose_lifted hs he
  | stitchPoints _ hne he ih =>
    unfold Mesh.stitchAtPoints at he
    rw [bind_eq_ok] at he
    obtain ⟨sv, h1, he⟩ := he
    exact kept_stitch hsort ih loose_lifted (atPoints_exist (toStitchVertices_iff.1 h1) hne) he
  | unstitch _ ih => exact kept_unstitch ih
  | unstitchLayer t _ ih => exact kept_unstitchLayer t ih
  | replace _ _ hl ih ih' => exact kept_replace ih ((kept_loose.1 ih').2 _ hl)
  | restitch _ hs he ih => exact kept_stitch hsort ih (opened_lifted _) hs he
  | restitchPoints _ hne he ih =>
    unfold Mesh.restitchAtPoints at he
    rw [bind_eq_ok] at he
    obtain ⟨sv, h1, he⟩ := he
    exact kept_stitch hsort ih (opened_lifted _) (atPoints_exist (toStitchVertices_iff.1 h1) hne) he

end Polyanya
