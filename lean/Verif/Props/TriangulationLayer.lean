import Verif.Spec.Triangulation
import Verif.Props.Cleanup
import Verif.Props.Trimesh
/-
C34: from the triangulation to the layer.
-/

namespace Polyanya

variable {K : Type} [Scalar K]

theorem dedupList_eq_destutter : ∀ (l : List UInt32), dedupList l = l.destutter (· ≠ ·)
  | [] => rfl
  | [a] => rfl
  | a :: b :: l => by
    have ih := dedupList_eq_destutter (b :: l)
    unfold dedupList
    rw [List.destutter_cons'] at ih ⊢
    rw [List.destutter'_cons]
    by_cases h : a = b
    · subst h
      rw [if_pos rfl, if_neg (by simp)]
      exact ih
    · rw [if_neg h, if_pos h, ih]

/-! ### The faces that are kept -/

theorem keptFaces_eq {keeps : Vec2 K → Res Bool} : ∀ {fs kept : List (Face K)}, keptFaces keeps fs = .ok kept →
    kept = fs.filter (fun f => decide (keeps f.center = .ok true))
  | [], kept, h => by
    simp only [keptFaces, Except.ok.injEq] at h
    subst h; rfl
  | f :: fs, kept, h => by
    simp only [keptFaces, bind_eq_ok] at h
    obtain ⟨b, hb, rest, hrest, h⟩ := h
    have ih := keptFaces_eq hrest
    rw [Except.ok.injEq] at h
    subst h ih
    cases b <;> simp [hb]

theorem safe_keptFaces {keeps : Vec2 K → Res Bool} : ∀ {fs : List (Face K)}, (∀ f ∈ fs, Safe (keeps f.center)) →
    Safe (keptFaces keeps fs)
  | [], _ => safe_ok _
  | f :: fs, h => by
    unfold keptFaces
    refine safe_bind (h f (by simp)) (fun b _ => ?_)
    exact safe_bind (safe_keptFaces (fun g hg => h g (List.mem_cons_of_mem _ hg))) (fun _ _ => safe_ok _)

/-! ### Numbers of polygons -/

theorem retainedId_eq {kept : List (Face K)} {i : Nat} {k : Nat} {f : Face K} (hn : (kept.map (·.index)).Nodup)
    (hk : kept[k]? = some f) (hf : f.index = i) : retainedId kept i = UInt32.ofNat k := by
  unfold retainedId
  have : kept.findIdx? (fun f => f.index == i) = some k := by
    rw [List.findIdx?_eq_some_iff_getElem]
    obtain ⟨hlt, rfl⟩ := List.getElem?_eq_some_iff.1 hk
    refine ⟨hlt, by simpa using hf, ?_⟩
    intro j hj hji
    have hji : kept[j].index = i := by simpa using hji
    have h1 : (kept.map (·.index))[j]'(by rw [List.length_map]; omega) = (kept.map (·.index))[k]'(by rw [List.length_map]; omega) := by
      simp [hji, hf]
    have := (List.Nodup.getElem_inj_iff hn).1 h1
    omega
  rw [this]

theorem retainedId_max {kept : List (Face K)} {i : Nat} (h : ∀ f ∈ kept, f.index ≠ i) : retainedId kept i = u32Max := by
  unfold retainedId
  have : kept.findIdx? (fun f => f.index == i) = none := by
    rw [List.findIdx?_eq_none_iff]
    intro f hf
    simpa using h f hf
  rw [this]

theorem ofNat_ne_u32Max {k : Nat} (h : k < 2 ^ 32 - 1) : UInt32.ofNat k ≠ u32Max := by
  intro he
  have he := congrArg UInt32.toNat he
  rw [toNat_ofNat_lt (by omega)] at he
  have : u32Max.toNat = 2 ^ 32 - 1 := rfl
  omega

/-- Either a retained face, or a gap. -/
theorem retainedId_cases {kept : List (Face K)} (hn : (kept.map (·.index)).Nodup) (i : Nat) :
    (∃ k f, kept[k]? = some f ∧ f.index = i ∧ retainedId kept i = UInt32.ofNat k) ∨
    ((∀ f ∈ kept, f.index ≠ i) ∧ retainedId kept i = u32Max) := by
  by_cases h : ∃ f ∈ kept, f.index = i
  · obtain ⟨f, hf, hi⟩ := h
    obtain ⟨k, hk⟩ := List.mem_iff_getElem?.1 hf
    exact .inl ⟨k, f, hk, hi, retainedId_eq hn hk hi⟩
  · push Not at h
    exact .inr ⟨h, retainedId_max h⟩

theorem faceToPolygon_aux {faceCount : Nat} : ∀ (kept : List (Face K)) (start : Nat) (m : List UInt32),
    m.length = faceCount → (kept.map (·.index)).Nodup → (∀ f ∈ kept, f.index < faceCount) →
    ∃ m', (kept.zipIdx start).foldlM (fun (m : List UInt32) (fi : Face K × Nat) =>
        if fi.1.index < m.length then (.ok (m.set fi.1.index (UInt32.ofNat fi.2)) : Res (List UInt32)) else .error .panic) m =
        .ok m' ∧ m'.length = faceCount ∧
      (∀ (k : Nat) f, kept[k]? = some f → m'[f.index]? = some (UInt32.ofNat (start + k))) ∧
      ∀ i, (∀ f ∈ kept, f.index ≠ i) → m'[i]? = m[i]?
  | [], start, m, hm, _, _ => ⟨m, rfl, hm, by simp, by simp⟩
  | f :: kept, start, m, hm, hn, hr => by
    have hlt := hr f (by simp)
    rw [List.map_cons, List.nodup_cons] at hn
    obtain ⟨m', h1, h2, h3, h4⟩ := faceToPolygon_aux (faceCount := faceCount) kept (start + 1)
      (m.set f.index (UInt32.ofNat start)) (by simpa using hm) hn.2 (fun g hg => hr g (List.mem_cons_of_mem _ hg))
    have hnot : ∀ g ∈ kept, g.index ≠ f.index := by
      intro g hg he
      exact hn.1 (List.mem_map.2 ⟨g, hg, he⟩)
    refine ⟨m', ?_, h2, ?_, ?_⟩
    · rw [List.zipIdx_cons, List.foldlM_cons]
      simp only
      rw [if_pos (by omega), res_bind_ok]
      exact h1
    · intro k g hk
      cases k with
      | zero =>
        simp only [List.getElem?_cons_zero, Option.some.injEq] at hk
        subst hk
        rw [h4 _ hnot, List.getElem?_set_self (by omega)]
        simp
      | succ k =>
        rw [List.getElem?_cons_succ] at hk
        rw [h3 k g hk]
        congr 2
        omega
    · intro i hi
      rw [h4 i (fun g hg => hi g (List.mem_cons_of_mem _ hg)), List.getElem?_set_ne (hi f (by simp))]

theorem faceToPolygon_ok {faceCount : Nat} {kept : List (Face K)} (hn : (kept.map (·.index)).Nodup)
    (hr : ∀ f ∈ kept, f.index < faceCount) :
    ∃ m, faceToPolygon faceCount kept = .ok m ∧ ∀ i, i < faceCount → m[i]? = some (retainedId kept i) := by
  obtain ⟨m, h1, h2, h3, h4⟩ := faceToPolygon_aux kept 0 (List.replicate faceCount u32Max) (by simp) hn hr
  refine ⟨m, h1, ?_⟩
  intro i hi
  rcases retainedId_cases hn i with ⟨k, f, hk, hf, he⟩ | ⟨h, he⟩
  · rw [he, ← hf, h3 k f hk, Nat.zero_add]
  · rw [he, h4 i h, List.getElem?_replicate, if_pos hi]

/-! ### The polygons around a vertex -/

theorem rotateToPolygon_ok : ∀ (n : Nat) (l : List UInt32), (∃ j, j < n ∧ ∃ a, l[j]? = some a ∧ a ≠ u32Max) →
    ∃ k, rotateToPolygon n l = .ok (l.rotate k) ∧ ∃ a, (l.rotate k).head? = some a ∧ a ≠ u32Max
  | 0, l, h => by
    obtain ⟨j, hj, -⟩ := h
    omega
  | n + 1, [], h => by
    obtain ⟨j, hj, a, ha, -⟩ := h
    simp at ha
  | n + 1, a :: l, h => by
    unfold rotateToPolygon
    split
    · rename_i ha
      obtain ⟨j, hj, b, hb, hne⟩ := h
      have hj0 : j ≠ 0 := by
        rintro rfl
        simp only [List.getElem?_cons_zero, Option.some.injEq] at hb
        exact hne (hb ▸ ha)
      obtain ⟨j, rfl⟩ := Nat.exists_eq_succ_of_ne_zero hj0
      rw [Nat.succ_eq_add_one, List.getElem?_cons_succ] at hb
      obtain ⟨k, h1, h2⟩ := rotateToPolygon_ok n (l ++ [a]) ⟨j, by omega, b, by
        rw [List.getElem?_append_left (lt_of_getElem? hb)]; exact hb, hne⟩
      refine ⟨k + 1, ?_, ?_⟩
      · rw [h1, List.rotate_cons_succ]
      · rw [List.rotate_cons_succ]; exact h2
    · rename_i ha
      exact ⟨0, by simp, a, by simp, ha⟩

theorem vertexNeighbours_ok {faceCount : Nat} {kept : List (Face K)} {m : List UInt32}
    (hn : (kept.map (·.index)).Nodup) (hlen : kept.length < 2 ^ 32 - 1)
    (hm : ∀ i, i < faceCount → m[i]? = some (retainedId kept i)) {faces : List Nat} (hr : ∀ i ∈ faces, i < faceCount)
    (honce : ∀ f ∈ kept, faces.count f.index ≤ 1) :
    ∃ ps, vertexNeighbours m faces = .ok ps ∧ ListsAround kept faces ps ∧
      (∀ (k : Nat) f, kept[k]? = some f → (UInt32.ofNat k ∈ ps ↔ f.index ∈ faces)) ∧
      (∀ id ∈ ps, id ≠ u32Max → id.toNat < kept.length) ∧
      (u32Max ∈ ps ↔ faces = [] ∨ ∃ i ∈ faces, ∀ f ∈ kept, f.index ≠ i) := by
  have hmap : faces.mapM (fun f => idx m f) = .ok (faces.map (retainedId kept)) := by
    rw [mapM_ok_iff, List.forall₂_map_right_iff, List.forall₂_same]
    intro i hi
    exact idx_eq_ok.2 (hm i (hr i hi))
  -- which identifiers occur
  have hmem : ∀ (k : Nat) f, kept[k]? = some f → (UInt32.ofNat k ∈ faces.map (retainedId kept) ↔ f.index ∈ faces) := by
    intro k f hk
    have hk' := lt_of_getElem? hk
    rw [List.mem_map]
    constructor
    · rintro ⟨i, hi, he⟩
      rcases retainedId_cases hn i with ⟨k', f', hk'', hf', he'⟩ | ⟨-, he'⟩
      · rw [he'] at he
        have he := congrArg UInt32.toNat he
        have hk3 := lt_of_getElem? hk''
        rw [toNat_ofNat_lt (by omega), toNat_ofNat_lt (by omega)] at he
        subst he
        rw [hk, Option.some.injEq] at hk''
        subst hk''
        rw [hf']; exact hi
      · rw [he'] at he
        exact absurd he.symm (ofNat_ne_u32Max (by omega))
    · intro h
      exact ⟨f.index, h, retainedId_eq hn hk rfl⟩
  have hrange : ∀ id ∈ faces.map (retainedId kept), id ≠ u32Max → id.toNat < kept.length := by
    intro id hid hne
    obtain ⟨i, hi, rfl⟩ := List.mem_map.1 hid
    rcases retainedId_cases hn i with ⟨k, f, hk, hf, he⟩ | ⟨-, he⟩
    · rw [he]
      have := lt_of_getElem? hk
      rw [toNat_ofNat_lt (by omega)]
      exact this
    · exact absurd he hne
  have hgap : u32Max ∈ faces.map (retainedId kept) ↔ ∃ i ∈ faces, ∀ f ∈ kept, f.index ≠ i := by
    rw [List.mem_map]
    constructor
    · rintro ⟨i, hi, he⟩
      rcases retainedId_cases hn i with ⟨k, f, hk, hf, he'⟩ | ⟨h, -⟩
      · rw [he'] at he
        exact absurd he (ofNat_ne_u32Max (by have := lt_of_getElem? hk; omega))
      · exact ⟨i, hi, h⟩
    · rintro ⟨i, hi, h⟩
      exact ⟨i, hi, retainedId_max h⟩
  have hnodup : ((faces.map (retainedId kept)).filter (· ≠ u32Max)).Nodup := by
    rw [List.filter_map]
    have : (faces.filter ((fun x => decide (x ≠ u32Max)) ∘ retainedId kept)).Nodup := by
      rw [List.nodup_iff_count_le_one]
      intro i
      by_cases hi : ∃ f ∈ kept, f.index = i
      · obtain ⟨f, hf, rfl⟩ := hi
        exact le_trans (List.Sublist.count_le _ List.filter_sublist) (honce f hf)
      · push Not at hi
        have : i ∉ faces.filter ((fun x => decide (x ≠ u32Max)) ∘ retainedId kept) := by
          rw [List.mem_filter]
          rintro ⟨-, h⟩
          simp only [Function.comp, retainedId_max hi] at h
          simp at h
        rw [List.count_eq_zero_of_not_mem this]
        omega
    rw [List.Nodup, List.pairwise_map]
    refine List.Pairwise.imp_of_mem ?_ this
    intro a b ha hb hab he
    rw [List.mem_filter] at ha hb
    have ha := ha.2
    have hb := hb.2
    simp only [Function.comp, decide_eq_true_eq] at ha hb
    rcases retainedId_cases hn a with ⟨k, f, hk, hf, he1⟩ | ⟨-, he1⟩
    · rcases retainedId_cases hn b with ⟨k', f', hk', hf', he2⟩ | ⟨-, he2⟩
      · rw [he1, he2] at he
        have he := congrArg UInt32.toNat he
        have h1 := lt_of_getElem? hk
        have h2 := lt_of_getElem? hk'
        rw [toNat_ofNat_lt (by omega), toNat_ofNat_lt (by omega)] at he
        subst he
        rw [hk, Option.some.injEq] at hk'
        subst hk'
        exact hab (hf.symm.trans hf')
      · exact hb he2
    · exact ha he1
  unfold vertexNeighbours
  rw [hmap, res_bind_ok]
  by_cases hall : (faces.map (retainedId kept)).all (fun i => i == u32Max) = true
  · rw [if_pos hall]
    have hall' : ∀ x ∈ faces.map (retainedId kept), x = u32Max := by
      intro x hx
      simpa using List.all_eq_true.1 hall x hx
    have hnone : ∀ i ∈ faces, ∀ f ∈ kept, f.index ≠ i := by
      intro i hi f hf he
      rcases retainedId_cases hn i with ⟨k, f', hk, hf', he'⟩ | ⟨h, -⟩
      · have := hall' _ (List.mem_map.2 ⟨i, hi, rfl⟩)
        rw [he'] at this
        exact ofNat_ne_u32Max (by have := lt_of_getElem? hk; omega) this
      · exact h f hf he
    refine ⟨[u32Max], rfl, ⟨⟨0, .inr ⟨rfl, hnone⟩⟩, by simp, .inl rfl, by simp⟩, ?_, ?_, ?_⟩
    · intro k f hk
      constructor
      · intro h
        rw [List.mem_singleton] at h
        exact absurd h (ofNat_ne_u32Max (by have := lt_of_getElem? hk; omega))
      · intro h
        exact absurd rfl (hnone _ h f (List.mem_of_getElem? hk))
    · intro id hid hne
      rw [List.mem_singleton] at hid
      exact absurd hid hne
    · simp only [List.mem_singleton, true_iff]
      cases faces with
      | nil => exact .inl rfl
      | cons i is => exact .inr ⟨i, by simp, hnone i (by simp)⟩
  · rw [if_neg hall]
    have hex : ∃ j, j < (faces.map (retainedId kept)).length ∧ ∃ a, (faces.map (retainedId kept))[j]? = some a ∧ a ≠ u32Max := by
      rw [List.all_eq_true] at hall
      push Not at hall
      obtain ⟨x, hx, hne⟩ := hall
      obtain ⟨j, hj⟩ := List.mem_iff_getElem?.1 hx
      exact ⟨j, lt_of_getElem? hj, x, hj, by simpa using hne⟩
    obtain ⟨k, h1, a, h2, h3⟩ := rotateToPolygon_ok _ _ hex
    rw [h1, res_bind_ok]
    have hm' : ∀ id, id ∈ dedupList ((faces.map (retainedId kept)).rotate k) ↔ id ∈ faces.map (retainedId kept) := by
      intro id
      rw [mem_dedupList, List.mem_rotate]
    refine ⟨_, rfl, ⟨⟨k, .inl (dedupList_eq_destutter _)⟩, dedupList_chain, .inr ⟨a, by rw [dedupList_head]; exact h2, h3⟩, ?_⟩, ?_, ?_, ?_⟩
    · have hs := (dedupList_sublist (l := (faces.map (retainedId kept)).rotate k)).filter (fun x => decide (x ≠ u32Max))
      refine hs.nodup ?_
      exact (((List.rotate_perm _ _).filter _).nodup_iff).2 hnodup
    · intro k f hk
      rw [hm', hmem k f hk]
    · intro id hid
      exact hrange id ((hm' id).1 hid)
    · rw [hm', hgap]
      constructor
      · exact fun h => .inr h
      · rintro (rfl | h)
        · obtain ⟨j, hj, -⟩ := hex
          simp at hj
        · exact h

/-! ### The layer -/

/-- **C34**: for a consistent triangulation and any choice of faces to retain, as long as the choice is made without
panicking, the conversion succeeds, and the layer has one polygon per retained face and vertices that refer to the
polygons around them (`MadeFrom`). -/
theorem C34_layer (d : TriData K) (hd : d.Consistent) (keeps : Vec2 K → Res Bool)
    (hk : ∀ f ∈ d.inner, ∃ b, keeps f.center = .ok b) :
    ∃ kept l, d.toLayer keeps = .ok l ∧ kept.Sublist d.inner ∧ (∀ f, f ∈ kept ↔ f ∈ d.inner ∧ keeps f.center = .ok true) ∧
      MadeFrom d kept l := by
  obtain ⟨kept, hkept⟩ := (safe_keptFaces (keeps := keeps) (fs := d.inner) (fun f hf => ⟨hk f hf⟩)).ex
  have he := keptFaces_eq hkept
  have hsub : kept.Sublist d.inner := by rw [he]; exact List.filter_sublist
  have hn : (kept.map (·.index)).Nodup := (hsub.map _).nodup hd.nodup
  have hlen : kept.length < 2 ^ 32 - 1 := lt_of_le_of_lt hsub.length_le hd.faces
  obtain ⟨m, hm1, hm2⟩ := faceToPolygon_ok hn (fun f hf => hd.inRange f (hsub.subset hf))
  have hall : ∀ tv ∈ d.vertices, ∃ ps, vertexNeighbours m tv.faces = .ok ps ∧ ListsAround kept tv.faces ps ∧
      (∀ (k : Nat) f, kept[k]? = some f → (UInt32.ofNat k ∈ ps ↔ f.index ∈ tv.faces)) ∧
      (∀ id ∈ ps, id ≠ u32Max → id.toNat < kept.length) ∧
      (u32Max ∈ ps ↔ tv.faces = [] ∨ ∃ i ∈ tv.faces, ∀ f ∈ kept, f.index ≠ i) := by
    intro tv htv
    exact vertexNeighbours_ok hn hlen hm2 (hd.around tv htv) (fun f hf => hd.once tv htv f (hsub.subset hf))
  have hsafe : Safe (d.vertices.mapM (fun v => do
      let n ← vertexNeighbours m v.faces
      .ok (Vertex.new v.position n))) := by
    apply safe_mapM
    intro tv htv
    obtain ⟨ps, h, -⟩ := hall tv htv
    rw [h, res_bind_ok]
    exact safe_ok _
  obtain ⟨vs, hvs⟩ := hsafe.ex
  refine ⟨kept, Layer.mk' vs (kept.map (fun f => Polygon.new
    [UInt32.ofNat f.corners.1, UInt32.ofNat f.corners.2.1, UInt32.ofNat f.corners.2.2] false)), ?_, hsub, ?_,
    ⟨rfl, ⟨rfl, rfl, rfl⟩, ?_, ?_⟩⟩
  · rw [TriData.toLayer, hkept, res_bind_ok, hm1, res_bind_ok, hvs, res_bind_ok]
  · intro f
    rw [he, List.mem_filter]
    simp
  · rw [mapM_ok_iff] at hvs
    exact hvs.length_eq.symm
  · intro v tv hv
    rw [mapM_ok_iff] at hvs
    obtain ⟨ps, h1, h2, h3, h4, h5⟩ := hall tv (List.mem_of_getElem? hv)
    have hlt := lt_of_getElem? hv
    have hlt' : v < vs.length := by rw [← hvs.length_eq]; exact hlt
    have hget := hvs.get hlt hlt'
    simp only [List.get_eq_getElem] at hget
    have htv : d.vertices[v] = tv := by
      have := List.getElem?_eq_some_iff.1 hv
      exact this.2
    rw [htv, h1, res_bind_ok, Except.ok.injEq] at hget
    refine ⟨vs[v], List.getElem?_eq_getElem hlt', ?_⟩
    rw [← hget]
    refine ⟨rfl, h2, ?_, h4, ?_⟩
    · intro k f hk
      refine (h3 k f hk).trans ?_
      exact hd.incident v tv hv f (hsub.subset (List.mem_of_getElem? hk))
    · simp only [Vertex.new, List.contains_iff_mem]
      exact h5

/-- **C34**: such a layer is consistent, if the polygons can be numbered. (`as_layer` does not check that they can.) -/
theorem C34_consistent {d : TriData K} (hd : d.Consistent) {kept : List (Face K)} (hsub : kept.Sublist d.inner)
    {l : Layer K} (hl : MadeFrom d kept l) (hsize : kept.length ≤ 2 ^ 24 - 1) : l.Consistent := by
  refine ⟨by rw [hl.polygons, List.length_map]; exact hsize, ?_, ?_⟩
  · intro k p hp v hv
    rw [hl.polygons, List.getElem?_map, Option.map_eq_some_iff] at hp
    obtain ⟨f, hk, rfl⟩ := hp
    have hcorner : f.HasCorner v.toNat := by
      have hc := hd.corner f (hsub.subset (List.mem_of_getElem? hk))
      have hv32 := hd.vertices
      simp only [List.mem_cons, List.not_mem_nil, or_false] at hv
      rcases hv with rfl | rfl | rfl
      · have := hc f.corners.1 (.inl rfl)
        exact .inl (toNat_ofNat_lt (by omega))
      · have := hc f.corners.2.1 (.inr (.inl rfl))
        exact .inr (.inl (toNat_ofNat_lt (by omega)))
      · have := hc f.corners.2.2 (.inr (.inr rfl))
        exact .inr (.inr (toNat_ofNat_lt (by omega)))
    have hlt := hd.corner f (hsub.subset (List.mem_of_getElem? hk)) _ hcorner
    obtain ⟨vx, h1, -, -, h2, -⟩ := hl.vertex v.toNat _ (List.getElem?_eq_getElem hlt)
    exact ⟨vx, h1, (h2 k f hk).2 hcorner⟩
  · intro v vx hv id hid hne
    have hlt := lt_of_getElem? hv
    rw [hl.vertices] at hlt
    obtain ⟨vx', h1, -, -, h2, h3, -⟩ := hl.vertex v.toNat _ (List.getElem?_eq_getElem hlt)
    rw [hv, Option.some.injEq] at h1
    subst h1
    have hk := h3 id hid hne
    have hk' : kept[id.toNat]? = some kept[id.toNat] := List.getElem?_eq_getElem hk
    have hc := (h2 _ _ hk').1 (by simpa using hid)
    refine ⟨_, by rw [hl.polygons, List.getElem?_map, hk']; rfl, ?_⟩
    have : v = UInt32.ofNat v.toNat := by simp
    simp only [List.mem_cons, List.not_mem_nil, or_false]
    rcases hc with h | h | h
    · exact .inl (by rw [this, h])
    · exact .inr (.inl (by rw [this, h]))
    · exact .inr (.inr (by rw [this, h]))

end Polyanya
