import Verif.Proofs.Safe
import Verif.Spec.RatScalar
/-
Properties C15 (point location queries agree), C16 (`get_closest_point`), C17
(`get_closest_point_towards`): the parts that hold for every arithmetic.
-/

namespace Polyanya

variable {K : Type} [Scalar K]

/-- The point `pt` (in layer coordinates) or one of its eight neighbours at distance `delta` lies in a
polygon of the layer, according to the layer's lookup; `p` is the polygon found for the first such point.
(C77 says in terms of geometry which points these are and when one of them is found.) -/
def NearLayer (l : Layer K) (bvh : Bvh K) (pt : Vec2 K) (delta : K) (p : UInt32) : Prop :=
  ∃ before d after, probeOffsets delta = before ++ d :: after ∧ l.locate bvh (pt + d) = .ok p ∧ p ≠ u32Max
    ∧ ∀ d' ∈ before, l.locate bvh (pt + d') = .ok u32Max

theorem layer_getPointLocation_some {l : Layer K} {bvh : Bvh K} {pt : Vec2 K} {delta : K} {p : UInt32}
    (h : l.getPointLocation bvh pt delta = .ok (some p)) : NearLayer l bvh pt delta p := by
  obtain ⟨l1, d, l2, hl, hd, hb⟩ := findFirst_some h
  simp only [bind_eq_ok, Except.ok.injEq] at hd hb
  obtain ⟨q, hq, hd⟩ := hd
  split at hd
  · simp only [Option.some.injEq] at hd
    subst hd
    refine ⟨l1, d, l2, hl, hq, by assumption, fun d' hd' => ?_⟩
    obtain ⟨q', hq', hn⟩ := hb d' hd'
    split at hn
    · simp at hn
    · rename_i hne
      rw [hq', show q' = u32Max by simpa using hne]
  · simp at hd

theorem nearLayer_unique {l : Layer K} {bvh : Bvh K} {pt : Vec2 K} {delta : K} {p : UInt32}
    (h : NearLayer l bvh pt delta p) : l.getPointLocation bvh pt delta = .ok (some p) := by
  obtain ⟨l1, d, l2, hl, hd, hne, hb⟩ := h
  unfold Layer.getPointLocation
  rw [hl]
  refine findFirst_append_some ?_ (fun x hx => ?_)
  · rw [hd]; simp [hne]
  · rw [hb x hx]; simp

theorem getPointLocation_ne_max {l : Layer K} {bvh : Bvh K} {pt : Vec2 K} {delta : K} {p : UInt32}
    (hl : l.polygons.length ≤ 2 ^ 24 - 1) (h : l.getPointLocation bvh pt delta = .ok (some p)) :
    p.toNat < l.polygons.length := by
  obtain ⟨_, d, _, -, hd, hne, -⟩ := layer_getPointLocation_some h
  exact locate_lt hl hd hne

theorem locationInLayer_some {m : Mesh K} {bvh : Bvh K} {pos : Vec2 K} {i : UInt8} {l : Layer K}
    {id : UInt32} (h : m.locationInLayer bvh pos i l = .ok (some id)) :
    ∃ p, id = packId i p ∧ l.getPointLocation bvh (pos - l.offset) m.searchDelta = .ok (some p) := by
  unfold Mesh.locationInLayer at h
  simp only [bind_eq_ok, Except.ok.injEq, Option.map_eq_some_iff] at h
  obtain ⟨_, h, p, rfl, rfl⟩ := h
  exact ⟨p, rfl, h⟩

/-- What `get_point_layer` returns: for each layer (the requested one, or all of them in order), at most one
entry, present exactly if the point is near the layer. `js` are the layer numbers and polygons. -/
theorem getPointLayer_shape {m : Mesh K} {bvh : Bvh K} {c : Coords K} {cs : List (Coords K)}
    (hm : m.Sized) (hlen : m.layers.length ≤ 256) (h : m.getPointLayer bvh c = .ok cs) :
    ∃ js : List (Nat × UInt32), cs = js.map (fun jp =>
        { pos := c.pos, layer := some (UInt8.ofNat jp.1), polygonIndex := packId (UInt8.ofNat jp.1) jp.2 })
      ∧ js.Pairwise (fun a b => a.1 < b.1)
      ∧ ∀ j p, (j, p) ∈ js ↔ (∀ i, c.layer = some i → j = i.toNat) ∧ ∃ l, m.layers[j]? = some l
          ∧ NearLayer l bvh (c.pos - l.offset) m.searchDelta p := by
  have near : ∀ (l : Layer K) (i : UInt8) id, l ∈ m.layers → m.locationInLayer bvh c.pos i l = .ok (some id) →
      ∃ p, id = packId i p ∧ NearLayer l bvh (c.pos - l.offset) m.searchDelta p
        ∧ p.toNat < 2 ^ 24 - 1 := by
    intro l i id hl h
    obtain ⟨p, rfl, hp⟩ := locationInLayer_some h
    have := hm l hl
    have := getPointLocation_ne_max (hm l hl) hp
    exact ⟨p, rfl, layer_getPointLocation_some hp, by omega⟩
  have near' : ∀ (l : Layer K) (i : UInt8) p, NearLayer l bvh (c.pos - l.offset) m.searchDelta p →
      m.locationInLayer bvh c.pos i l = .ok (some (packId i p)) := by
    intro l i p h
    unfold Mesh.locationInLayer
    rw [nearLayer_unique h]
    rfl
  unfold Mesh.getPointLayer at h
  simp only [bind_eq_ok, Except.ok.injEq] at h
  obtain ⟨is, his, rfl⟩ := h
  unfold Mesh.getPointLocations at his
  split at his
  · rename_i i hci
    split at his
    · rename_i l hl
      simp only [bind_eq_ok, Except.ok.injEq] at his
      obtain ⟨r, hr, rfl⟩ := his
      cases r with
      | none =>
        refine ⟨[], rfl, .nil, fun j p => ?_⟩
        simp only [List.not_mem_nil, hci, Option.some.injEq, forall_eq', false_iff, not_and]
        rintro rfl ⟨l', hl', hn⟩
        rw [hl] at hl'
        obtain rfl := Option.some.inj hl'
        rw [near' l i p hn] at hr
        simp at hr
      | some id =>
        obtain ⟨p, rfl, hn, hlt⟩ := near l i id (List.mem_of_getElem? hl) hr
        refine ⟨[(i.toNat, p)], ?_, List.pairwise_singleton _ _, fun j p' => ?_⟩
        · simp only [Option.toList_some, List.map_cons, List.map_nil, List.cons.injEq, and_true,
            Coords.mk.injEq, true_and, Option.some.injEq]
          constructor
          · rw [UInt8.ofNat_toNat]
            apply UInt8.toNat_inj.1
            rw [layerOf_toNat, idLayer_packId _ _ (by omega)]
          · rw [UInt8.ofNat_toNat]
        · simp only [List.mem_singleton, Prod.mk.injEq, hci, Option.some.injEq, forall_eq']
          constructor
          · rintro ⟨rfl, rfl⟩; exact ⟨rfl, l, hl, hn⟩
          · rintro ⟨rfl, l', hl', hn'⟩
            rw [hl] at hl'
            obtain rfl := Option.some.inj hl'
            have h1 := near' l i p' hn'
            rw [hr] at h1
            simp only [Except.ok.injEq, Option.some.injEq] at h1
            refine ⟨rfl, ?_⟩
            have hp' := getPointLocation_ne_max (hm l (List.mem_of_getElem? hl)) (nearLayer_unique hn')
            have := hm l (List.mem_of_getElem? hl)
            have h2 := congrArg idPolygon h1
            rw [idPolygon_packId _ _ (by omega), idPolygon_packId _ _ (by omega)] at h2
            exact (UInt32.toNat_inj.1 h2).symm
    · rename_i hl
      simp only [Except.ok.injEq] at his
      subst his
      refine ⟨[], rfl, .nil, fun j p => ?_⟩
      simp only [List.not_mem_nil, hci, Option.some.injEq, forall_eq', false_iff, not_and]
      rintro rfl ⟨l', hl', -⟩
      rw [hl] at hl'
      simp at hl'
  · rename_i hci
    simp only [bind_eq_ok, Except.ok.injEq] at his
    obtain ⟨rs, hrs, rfl⟩ := his
    rw [mapM_ok_iff] at hrs
    -- generalise over a suffix of the numbered layers, starting at index `k`
    suffices H : ∀ (ls : List (Layer K)) (k : Nat) (rs : List (Option UInt32)),
        (∀ i, m.layers[k + i]? = ls[i]?) →
        List.Forall₂ (fun (il : UInt8 × Layer K) b => m.locationInLayer bvh c.pos il.1 il.2 = .ok b)
          ((ls.zipIdx k).map (fun p => (UInt8.ofNat p.2, p.1))) rs →
        ∃ js : List (Nat × UInt32),
          ((rs.filterMap id).filter (· != u32Max)).map (fun p => (⟨c.pos, some (layerOf p), p⟩ : Coords K))
            = js.map (fun jp =>
              (⟨c.pos, some (UInt8.ofNat jp.1), packId (UInt8.ofNat jp.1) jp.2⟩ : Coords K))
          ∧ js.Pairwise (fun a b => a.1 < b.1)
          ∧ ∀ j p, (j, p) ∈ js ↔ k ≤ j ∧ ∃ l, m.layers[j]? = some l
            ∧ NearLayer l bvh (c.pos - l.offset) m.searchDelta p by
      obtain ⟨js, h1, h2, h3⟩ := H m.layers 0 rs (by simp) (by simpa [Mesh.numbered] using hrs)
      refine ⟨js, h1, h2, fun j p => ?_⟩
      rw [h3]
      simp [hci]
    intro ls
    induction ls with
    | nil =>
      intro k rs hk hf
      simp only [List.zipIdx_nil, List.map_nil, List.forall₂_nil_left_iff] at hf
      subst hf
      refine ⟨[], rfl, .nil, fun j p => ?_⟩
      simp only [List.not_mem_nil, false_iff, not_and]
      rintro hkj ⟨l, hl, -⟩
      have := hk (j - k)
      rw [show k + (j - k) = j by omega, hl] at this
      simp at this
    | cons l ls ih =>
      intro k rs hk hf
      simp only [List.zipIdx_cons, List.map_cons] at hf
      cases hf with
      | @cons _ r _ rs' hr hrest =>
        have hl : m.layers[k]? = some l := by simpa using hk 0
        have hk256 := lt_of_getElem? hl
        obtain ⟨js, h1, h2, h3⟩ := ih (k + 1) rs' (fun i => by
          have := hk (i + 1); rw [show k + 1 + i = k + (i + 1) by omega, this]; simp) hrest
        cases r with
        | none =>
          refine ⟨js, h1, h2, fun j p => ?_⟩
          rw [h3]
          constructor
          · rintro ⟨hj, h⟩; exact ⟨by omega, h⟩
          · rintro ⟨hj, l', hl', hn⟩
            refine ⟨?_, l', hl', hn⟩
            rcases Nat.lt_or_eq_of_le hj with h | rfl
            · exact h
            · rw [hl] at hl'
              obtain rfl := Option.some.inj hl'
              have := near' l (UInt8.ofNat k) p hn
              rw [hr] at this
              simp at this
        | some idv =>
          obtain ⟨p, rfl, hn, hlt⟩ := near l _ _ (List.mem_of_getElem? hl) hr
          have hne : packId (UInt8.ofNat k) p ≠ u32Max := packId_ne_max _ _ hlt
          refine ⟨(k, p) :: js, ?_, ?_, fun j p' => ?_⟩
          · rw [List.filterMap_cons_some (f := id) (b := packId (UInt8.ofNat k) p) rfl]
            rw [List.filter_cons_of_pos (by simpa using hne), List.map_cons, List.map_cons, h1]
            congr 2
            rw [show layerOf (packId (UInt8.ofNat k) p) = UInt8.ofNat k from
              UInt8.toNat_inj.1 (by rw [layerOf_toNat, idLayer_packId _ _ (by omega)])]
          · rw [List.pairwise_cons]
            refine ⟨?_, h2⟩
            rintro ⟨j, p'⟩ hj
            exact ((h3 j p').1 hj).1
          · simp only [List.mem_cons, Prod.mk.injEq, h3]
            constructor
            · rintro (⟨rfl, rfl⟩ | ⟨hj, h⟩)
              · exact ⟨Nat.le_refl _, l, hl, hn⟩
              · exact ⟨by omega, h⟩
            · rintro ⟨hj, l', hl', hn'⟩
              rcases Nat.lt_or_eq_of_le hj with h | rfl
              · exact .inr ⟨h, l', hl', hn'⟩
              · left
                refine ⟨rfl, ?_⟩
                rw [hl] at hl'
                obtain rfl := Option.some.inj hl'
                have h1 := nearLayer_unique hn
                rw [nearLayer_unique hn'] at h1
                simpa using h1

/-- C15: what `get_point_layer` lists. Its entries are at the queried position, on increasing layers (hence
each layer at most once), and layer `j` is listed exactly if it is the requested one (when one was
requested), exists, and the point (or one of the eight probes around it) lies in a polygon of it; the
listed polygon is that polygon. -/
theorem C15_point_layer (bvh : Bvh K) (m : Mesh K) (c : Coords K) (cs : List (Coords K))
    (hm : m.Sized) (hlen : m.layers.length ≤ 256) (h : m.getPointLayer bvh c = .ok cs) :
    (∀ x ∈ cs, x.pos = c.pos) ∧
    cs.Pairwise (fun a b => ∃ i j, a.layer = some i ∧ b.layer = some j ∧ i < j) ∧
    ∀ (j : UInt8) (id : UInt32), ({ pos := c.pos, layer := some j, polygonIndex := id } : Coords K) ∈ cs ↔
      (∀ i, c.layer = some i → j = i) ∧ ∃ l p, m.layers[j.toNat]? = some l ∧ id = packId j p
        ∧ NearLayer l bvh (c.pos - l.offset) m.searchDelta p := by
  obtain ⟨js, rfl, h2, h3⟩ := getPointLayer_shape hm hlen h
  have hlt : ∀ j p, (j, p) ∈ js → j < 256 := by
    intro j p hj
    obtain ⟨-, l, hl, -⟩ := (h3 j p).1 hj
    have := lt_of_getElem? hl
    omega
  refine ⟨?_, ?_, ?_⟩
  · intro x hx
    obtain ⟨jp, -, rfl⟩ := List.mem_map.1 hx
    rfl
  · rw [List.pairwise_map]
    refine h2.imp_of_mem ?_
    rintro ⟨i, p⟩ ⟨j, p'⟩ hi hj hij
    refine ⟨_, _, rfl, rfl, ?_⟩
    rw [UInt8.lt_iff_toNat_lt, UInt8.toNat_ofNat_of_lt' (hlt i p hi), UInt8.toNat_ofNat_of_lt' (hlt j p' hj)]
    exact hij
  · intro j id
    simp only [List.mem_map, Coords.mk.injEq, true_and, Option.some.injEq, Prod.exists]
    constructor
    · rintro ⟨k, p, hk, rfl, rfl⟩
      obtain ⟨hc, l, hl, hn⟩ := (h3 k p).1 hk
      refine ⟨fun i hi => ?_, l, p, ?_, rfl, hn⟩
      · rw [hc i hi, UInt8.ofNat_toNat]
      · rw [UInt8.toNat_ofNat_of_lt' (hlt k p hk)]; exact hl
    · rintro ⟨hc, l, p, hl, rfl, hn⟩
      refine ⟨j.toNat, p, (h3 _ _).2 ⟨fun i hi => by rw [hc i hi], l, hl, hn⟩, UInt8.ofNat_toNat, ?_⟩
      rw [UInt8.ofNat_toNat]

/-- C15: `point_in_mesh` agrees with `get_point_layer`: whenever the latter returns, so does the former, and
it says true exactly if the list is not empty. -/
theorem C15_point_in_mesh (bvh : Bvh K) (m : Mesh K) (c : Coords K) (cs : List (Coords K))
    (hm : m.Sized) (h : m.getPointLayer bvh c = .ok cs) :
    m.pointInMesh bvh c = .ok (!cs.isEmpty) := by
  have ne : ∀ (l : Layer K) (i : UInt8) id, l ∈ m.layers → m.locationInLayer bvh c.pos i l = .ok (some id) →
      id ≠ u32Max := by
    intro l i id hl h
    obtain ⟨p, rfl, hp⟩ := locationInLayer_some h
    have := hm l hl
    have := getPointLocation_ne_max (hm l hl) hp
    exact packId_ne_max _ _ (by omega)
  unfold Mesh.getPointLayer at h
  simp only [bind_eq_ok, Except.ok.injEq] at h
  obtain ⟨is, his, rfl⟩ := h
  unfold Mesh.pointInMesh
  rw [show ∀ f : UInt32 → Coords K, (is.map f).isEmpty = is.isEmpty by intro f; cases is <;> rfl]
  unfold Mesh.getPointLocations at his
  unfold Mesh.getPointLocation
  split at his
  · rename_i i hci
    split at his
    · rename_i l hl
      simp only [bind_eq_ok, Except.ok.injEq] at his
      obtain ⟨r, hr, rfl⟩ := his
      simp only [hr, res_bind_ok]
      cases r with
      | none => rfl
      | some id =>
        have := ne l i id (List.mem_of_getElem? hl) hr
        simp only [Option.getD_some, Option.toList_some, List.isEmpty_cons, Bool.not_false]
        rw [bne_iff_ne.2 this]
    · rename_i hl
      simp only [Except.ok.injEq] at his
      subst his
      rfl
  · rename_i hci
    simp only [bind_eq_ok, Except.ok.injEq] at his
    obtain ⟨rs, hrs, rfl⟩ := his
    rw [mapM_ok_iff] at hrs
    have hmem : ∀ il ∈ m.numbered, il.2 ∈ m.layers := fun il hil => mem_numbered' hil
    generalize m.numbered = ns at hrs hmem
    suffices H : ∃ o, findFirst (fun (il : UInt8 × Layer K) => do
        let r ← m.locationInLayer bvh c.pos il.1 il.2
        .ok (r.filter (· != u32Max))) ns = .ok o ∧ (o.getD u32Max != u32Max) =
          !((rs.filterMap id).filter (· != u32Max)).isEmpty by
      obtain ⟨o, ho, hb⟩ := H
      rw [ho]
      simp only [res_bind_ok]
      rw [hb]
    induction hrs with
    | nil => exact ⟨none, rfl, by simp⟩
    | @cons il r ns rs hr _ ih =>
      obtain ⟨o, ho, hb⟩ := ih (fun il hil => hmem il (List.mem_cons_of_mem _ hil))
      cases r with
      | none =>
        refine ⟨o, ?_, ?_⟩
        · simp only [findFirst, hr, res_bind_ok, Option.filter_none]
          exact ho
        · simpa using hb
      | some idv =>
        have hne := ne _ _ _ (hmem il (List.mem_cons_self ..)) hr
        refine ⟨some idv, ?_, ?_⟩
        · simp [findFirst, hr, Option.filter, hne]
        · simp [hne]

/-- C15: a query restricted to a layer that does not exist answers "not in the mesh". -/
theorem C15_out_of_range (bvh : Bvh K) (m : Mesh K) (pos : Vec2 K) (i : UInt8)
    (hi : m.layers.length ≤ i.toNat) :
    m.pointInMesh bvh (Coords.onLayer pos i) = .ok false ∧
    m.getPointLayer bvh (Coords.onLayer pos i) = .ok [] := by
  have : m.layers[i.toNat]? = none := List.getElem?_eq_none hi
  simp [Mesh.pointInMesh, Mesh.getPointLayer, Mesh.getPointLocation, Mesh.getPointLocations,
    Coords.onLayer, this]

/-- Non-vacuity: a point of the example mesh. -/
example : exMesh.getPointLayer allBvh (Coords.onMesh (v2 (3/2) (1/2))) =
    .ok [{ pos := v2 (3/2) (1/2), layer := some 0, polygonIndex := 1 }] := by decide +kernel

/-! ### C16, C17 -/

/-- Positions in a `List.range` prefix. -/
theorem range_split {n : Nat} {l1 l2 : List Nat} {a : Nat} (h : List.range n = l1 ++ a :: l2) :
    a < n ∧ ∀ k, k < a ↔ k ∈ l1 := by
  have hlen : l1.length < n := by
    have := congrArg List.length h
    simp at this
    omega
  have ha : a = l1.length := by
    have h1 : (List.range n)[l1.length]? = some a := by rw [h]; simp
    rw [List.getElem?_range hlen] at h1
    exact (Option.some.inj h1).symm
  refine ⟨by omega, fun k => ?_⟩
  have hl1 : l1 = List.range l1.length := by
    have h2 : (List.range n).take l1.length = l1 := by rw [h]; simp
    rw [List.take_range] at h2
    rw [show min l1.length n = l1.length by omega] at h2
    exact h2.symm
  rw [hl1, List.mem_range, ← ha]

/-- The layers allowed by a query: the requested one, or all. -/
def Allowed (c : Coords K) (j : Nat) : Prop := ∀ i, c.layer = some i → j = i.toNat

/-- The result of the closest-point loops: the first hit in the order of steps, then of layers. -/
theorem closestLoop_first {m : Mesh K} {q : Coords K}
    {inner : Nat → Layer K → Res (Option (Vec2 K × UInt32))} {c : Coords K}
    (h : m.closestLoop q.layer inner = .ok (some c)) :
    ∃ (step : Nat) (j : Nat) (l : Layer K) (np : Vec2 K) (r : UInt32), step < m.searchSteps
      ∧ m.layers[j]? = some l ∧ Allowed q j ∧ inner step l = .ok (some (np, r))
      ∧ c = { pos := np + l.offset, layer := some (UInt8.ofNat j),
              polygonIndex := packId (UInt8.ofNat j) r }
      ∧ ∀ step' j' l', (step' < step ∨ (step' = step ∧ j' < j)) → m.layers[j']? = some l' →
          Allowed q j' → inner step' l' = .ok none := by
  unfold Mesh.closestLoop at h
  split at h
  · rename_i i hq
    simp only [bind_eq_ok, idx_eq_ok] at h
    obtain ⟨l, hl, h⟩ := h
    obtain ⟨l1, step, l2, hr, hi, hb⟩ := findFirst_some h
    obtain ⟨hstep, hlt⟩ := range_split hr
    unfold closestInLayer at hi hb
    simp only [bind_eq_ok, Except.ok.injEq, Option.map_eq_some_iff, Option.map_eq_none_iff] at hi hb
    obtain ⟨_, ho, ⟨np, r⟩, rfl, rfl⟩ := hi
    refine ⟨step, i.toNat, l, np, r, hstep, hl, fun i' hi' => ?_, ho, by simp, ?_⟩
    · rw [hq] at hi'; cases hi'; rfl
    · intro step' j' l' hord hl' hal
      have hj := hal i hq
      subst hj
      rw [hl] at hl'
      cases hl'
      rcases hord with h | ⟨-, h⟩
      · obtain ⟨o, h1, h2⟩ := hb step' ((hlt step').1 h)
        rw [h1, h2]
      · omega
  · rename_i hq
    obtain ⟨l1, step, l2, hr, hi, hb⟩ := findFirst_some h
    obtain ⟨hstep, hlt⟩ := range_split hr
    obtain ⟨k1, ⟨i, l⟩, k2, hk, hi, hb2⟩ := findFirst_some hi
    have hj : m.layers[k1.length]? = some l ∧ i = UInt8.ofNat k1.length := by
      have : m.numbered[k1.length]? = some (i, l) := by rw [hk]; simp
      unfold Mesh.numbered at this
      rw [List.getElem?_map, List.getElem?_zipIdx, Option.map_map] at this
      simp only [Option.map_eq_some_iff, Function.comp_apply, Prod.mk.injEq, Nat.zero_add] at this
      obtain ⟨l', h1, h2, rfl⟩ := this
      exact ⟨h1, h2.symm⟩
    obtain ⟨hj, rfl⟩ := hj
    unfold closestInLayer at hi hb2
    simp only [bind_eq_ok, Except.ok.injEq, Option.map_eq_some_iff] at hi
    obtain ⟨_, ho, ⟨np, r⟩, rfl, rfl⟩ := hi
    refine ⟨step, k1.length, l, np, r, hstep, hj, by simp [Allowed, hq], ho, rfl, ?_⟩
    have hnum : ∀ j' l', m.layers[j']? = some l' → m.numbered[j']? = some (UInt8.ofNat j', l') := by
      intro j' l' hl'
      unfold Mesh.numbered
      rw [List.getElem?_map, List.getElem?_zipIdx, hl']
      simp
    have none_of : ∀ {step'} {il : UInt8 × Layer K}, closestInLayer (inner step') il.1 il.2 = .ok none →
        inner step' il.2 = .ok none := by
      intro step' il h
      unfold closestInLayer at h
      simp only [bind_eq_ok, Except.ok.injEq, Option.map_eq_none_iff] at h
      obtain ⟨o, h1, rfl⟩ := h
      exact h1
    intro step' j' l' hord hl' _
    have hn := hnum j' l' hl'
    rcases hord with h | ⟨rfl, h⟩
    · have := hb step' ((hlt step').1 h)
      rw [findFirst_none] at this
      exact none_of (this _ (List.mem_of_getElem? hn))
    · rw [hk, List.getElem?_append_left h] at hn
      exact none_of (hb2 _ (List.mem_of_getElem? hn))

/-- If the loop returns nothing, no step hits any allowed layer. -/
theorem closestLoop_none {m : Mesh K} {q : Coords K}
    {inner : Nat → Layer K → Res (Option (Vec2 K × UInt32))}
    (h : m.closestLoop q.layer inner = .ok none) :
    ∀ step j l, step < m.searchSteps → m.layers[j]? = some l → Allowed q j → inner step l = .ok none := by
  intro step j l hs hl hal
  have none_of : ∀ {step'} {i : UInt8} {l : Layer K}, closestInLayer (inner step') i l = .ok none →
      inner step' l = .ok none := by
    intro step' i l h
    unfold closestInLayer at h
    simp only [bind_eq_ok, Except.ok.injEq, Option.map_eq_none_iff] at h
    obtain ⟨o, h1, rfl⟩ := h
    exact h1
  unfold Mesh.closestLoop at h
  split at h
  · rename_i i hq
    simp only [bind_eq_ok, idx_eq_ok, findFirst_none, List.mem_range] at h
    obtain ⟨l0, hl0, h⟩ := h
    have := hal i hq
    subst this
    rw [hl] at hl0
    cases hl0
    exact none_of (h step hs)
  · simp only [findFirst_none, List.mem_range] at h
    have := h step hs (UInt8.ofNat j, l) (by
      refine List.mem_of_getElem? (i := j) ?_
      unfold Mesh.numbered
      rw [List.getElem?_map, List.getElem?_zipIdx, hl]
      simp)
    exact none_of this

theorem closestInner_first {l : Layer K} {bvh : Bvh K} {pt np : Vec2 K} {delta : K} {step : Nat}
    {r : UInt32} (h : l.closestInner bvh pt delta step = .ok (some (np, r))) :
    ∃ i, i ≤ 10 * step ∧ np = ringSample pt delta step i ∧ l.locate bvh np = .ok r ∧ r ≠ u32Max
      ∧ ∀ i' < i, l.locate bvh (ringSample pt delta step i') = .ok u32Max := by
  obtain ⟨l1, i, l2, hr, hi, hb⟩ := findFirst_some h
  obtain ⟨hlt, hk⟩ := range_split hr
  simp only [bind_eq_ok, Except.ok.injEq] at hi hb
  obtain ⟨p, hp, hi⟩ := hi
  split at hi
  · simp only [Option.some.injEq, Prod.mk.injEq] at hi
    obtain ⟨rfl, rfl⟩ := hi
    refine ⟨i, by omega, rfl, hp, by assumption, fun i' hi' => ?_⟩
    obtain ⟨p', hp', h'⟩ := hb i' ((hk i').1 hi')
    split at h'
    · simp at h'
    · rename_i hne
      rw [hp', show p' = u32Max by simpa using hne]
  · simp at hi

theorem closestInner_none {l : Layer K} {bvh : Bvh K} {pt : Vec2 K} {delta : K} {step : Nat}
    (h : l.closestInner bvh pt delta step = .ok none) :
    ∀ i, i ≤ 10 * step → l.locate bvh (ringSample pt delta step i) = .ok u32Max := by
  intro i hi
  unfold Layer.closestInner at h
  rw [findFirst_none] at h
  have := h i (by simp; omega)
  simp only [bind_eq_ok, Except.ok.injEq] at this
  obtain ⟨p, hp, h'⟩ := this
  split at h'
  · simp at h'
  · rename_i hne
    rw [hp, show p = u32Max by simpa using hne]

/-- Sample number `i` of ring `step` around the query, seen from layer `l`, lies in polygon `p` of the
layer (or in none of them, if `p` is the marker). -/
def SampleIn (m : Mesh K) (bvh : Bvh K) (q : Coords K) (l : Layer K) (step i : Nat) (p : UInt32) : Prop :=
  l.locate bvh (ringSample (q.pos - l.offset) m.searchDelta step i) = .ok p

/-- C16: if `get_closest_point` returns a point, it is a sample of the first ring that hits an allowed
layer: it lies in the polygon it names, of the layer it names, which is the requested one if one was
requested; no sample of a smaller ring lies in an allowed layer, nor does one of the same ring in an earlier
layer, nor an earlier sample of the same ring in this layer. -/
theorem C16_closest_point (bvh : Bvh K) (m : Mesh K) (q c : Coords K)
    (hlen : m.layers.length ≤ 256) (h : m.getClosestPoint bvh q = .ok (some c)) :
    ∃ (step i : Nat) (j : UInt8) (l : Layer K) (p : Polygon) (k : Nat),
      step < m.searchSteps ∧ i ≤ 10 * step ∧ m.layers[j.toNat]? = some l ∧
      (∀ i, q.layer = some i → j = i) ∧
      c = { pos := ringSample (q.pos - l.offset) m.searchDelta step i + l.offset,
            layer := some j, polygonIndex := packId j (UInt32.ofNat k) } ∧
      l.polygons[k]? = some p ∧
      l.pointInPolygon (ringSample (q.pos - l.offset) m.searchDelta step i) p = .ok true ∧
      (∀ i' < i, SampleIn m bvh q l step i' u32Max) ∧
      (∀ step' j' l', (step' < step ∨ (step' = step ∧ j' < j.toNat)) → m.layers[j']? = some l' →
        Allowed q j' → ∀ i', i' ≤ 10 * step' → SampleIn m bvh q l' step' i' u32Max) := by
  obtain ⟨step, j, l, np, r, hs, hl, hal, hi, rfl, hfirst⟩ := closestLoop_first h
  obtain ⟨i, hi10, rfl, hloc, hne, hprev⟩ := closestInner_first hi
  obtain ⟨k, p, hk, rfl, hin⟩ := locate_found hloc hne
  have hj : (UInt8.ofNat j).toNat = j :=
    UInt8.toNat_ofNat_of_lt' (show j < 256 by have := lt_of_getElem? hl; omega)
  refine ⟨step, i, UInt8.ofNat j, l, p, k, hs, hi10, by rw [hj]; exact hl, ?_, rfl, hk, hin, hprev, ?_⟩
  · intro i hi; rw [hal i hi, UInt8.ofNat_toNat]
  rw [hj]
  exact (
    fun step' j' l' hord hl' hal' => closestInner_none (hfirst step' j' l' hord hl' hal'))

/-- C16: if `get_closest_point` returns `None`, no sample of any ring lies in an allowed layer. -/
theorem C16_none (bvh : Bvh K) (m : Mesh K) (q : Coords K) (h : m.getClosestPoint bvh q = .ok none) :
    ∀ step j l, step < m.searchSteps → m.layers[j]? = some l → Allowed q j →
      ∀ i, i ≤ 10 * step → SampleIn m bvh q l step i u32Max := fun step j l hs hl hal =>
  closestInner_none (closestLoop_none h step j l hs hl hal)

/-- The point reached after `step` steps towards `t`, in the coordinates of layer `l`. -/
def towardsSample (m : Mesh K) (q : Coords K) (t : Vec2 K) (l : Layer K) (step : Nat) : Vec2 K :=
  (q.pos - l.offset) + ((directionTo q.pos t).smul m.searchDelta).smul (Scalar.ofNat step)

theorem towardsInner_some {l : Layer K} {bvh : Bvh K} {pt np d : Vec2 K} {delta : K} {step : Nat}
    {r : UInt32} (h : l.towardsInner bvh pt delta d step = .ok (some (np, r))) :
    np = pt + (d.smul delta).smul (Scalar.ofNat step) ∧ l.locate bvh np = .ok r ∧ r ≠ u32Max := by
  unfold Layer.towardsInner at h
  simp only [bind_eq_ok, Except.ok.injEq] at h
  obtain ⟨p, hp, h⟩ := h
  split at h
  · simp only [Option.some.injEq, Prod.mk.injEq] at h
    obtain ⟨rfl, rfl⟩ := h
    exact ⟨rfl, hp, by assumption⟩
  · simp at h

theorem towardsInner_none {l : Layer K} {bvh : Bvh K} {pt d : Vec2 K} {delta : K} {step : Nat}
    (h : l.towardsInner bvh pt delta d step = .ok none) :
    l.locate bvh (pt + (d.smul delta).smul (Scalar.ofNat step)) = .ok u32Max := by
  unfold Layer.towardsInner at h
  simp only [bind_eq_ok, Except.ok.injEq] at h
  obtain ⟨p, hp, h⟩ := h
  split at h
  · simp at h
  · rename_i hne
    rw [hp, show p = u32Max by simpa using hne]

/-- C17: if `get_closest_point_towards` returns a point, it is the first of the points
`query + step * delta * direction` that lies in a polygon of an allowed layer. -/
theorem C17_towards (bvh : Bvh K) (m : Mesh K) (q c : Coords K) (t : Vec2 K)
    (hlen : m.layers.length ≤ 256) (h : m.getClosestPointTowards bvh q t = .ok (some c)) :
    ∃ (step : Nat) (j : UInt8) (l : Layer K) (p : Polygon) (k : Nat),
      step < m.searchSteps ∧ m.layers[j.toNat]? = some l ∧ (∀ i, q.layer = some i → j = i) ∧
      c = { pos := towardsSample m q t l step + l.offset, layer := some j,
            polygonIndex := packId j (UInt32.ofNat k) } ∧
      l.polygons[k]? = some p ∧ l.pointInPolygon (towardsSample m q t l step) p = .ok true ∧
      (∀ step' j' l', (step' < step ∨ (step' = step ∧ j' < j.toNat)) → m.layers[j']? = some l' →
        Allowed q j' → l'.locate bvh (towardsSample m q t l' step') = .ok u32Max) := by
  obtain ⟨step, j, l, np, r, hs, hl, hal, hi, rfl, hfirst⟩ := closestLoop_first h
  obtain ⟨rfl, hloc, hne⟩ := towardsInner_some hi
  obtain ⟨k, p, hk, rfl, hin⟩ := locate_found hloc hne
  have hj : (UInt8.ofNat j).toNat = j :=
    UInt8.toNat_ofNat_of_lt' (show j < 256 by have := lt_of_getElem? hl; omega)
  refine ⟨step, UInt8.ofNat j, l, p, k, hs, by rw [hj]; exact hl, ?_, rfl, hk, hin, ?_⟩
  · intro i hi; rw [hal i hi, UInt8.ofNat_toNat]
  rw [hj]
  exact (
    fun step' j' l' hord hl' hal' => towardsInner_none (hfirst step' j' l' hord hl' hal'))

/-- C17: if `get_closest_point_towards` returns `None`, none of the points lies in an allowed layer. -/
theorem C17_none (bvh : Bvh K) (m : Mesh K) (q : Coords K) (t : Vec2 K)
    (h : m.getClosestPointTowards bvh q t = .ok none) :
    ∀ step j l, step < m.searchSteps → m.layers[j]? = some l → Allowed q j →
      l.locate bvh (towardsSample m q t l step) = .ok u32Max := fun step j l hs hl hal =>
  towardsInner_none (closestLoop_none h step j l hs hl hal)

/-- Non-vacuity: a point outside the example mesh is moved onto it (one step of 1/10 to the left, where the
stand-in for the direction is exact). -/
example : exMesh.getClosestPointTowards allBvh (Coords.onMesh (v2 (41/20) (1/2))) (v2 0 (1/2)) =
    .ok (some { pos := v2 (39/20) (1/2), layer := some 0, polygonIndex := 1 }) := by decide +kernel

example : ∃ c, exMesh.getClosestPoint allBvh (Coords.onMesh (v2 (-1/20) (1/2))) = .ok (some c) ∧
    c.pos ≠ v2 (-1/20) (1/2) := by
  obtain ⟨o, h1, h2⟩ := of_resIs (x := exMesh.getClosestPoint allBvh (Coords.onMesh (v2 (-1/20) (1/2))))
    (f := fun o => match o with | some c => decide (c.pos ≠ v2 (-1/20) (1/2)) | none => false)
    (by decide +kernel)
  cases o with
  | none => simp at h2
  | some c => exact ⟨c, h1, by simpa using h2⟩

end Polyanya
