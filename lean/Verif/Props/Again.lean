import Verif.Props.UnorderedExample
/-
C81: stitching again. Adding stitches to a stitched mesh panics or corrupts it; removing all stitches and stitching with the
new list gives the connections of stitching with the new list at once.
-/

namespace Polyanya

set_option linter.unusedSectionVars false

variable {K : Type} [Scalar K] {m m' : Mesh K} {B : List UInt8}

/-- Unstitched layers are given back by a round trip. -/
theorem unstitched_again (hm : m.Unstitched) (hsh : SameShape m m')
    (hl : ∀ a i id, id ≠ u32Max → (Lists m' a i id ↔ Lists m a i id)) : m'.Unstitched := by
  refine ⟨by rw [← hsh.2.length_eq]; exact hm.layers, ?_, ?_, ?_⟩
  · intro l' hl'
    obtain ⟨i, hi⟩ := List.mem_iff_getElem?.1 hl'
    obtain ⟨l, h1, h2⟩ := hsh.layer hi
    rw [h2.polygons]
    exact hm.sized l (List.mem_of_getElem? h1)
  · intro l' hl' v hv id hid hne
    obtain ⟨a, ha⟩ := List.mem_iff_getElem?.1 hl'
    obtain ⟨i, hi⟩ := List.mem_iff_getElem?.1 hv
    obtain ⟨l, h1, h2⟩ := hsh.layer ha
    obtain ⟨l2, v2, k1, k2, k3⟩ := (hl a i id hne).1 ⟨l', v, ha, hi, hid⟩
    rw [h1] at k1; cases k1
    rw [h2.polygons]
    exact hm.refs l (List.mem_of_getElem? h1) v2 (List.mem_of_getElem? k2) id k3 hne
  · intro l' hl' p hp v hv
    obtain ⟨a, ha⟩ := List.mem_iff_getElem?.1 hl'
    obtain ⟨l, h1, h2⟩ := hsh.layer ha
    rw [h2.polygons] at hp
    have hlt := hm.vertices l (List.mem_of_getElem? h1) p hp v hv
    obtain ⟨x', hx'⟩ := h2.vertexThere (List.getElem?_eq_getElem hlt)
    exact lt_of_getElem? hx'

theorem stitchesExist_again (hsh : SameShape m m') {s : StitchVertices} (hs : StitchesExist m s) : StitchesExist m' s :=
  fun e he => ⟨(hs e he).1, fun p hp => ⟨hsh.symm.hasVertex ((hs e he).2 p hp).1, hsh.symm.hasVertex ((hs e he).2 p hp).2⟩⟩

/-- C81 (changing the stitches): stitching by `s₁`, removing the stitches and stitching by `s₂` gives the connections, and
flags the corners, as stitching by `s₂` at once does. -/
theorem C81_restitch_partial (m : Mesh K) (hm : m.Unstitched) (s₁ s₂ : StitchVertices) (hs₁ : StitchesExist m s₁)
    (hs₂ : StitchesExist m s₂) (o₁ o₂ : Bool) (sorter : Sorter) (hsort : sorter.Ok) :
    ∃ m₁ m₂, m.stitchAtVertices sorter s₁ o₁ = .ok m₁ ∧ m₁.removeStitches.stitchAtVertices sorter s₂ o₂ = .ok m₂ ∧
      SameShape m m₂ ∧ StitchedBy m m₂ s₂ o₂ ∧
      (∀ l ∈ m₂.layers, ∀ v ∈ l.vertices, (v.isCorner = true ↔ u32Max ∈ v.polygons)) := by
  obtain ⟨m₁, e1, hsh, hl⟩ := C19_round_trip m hm s₁ hs₁ o₁ sorter hsort
  obtain ⟨m₂, e2, hsh2, hl2, hc⟩ := C20_stitch m₁.removeStitches (unstitched_again hm hsh hl) s₂
    (stitchesExist_again hsh hs₂) o₂ sorter hsort
  refine ⟨m₁, m₂, e1, e2, hsh.trans hsh2, ?_, hc⟩
  intro a i id hid
  rw [hl2 a i id hid]
  constructor
  · rintro (⟨h1, h2⟩ | ⟨j, h1, h2⟩)
    · exact .inl ⟨h1, (hl _ _ _ (ofNat_idPolygon_ne id)).1 h2⟩
    · exact .inr ⟨j, h1, (hl _ _ _ (ofNat_idPolygon_ne id)).1 h2⟩
  · rintro (⟨h1, h2⟩ | ⟨j, h1, h2⟩)
    · exact .inl ⟨h1, (hl _ _ _ (ofNat_idPolygon_ne id)).2 h2⟩
    · exact .inr ⟨j, h1, (hl _ _ _ (ofNat_idPolygon_ne id)).2 h2⟩

/-- C81, for queries: when both ways of stitching flag the same corners, and at most one other polygon is listed across
each edge, all queries have the same answers. -/
theorem C81_queries_partial (bvh : Bvh K) {heap : Heap K} (hh : heap.ByCost) (cfg : Cfg) (m : Mesh K) (hm : m.Unstitched)
    (hd : cfg.detailed = true → m.SmallNumbers) (s₁ s₂ : StitchVertices) (hs₁ : StitchesExist m s₁)
    (hs₂ : StitchesExist m s₂) (o₁ o₂ : Bool) (sorter : Sorter) (hsort : sorter.Ok) :
    ∃ m₁ m₂ n, m.stitchAtVertices sorter s₁ o₁ = .ok m₁ ∧ m₁.removeStitches.stitchAtVertices sorter s₂ o₂ = .ok m₂ ∧
      m.stitchAtVertices sorter s₂ o₂ = .ok n ∧
      (n.RefsInRange → n.OneAcross n.Has →
        (∀ (k : Nat) (l l' : Layer K) (i : Nat) (x x' : Vertex K), n.layers[k]? = some l → m₂.layers[k]? = some l' →
          l.vertices[i]? = some x → l'.vertices[i]? = some x' → x'.isCorner = x.isCorner) →
        ∀ src dst a b, n.Has a → n.Has b → Located n bvh src a → Located n bvh dst b →
          m₂.path bvh heap cfg src dst = n.path bvh heap cfg src dst) := by
  obtain ⟨m₁, m₂, e1, e2, hsh, hl, hc⟩ := C81_restitch_partial m hm s₁ s₂ hs₁ hs₂ o₁ o₂ sorter hsort
  obtain ⟨n, e3, hshn, hln, hcn⟩ := C20_stitch m hm s₂ hs₂ o₂ sorter hsort
  refine ⟨m₁, m₂, n, e1, e2, e3, fun hr ho hflag src dst a b ha hb hsrc hdst => ?_⟩
  have hnm : SameShape n m₂ := hshn.symm.trans hsh
  have hd' : cfg.detailed = true → n.SmallNumbers := by
    intro hcf l' hl' p hp v hv
    obtain ⟨i, hi2⟩ := List.mem_iff_getElem?.1 hl'
    obtain ⟨l, h1, hll⟩ := hshn.layer hi2
    rw [hll.polygons] at hp
    exact hd hcf l (List.mem_of_getElem? h1) p hp v hv
  refine C79_same_layers bvh hh cfg hd' hnm hr.vertices (closed_all hr) ho ?_ ?_ src dst a b ha hb hsrc hdst
  · intro id l p v q _ _ _ hq
    rw [hl _ _ q hq, hln _ _ q hq]
  · intro id l p v l' x x' _ hp _ hx hl' hx'
    unfold TurnsAt
    rw [hflag _ _ _ _ _ _ hp.1 hl' hx hx']
    simp

/-- C81 is false of the code: stitching in two calls, first one vertex of the common edge and then the other one, panics
(`stitch_internals` adds the layer to polygon numbers that have it already), although stitching both at once works, and
a path leads over the edge. -/
theorem C81_false : sideMesh.Unstitched ∧ StitchesExist sideMesh sideStitches ∧
    (∃ m₁, sideMesh.stitchAtVertices insSorter [((0, 1), [(2, 0)])] false = .ok m₁ ∧
      m₁.stitchAtVertices insSorter [((0, 1), [(5, 3)])] false = .error .panic) ∧
    (∃ m₂, sideMesh.stitchAtVertices insSorter [((0, 1), [(2, 0), (5, 3)])] false = .ok m₂ ∧ ∃ len,
      m₂.path allBvh ratHeap ⟨false⟩ (Coords.onMesh (v2 (3/2) (1/2))) (Coords.onMesh (v2 (5/2) (1/2))) =
        .ok (some ⟨len, [⟨5/2,1/2⟩], []⟩)) := by
  refine ⟨unstitched_of_check (by decide +kernel), sideStitches_exist, ?_, ?_⟩
  · have h : resIs (sideMesh.stitchAtVertices insSorter [((0, 1), [(2, 0)])] false) (fun m₁ =>
        match m₁.stitchAtVertices insSorter [((0, 1), [(5, 3)])] false with
        | .error .panic => true
        | _ => false) = true := by decide +kernel
    obtain ⟨m₁, e, h⟩ := of_resIs h
    refine ⟨m₁, e, ?_⟩
    split at h
    · assumption
    · cases h
  · have h : resIs (sideMesh.stitchAtVertices insSorter [((0, 1), [(2, 0), (5, 3)])] false) (fun m₂ =>
        decide (m₂.path allBvh ratHeap ⟨false⟩ (Coords.onMesh (v2 (3/2) (1/2))) (Coords.onMesh (v2 (5/2) (1/2))) =
          .ok (some ⟨1, [⟨5/2,1/2⟩], []⟩))) = true := by decide +kernel
    obtain ⟨m₂, e, h⟩ := of_resIs h
    exact ⟨m₂, e, _, of_decide_eq_true h⟩

/-- Non-vacuity of `C81_queries_partial`: the two vertices in two rounds, with the stitches removed in between. -/
theorem C81_example : ∃ m₁ m₂, sideMesh.stitchAtVertices insSorter [((0, 1), [(2, 0)])] false = .ok m₁ ∧
    m₁.removeStitches.stitchAtVertices insSorter sideStitches false = .ok m₂ ∧ ∃ len,
      m₂.path allBvh ratHeap ⟨false⟩ (Coords.onMesh (v2 (3/2) (1/2))) (Coords.onMesh (v2 (5/2) (1/2))) =
        .ok (some ⟨len, [⟨5/2,1/2⟩], []⟩) := by
  obtain ⟨m₁, m₂, n, e1, e2, e3, h⟩ := C81_queries_partial allBvh (heap := ratHeap) maxHeap_byCost ⟨false⟩ sideMesh
    (unstitched_of_check (by decide +kernel)) (fun h => by cases h) [((0, 1), [(2, 0)])] sideStitches
    (fun e he => by
      have := sideStitches_exist ((0, 1), [(2, 0), (5, 3)]) (by simp [sideStitches])
      simp only [List.mem_singleton] at he
      subst he
      exact ⟨by decide, fun p hp => this.2 p (by simp only [List.mem_singleton] at hp; subst hp; simp)⟩)
    sideStitches_exist false false insSorter insSorter_ok
  refine ⟨m₁, m₂, e1, e2, 1, ?_⟩
  have hf : resIs (do
      let m₁ ← sideMesh.stitchAtVertices insSorter [((0, 1), [(2, 0)])] false
      let m₂ ← m₁.removeStitches.stitchAtVertices insSorter sideStitches false
      let n ← sideMesh.stitchAtVertices insSorter sideStitches false
      .ok (m₂, n)) (fun mn =>
      (mn.1.layers.map (fun l => l.vertices.map (·.isCorner))) == (mn.2.layers.map (fun l => l.vertices.map (·.isCorner))) &&
      refsCheck mn.2 && oneAcrossCheck mn.2 (fun _ => true) &&
      decide (mn.2.endpointPolygon allBvh (Coords.onMesh (v2 (3/2) (1/2))) = .ok (some 1)) &&
      decide (mn.2.endpointPolygon allBvh (Coords.onMesh (v2 (5/2) (1/2))) = .ok (some 16777216)) &&
      decide (mn.2.path allBvh ratHeap ⟨false⟩ (Coords.onMesh (v2 (3/2) (1/2))) (Coords.onMesh (v2 (5/2) (1/2))) =
          .ok (some ⟨1, [⟨5/2,1/2⟩], []⟩)) &&
      ((mn.2.layers[0]?.bind (·.polygons[1]?)).isSome && (mn.2.layers[1]?.bind (·.polygons[0]?)).isSome)) = true := by
    decide +kernel
  rw [e1] at hf
  simp only [res_bind_ok, e2, e3] at hf
  simp only [resIs, Bool.and_eq_true, decide_eq_true_eq, beq_iff_eq] at hf
  obtain ⟨⟨⟨⟨⟨⟨hflag, hr⟩, ho⟩, hs⟩, he⟩, hp⟩, h0, h1⟩ := hf
  rw [Option.isSome_iff_exists] at h0 h1
  obtain ⟨p0, h0⟩ := h0
  obtain ⟨p1, h1⟩ := h1
  rw [Option.bind_eq_some_iff] at h0 h1
  obtain ⟨l0, h0, k0⟩ := h0
  obtain ⟨l1, h1, k1⟩ := h1
  refine (h (refs_of_check hr) (oneAcross_of_check (fun _ _ => rfl) ho) ?_ _ _ 1 16777216 ⟨l0, p0, h0, k0⟩
    ⟨l1, p1, h1, k1⟩ (endpointPolygon_located.1 hs) (endpointPolygon_located.1 he)).trans hp
  intro k l l' i x x' hl hl' hx hx'
  have hf := congrArg (·[k]?) hflag
  simp only [List.getElem?_map, hl, hl', Option.map_some, Option.some.injEq] at hf
  have := congrArg (·[i]?) hf
  simp only [List.getElem?_map, hx, hx', Option.map_some, Option.some.injEq] at this
  exact this

end Polyanya
