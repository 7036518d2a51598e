import Verif.Proofs.Sort
import Verif.Proofs.Found
import Verif.Proofs.Locate
import Verif.Spec.RatScalar
import Mathlib.Algebra.Order.Ring.Unbundled.Rat
import Mathlib.Data.List.Nodup
/-
Properties C41 (detailed layers: length, shortest candidate) and C42 (`get_vertices_on_segment`).
-/

namespace Polyanya

variable {K : Type} [Scalar K]

instance : LeLaws Rat where
  le_trans a b c hab hbc := by
    simp only [Scalar.le, decide_eq_true_eq] at *
    exact Rat.le_trans hab hbc
  le_total a b _ _ := by
    simp only [Scalar.le, decide_eq_true_eq]
    exact Rat.le_total

/-! ### C42 -/

/-- C42: when `get_vertices_on_segment` returns, it lists exactly the indices of the vertices on the
segment, each once, in order of distance from the start. -/
theorem C42_vertices_on_segment [LeLaws K] (l : Layer K) (start stop : Vec2 K) (is : List Nat)
    (h : l.getVerticesOnSegment start stop = .ok is) :
    is.Nodup ∧
    (∀ i, i ∈ is ↔ ∃ v, l.vertices[i]? = some v ∧ onSegment v.coords (start, stop) = true) ∧
    is.Pairwise (fun i j => ∀ v w, l.vertices[i]? = some v → l.vertices[j]? = some w →
      (v.coords.distance start <=. w.coords.distance start) = true) := by
  unfold Layer.getVerticesOnSegment at h
  simp only at h
  split at h
  · simp at h
  · rename_i hnan
    simp only [Except.ok.injEq] at h
    subst h
    have hmem : ∀ v i, (v, i) ∈ l.vertices.zipIdx.filter (fun v => onSegment v.1.coords (start, stop)) ↔
        l.vertices[i]? = some v ∧ onSegment v.coords (start, stop) = true := by
      intro v i
      rw [List.mem_filter, List.mem_zipIdx_iff_getElem?]
    refine ⟨?_, ?_, ?_⟩
    · have hp := (List.mergeSort_perm (l.vertices.zipIdx.filter
        (fun v => onSegment v.1.coords (start, stop)))
        (fun a b => a.1.coords.distance start <=. b.1.coords.distance start)).map (·.2)
      rw [hp.nodup_iff]
      refine List.Sublist.nodup (List.Sublist.map _ List.filter_sublist) ?_
      rw [List.zipIdx_map_snd]
      exact List.nodup_range'
    · intro i
      simp only [List.mem_map, List.mem_mergeSort, Prod.exists, hmem]
      constructor
      · rintro ⟨v, i', h1, rfl⟩; exact ⟨v, h1⟩
      · rintro ⟨v, h1⟩; exact ⟨v, i, h1, rfl⟩
    · rw [List.pairwise_map]
      have hs : ((l.vertices.zipIdx.filter (fun v => onSegment v.1.coords (start, stop))).mergeSort
          (fun a b => a.1.coords.distance start <=. b.1.coords.distance start)).Pairwise
          (fun a b => (a.1.coords.distance start <=. b.1.coords.distance start) = true) := by
        by_cases hlen : (l.vertices.zipIdx.filter
            (fun v => onSegment v.1.coords (start, stop))).length ≥ 2
        · refine sorted_of_noNan (key := fun a : Vertex K × Nat => a.1.coords.distance start) ?_
          intro a ha
          have : ¬ _ := hnan
          simp only [hlen, decide_true, Bool.true_and, List.any_eq_true, not_exists, not_and,
            Bool.not_eq_true] at this
          exact this a ha
        · have h1 := List.length_mergeSort (le := fun a b : Vertex K × Nat =>
            a.1.coords.distance start <=. b.1.coords.distance start) (l := l.vertices.zipIdx.filter
              (fun v => onSegment v.1.coords (start, stop)))
          generalize List.mergeSort _ _ = ms at h1 ⊢
          match ms with
          | [] => exact .nil
          | [a] => exact List.pairwise_singleton _ _
          | a :: b :: r => simp only [List.length_cons] at h1; omega
      refine List.Pairwise.imp_of_mem ?_ hs
      rintro ⟨v, i⟩ ⟨w, j⟩ ha hb hab v' w' hv hw
      rw [List.mem_mergeSort, hmem] at ha hb
      simp only at hv hw
      rw [ha.1] at hv
      rw [hb.1] at hw
      simp only [Option.some.injEq] at hv hw
      subst hv hw
      exact hab

/-- C42: it returns unless two vertices are on the segment and some distance is NaN. -/
theorem C42_returns (l : Layer K) (start stop : Vec2 K)
    (hn : ∀ v ∈ l.vertices, Scalar.isNan (v.coords.distance start) = false) :
    ∃ is, l.getVerticesOnSegment start stop = .ok is := by
  unfold Layer.getVerticesOnSegment
  simp only
  rw [if_neg]
  · exact ⟨_, rfl⟩
  · simp only [Bool.and_eq_true, List.any_eq_true, not_and, not_exists, Bool.not_eq_true]
    rintro - ⟨v, i⟩ hv
    rw [List.mem_filter, List.mem_zipIdx_iff_getElem?] at hv
    exact hn v (List.mem_of_getElem? hv.1)

/-- Non-vacuity: the vertices of the L-shaped mesh on the segment from (2,1) to (0,1). -/
example : ∃ is, exLayer.getVerticesOnSegment (v2 2 1) (v2 0 1) = .ok is ∧ 5 ∈ is ∧ 4 ∈ is ∧ 3 ∈ is ∧ 0 ∉ is := by
  obtain ⟨is, h⟩ := C42_returns exLayer (v2 2 1) (v2 0 1) (fun _ _ => rfl)
  obtain ⟨-, h2, -⟩ := C42_vertices_on_segment _ _ _ _ h
  refine ⟨is, h, (h2 _).2 ⟨_, rfl, by decide +kernel⟩, (h2 _).2 ⟨_, rfl, by decide +kernel⟩,
    (h2 _).2 ⟨_, rfl, by decide +kernel⟩, fun h0 => ?_⟩
  obtain ⟨v, h3, h4⟩ := (h2 _).1 h0
  have h5 : v = Vertex.new (v2 0 0) [0, u32Max] := by
    have : exLayer.vertices[0]? = some (Vertex.new (v2 0 0) [0, u32Max]) := rfl
    rw [this] at h3
    exact (Option.some.inj h3).symm
  subst h5
  revert h4
  decide +kernel

/-! ### C41 -/

/-- The scale of layer `i`. -/
def scaleOf (m : Mesh K) (i : UInt8) : Vec2 K := ((m.layers[i.toNat]?).map (·.scale)).getD Vec2.one

/-- The length of a leg, scaled by the layer of its first point. -/
def legLength (m : Mesh K) (a b : Vec2 K × UInt8) : K :=
  (⟨a.1.x *. (scaleOf m a.2).x, a.1.y *. (scaleOf m a.2).y⟩ : Vec2 K).distance
    ⟨b.1.x *. (scaleOf m a.2).x, b.1.y *. (scaleOf m a.2).y⟩

/-- The sum, from left to right, of the legs of a polyline. -/
def scaledLength (m : Mesh K) (pts : List (Vec2 K × UInt8)) : K :=
  ((pts.zip pts.tail).map (fun ab => legLength m ab.1 ab.2)).foldl (· +. ·) (Scalar.lit 0 0)

theorem detailedLength_scaled (m : Mesh K) : ∀ (ps : List (Vec2 K × UInt8)) (acc : K) (cur : Vec2 K × UInt8)
    (r : K), detailedLength m acc cur ps = .ok r →
    r = (((cur :: ps).zip ps).map (fun ab => legLength m ab.1 ab.2)).foldl (· +. ·) acc := by
  intro ps
  induction ps with
  | nil =>
    intro acc cur r h
    simp only [detailedLength, Except.ok.injEq] at h
    simp [h]
  | cons p ps ih =>
    intro acc cur r h
    simp only [detailedLength, bind_eq_ok, idx_eq_ok] at h
    obtain ⟨l, hl, h⟩ := h
    have := ih _ _ _ h
    rw [this]
    simp only [List.zip_cons_cons, List.map_cons, List.foldl_cons]
    simp [legLength, scaleOf, hl, Vec2.cmul]

/-- The search reports path `p` within the next `n` steps. -/
inductive Emits (heap : Heap K) (cfg : Cfg) (m : Mesh K) : Nat → Inst K → Path K → Prop where
  | now {n : Nat} {inst inst' : Inst K} {p : Path K} :
      inst.next heap cfg m = .ok (.found p, inst') → Emits heap cfg m (n + 1) inst p
  | later {n : Nat} {inst inst' : Inst K} {st : Step K} {p : Path K} :
      inst.next heap cfg m = .ok (st, inst') → Emits heap cfg m n inst' p → Emits heap cfg m (n + 1) inst p

/-- With `detailed-layers`, the loop collects exactly the reported paths. -/
theorem searchLoop_collects {heap : Heap K} {cfg : Cfg} {m : Mesh K} (hd : cfg.detailed = true) :
    ∀ (n : Nat) (inst : Inst K) (ps : List (Path K)) (r : Path K ⊕ List (Path K)),
      searchLoop heap cfg m n inst ps = .ok r →
      ∃ qs, r = .inr qs ∧ ∀ p, p ∈ qs ↔ p ∈ ps ∨ Emits heap cfg m n inst p := by
  intro n
  induction n with
  | zero =>
    intro inst ps r h
    simp only [searchLoop, Except.ok.injEq] at h
    refine ⟨ps, h.symm, fun p => ⟨.inl, ?_⟩⟩
    rintro (h | h)
    · exact h
    · cases h
  | succ n ih =>
    intro inst ps r h
    simp only [searchLoop, bind_eq_ok] at h
    obtain ⟨⟨st, inst'⟩, hn, h⟩ := h
    have hem : ∀ p, Emits heap cfg m (n + 1) inst p ↔ st = .found p ∨ Emits heap cfg m n inst' p := by
      intro p
      constructor
      · intro h
        cases h with
        | now h' => rw [hn] at h'; simp only [Except.ok.injEq, Prod.mk.injEq] at h'; exact .inl h'.1
        | later h' h2 =>
          rw [hn] at h'; simp only [Except.ok.injEq, Prod.mk.injEq] at h'
          exact .inr (h'.2 ▸ h2)
      · rintro (rfl | h)
        · exact .now hn
        · exact .later hn h
    cases st with
    | found p =>
      simp only [hd, if_true] at h
      obtain ⟨qs, h1, h2⟩ := ih _ _ _ h
      refine ⟨qs, h1, fun q => ?_⟩
      rw [h2, hem, List.mem_append, List.mem_singleton]
      constructor
      · rintro ((h | rfl) | h)
        · exact .inl h
        · exact .inr (.inl rfl)
        · exact .inr (.inr h)
      · rintro (h | h | h)
        · exact .inl (.inl h)
        · injection h with h; exact .inl (.inr h.symm)
        · exact .inr h
    | notFound =>
      have hst : ∀ q, (Step.notFound : Step K) ≠ .found q := by intro q h; nomatch h
      cases ps with
      | nil =>
        obtain ⟨qs, h1, h2⟩ := ih _ _ _ h
        exact ⟨qs, h1, fun q => by rw [h2, hem]; simp⟩
      | cons p ps =>
        simp only [hd, if_true] at h
        obtain ⟨qs, h1, h2⟩ := ih _ _ _ h
        refine ⟨qs, h1, fun q => ?_⟩
        rw [h2, hem]
        have e1 : q ∈ ps ++ [p] ↔ q ∈ p :: ps := by simp [or_comm]
        rw [e1]
        simp only [hst q, false_or]
    | «continue» =>
      have hst : ∀ q, (Step.continue : Step K) ≠ .found q := by intro q h; nomatch h
      obtain ⟨qs, h1, h2⟩ := ih _ _ _ h
      exact ⟨qs, h1, fun q => by rw [h2, hem]; simp [hst q]⟩

/-- C41 (part): with `detailed-layers`, the reported length of a path between different polygons is the sum,
over the legs of start followed by `path_with_layers`, of the distance scaled by the layer of the first
point of the leg. Missing for the full claim: see `C41_false_same_polygon`. -/
theorem C41_length_partial (bvh : Bvh K) (heap : Heap K) (cfg : Cfg) (hd : cfg.detailed = true) (m : Mesh K)
    (src dst : Coords K) (blocked : List UInt8) (p : Path K)
    (h : m.pathOnLayers bvh heap cfg src dst blocked = .ok (some p)) :
    ∃ s e, Located m bvh src s ∧ Located m bvh dst e ∧
      (s ≠ e → ∃ i : UInt8, i.toNat = idLayer s ∧
        p.length = scaledLength m ((src.pos, i) :: p.pathWithLayers)) ∧
      (s = e → ∃ i : UInt8, i.toNat = idLayer s ∧
        p.pathWithLayers = [(dst.pos, i)] ∧ p.length = src.pos.distance dst.pos) := by
  obtain ⟨s, e, hs, he, h⟩ := pathOnLayers_some h
  refine ⟨s, e, endpointPolygon_located.1 hs, endpointPolygon_located.1 he, ?_, ?_⟩
  · intro hne
    rcases pathBetween_some h with ⟨h1, -⟩ | ⟨-, inst, n, hi, -, -, hp⟩
    · exact absurd h1 hne
    · obtain ⟨-, -, h3⟩ := foundPath_shape hp
      obtain ⟨h3, -⟩ := h3 hd
      refine ⟨layerOf s, layerOf_toNat s, ?_⟩
      rw [hi.start] at h3
      have := detailedLength_scaled _ _ _ _ _ h3
      rw [this]
      rfl
  · rintro rfl
    rcases pathBetween_some h with ⟨-, rfl⟩ | ⟨h1, -⟩
    · exact ⟨layerOf s, layerOf_toNat s, by simp [hd], rfl⟩
    · exact absurd rfl h1

/-- C41: with `detailed-layers`, no path reported by the search within its step budget is shorter than the
path returned. -/
theorem C41_shortest [LeLaws K] (heap : Heap K) (cfg : Cfg) (hd : cfg.detailed = true) (m : Mesh K)
    (src dst : Vec2 K) (s e : UInt32) (blocked : List UInt8) (p : Path K) (hse : s ≠ e)
    (h : m.pathBetween heap cfg src dst s e blocked = .ok (some p)) :
    ∃ inst, Inst.setup cfg m (src, s) (dst, e) blocked = .ok inst ∧ Emits heap cfg m m.stepBudget inst p ∧
      ∀ p', Emits heap cfg m m.stepBudget inst p' → p' = p ∨ (p.length <=. p'.length) = true := by
  unfold Mesh.pathBetween at h
  simp only [bind_eq_ok] at h
  obtain ⟨b, -, h⟩ := h
  split at h
  · simp at h
  · simp only [if_neg hse, bind_eq_ok] at h
    obtain ⟨inst, hi, r, hr, h⟩ := h
    obtain ⟨qs, rfl, hq⟩ := searchLoop_collects hd _ _ _ _ hr
    refine ⟨inst, hi, ?_⟩
    simp only [pickPath, hd, if_true] at h
    split at h
    · simp at h
    · rename_i hnan
      simp only [Except.ok.injEq] at h
      have hpm : p ∈ qs := by
        have := List.mem_of_mem_head? h
        rwa [List.mem_mergeSort] at this
      refine ⟨by simpa using (hq p).1 hpm, ?_⟩
      intro p' hp'
      have hp'm : p' ∈ qs := (hq p').2 (.inr hp')
      by_cases hlen : qs.length ≥ 2
      · have hs := sorted_of_noNan (key := fun a : Path K => a.length) (l := qs) (by
          intro a ha
          have : ¬ _ := hnan
          simp only [hlen, decide_true, Bool.true_and, List.any_eq_true, not_exists, not_and,
            Bool.not_eq_true] at this
          exact this a ha)
        have hm' : p' ∈ qs.mergeSort (fun a b => a.length <=. b.length) := by
          rwa [List.mem_mergeSort]
        revert h hs hm'
        generalize qs.mergeSort (fun a b => a.length <=. b.length) = ms
        intro h hs hm'
        cases ms with
        | nil => simp at h
        | cons a ms =>
          simp only [List.head?_cons, Option.some.injEq] at h
          subst h
          rcases List.mem_cons.1 hm' with h | h
          · exact .inl h
          · exact .inr (List.rel_of_pairwise_cons hs h)
      · left
        match qs, hlen with
        | [], _ => simp at hpm
        | [a], _ =>
          simp only [List.mem_singleton] at hpm hp'm
          rw [hpm, hp'm]
        | a :: b :: r, hlen => simp at hlen

/-- C41, the full length claim is false of this code: when both ends are in the same polygon, the scale of
the layer is ignored. Here the layer has scale (2, 2) and both points are in square 0. -/
theorem C41_false_same_polygon : ∃ (m : Mesh Rat) (a b : Vec2 Rat) (p : Path Rat),
    m.path allBvh ratHeap ⟨true⟩ (Coords.onMesh a) (Coords.onMesh b) = .ok (some p) ∧
    p.length = 3 / 10 ∧ p.pathWithLayers = [(b, 0)] ∧ scaledLength m ((a, 0) :: p.pathWithLayers) = 6 / 10 := by
  refine ⟨Mesh.ofLayers [{ exLayer with scale := v2 2 2 }], v2 (1/2) (1/2), v2 (8/10) (1/2),
    ⟨3 / 10, [v2 (8/10) (1/2)], [(v2 (8/10) (1/2), 0)]⟩, ?_, rfl, rfl, ?_⟩
  · decide +kernel
  · decide +kernel

theorem pickPath_some {cfg : Cfg} {ps : List (Path Rat)} (h : ps ≠ []) :
    ∃ p, pickPath cfg ps = .ok (some p) := by
  unfold pickPath
  split
  · rw [if_neg (by simp [Scalar.isNan])]
    cases hm : ps.mergeSort (fun a b => a.length <=. b.length) with
    | nil =>
      have := List.length_mergeSort (le := fun a b : Path Rat => a.length <=. b.length) (l := ps)
      rw [hm] at this
      exact absurd (List.length_eq_zero_iff.1 this.symm) h
    | cons a l => exact ⟨a, rfl⟩
  · cases ps with
    | nil => exact absurd rfl h
    | cons a l => exact ⟨a, rfl⟩

/-- Non-vacuity: with `detailed-layers`, a path around the corner is found between polygons 2 and 1. -/
example : ∃ p, exMesh.path allBvh ratHeap ⟨true⟩ (Coords.onMesh (v2 (1/2) (3/2)))
    (Coords.onMesh (v2 (3/2) (1/2))) = .ok (some p) := by
  obtain ⟨r, hr, hp⟩ := of_resIs (x := (do
      let inst ← Inst.setup ⟨true⟩ exMesh (v2 (1/2) (3/2), 2) (v2 (3/2) (1/2), 1) []
      searchLoop ratHeap ⟨true⟩ exMesh exMesh.stepBudget inst []))
    (f := fun r => match r with | .inl _ => false | .inr ps => !ps.isEmpty) (by decide +kernel)
  have e1 : exMesh.endpointPolygon allBvh (Coords.onMesh (v2 (1/2) (3/2))) = .ok (some 2) := by
    decide +kernel
  have e2 : exMesh.endpointPolygon allBvh (Coords.onMesh (v2 (3/2) (1/2))) = .ok (some 1) := by
    decide +kernel
  have e3 : exMesh.islandsDiffer 2 1 = .ok false := by decide +kernel
  have hne : ¬ (2 : UInt32) = 1 := by decide
  unfold Mesh.path Mesh.pathOnLayers Mesh.pathBetween
  rw [bind_eq_ok] at hr
  obtain ⟨inst, h1, h2⟩ := hr
  simp only [e1, e2, e3, res_bind_ok, Bool.false_eq_true, if_false, if_neg hne]
  rw [show (Coords.onMesh (v2 (1/2) (3/2))).pos = v2 (1/2) (3/2) from rfl,
    show (Coords.onMesh (v2 (3/2) (1/2))).pos = v2 (3/2) (1/2) from rfl, h1]
  simp only [res_bind_ok, h2]
  cases r with
  | inl p => simp at hp
  | inr ps => exact pickPath_some (by simpa using hp)

end Polyanya
