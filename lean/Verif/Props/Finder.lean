import Verif.Props.Geometry
import Verif.Proofs.LocateIff
/-
Property C14: the baked polygon finder agrees with the linear scan, in exact arithmetic.
-/

namespace Polyanya

/-! ### Geometry: a point left of all edges of a closed polygon is not outside its bounding box -/

theorem div_le_div_neg {a b c d : ℝ} (hb : b < 0) (hd : d < 0) : a / b ≤ c / d ↔ a * d ≤ c * b := by
  rw [← neg_div_neg_eq a b, ← neg_div_neg_eq c d,
    div_le_div_iff₀ (neg_pos.2 hb) (neg_pos.2 hd), neg_mul_neg, neg_mul_neg]

/-- The slopes of a chain of vectors in a half plane, each to the left of the previous one, increase. -/
theorem chain_slopes (f : Nat → ℝ × ℝ) (n : Nat) (hneg : ∀ i ≤ n, (f i).1 < 0)
    (hleft : ∀ i < n, 0 < (f i).1 * (f (i + 1)).2 - (f i).2 * (f (i + 1)).1) :
    (f 0).2 / (f 0).1 ≤ (f n).2 / (f n).1 := by
  induction n with
  | zero => exact le_refl _
  | succ n ih =>
    refine (ih (fun i hi => hneg i (by omega)) (fun i hi => hleft i (by omega))).trans ?_
    have h1 := hneg n (by omega)
    have h2 := hneg (n + 1) (by omega)
    have h3 := hleft n (by omega)
    rw [div_le_div_neg h1 h2]
    linarith

/-- It cannot close. -/
theorem no_closed_chain (f : Nat → ℝ × ℝ) (n : Nat) (hneg : ∀ i ≤ n, (f i).1 < 0)
    (hleft : ∀ i < n, 0 < (f i).1 * (f (i + 1)).2 - (f i).2 * (f (i + 1)).1)
    (hclose : 0 < (f n).1 * (f 0).2 - (f n).2 * (f 0).1) : False := by
  have h := chain_slopes f n hneg hleft
  have h1 := hneg n (le_refl _)
  have h2 := hneg 0 (Nat.zero_le _)
  rw [div_le_div_neg h2 h1] at h
  linarith

/-- A closed polygon (points `f 0 … f n`) with `p` to the left of all edges has points on both sides of
`p` in each coordinate. -/
theorem left_of_all_box (f : Nat → Vec2 ℝ) (n : Nat) (p : Vec2 ℝ)
    (hleft : ∀ i < n, 0 < cross (f i) (f (i + 1)) p) (hclose : 0 < cross (f n) (f 0) p) :
    (∃ i ≤ n, (f i).x ≤ p.x) ∧ (∃ i ≤ n, p.x ≤ (f i).x) ∧
    (∃ i ≤ n, (f i).y ≤ p.y) ∧ (∃ i ≤ n, p.y ≤ (f i).y) := by
  have hc : ∀ a b : Vec2 ℝ, cross a b p = (a.x - p.x) * (b.y - p.y) - (a.y - p.y) * (b.x - p.x) := by
    intro a b; unfold cross; ring
  simp only [hc] at hleft hclose
  refine ⟨?_, ?_, ?_, ?_⟩ <;> by_contra hn <;> push Not at hn
  · refine no_closed_chain (fun i => (-((f i).x - p.x), -((f i).y - p.y))) n ?_ ?_ ?_
    · intro i hi; have := hn i hi; simp; linarith
    · intro i hi; have := hleft i hi; simp only; nlinarith
    · simp only; nlinarith
  · refine no_closed_chain (fun i => ((f i).x - p.x, (f i).y - p.y)) n ?_ ?_ ?_
    · intro i hi; have := hn i hi; simp; linarith
    · intro i hi; have := hleft i hi; simp only; nlinarith
    · simp only; nlinarith
  · refine no_closed_chain (fun i => (-((f i).y - p.y), (f i).x - p.x)) n ?_ ?_ ?_
    · intro i hi; have := hn i hi; simp; linarith
    · intro i hi; have := hleft i hi; simp only; nlinarith
    · simp only; nlinarith
  · refine no_closed_chain (fun i => ((f i).y - p.y, -((f i).x - p.x))) n ?_ ?_ ?_
    · intro i hi; have := hn i hi; simp; linarith
    · intro i hi; have := hleft i hi; simp only; nlinarith
    · simp only; nlinarith

/-! ### Specification -/

/-- The polygon contains the point: it is to the left of (by the tolerance) every edge, or on an edge (up to
the tolerance). -/
def PolygonContains (l : Layer ℝ) (p : Polygon) (pt : Vec2 ℝ) : Prop :=
  (∀ a b, IsEdge p.vertices a b → ∃ va vb, l.vertices[a.toNat]? = some va ∧ l.vertices[b.toNat]? = some vb
      ∧ 1 / 10000 ≤ cross va.coords vb.coords pt) ∨
  (∃ a b va vb, IsEdge p.vertices a b ∧ l.vertices[a.toNat]? = some va ∧ l.vertices[b.toNat]? = some vb
      ∧ min va.coords.x vb.coords.x ≤ pt.x ∧ pt.x ≤ max va.coords.x vb.coords.x
      ∧ min va.coords.y vb.coords.y ≤ pt.y ∧ pt.y ≤ max va.coords.y vb.coords.y
      ∧ |cross va.coords vb.coords pt| < 1 / 10000)

/-! ### The bounding box contains the points of the polygon -/

theorem pointInEdges_true {l : Layer ℝ} {pt : Vec2 ℝ} : ∀ es : List (UInt32 × UInt32),
    l.pointInEdges pt es = .ok true →
    (∀ e ∈ es, ∃ va vb, l.vertices[e.1.toNat]? = some va ∧ l.vertices[e.2.toNat]? = some vb
      ∧ side pt (va.coords, vb.coords) = .left) ∨
    (∃ e ∈ es, ∃ va vb, l.vertices[e.1.toNat]? = some va ∧ l.vertices[e.2.toNat]? = some vb
      ∧ onSegment pt (va.coords, vb.coords) = true)
  | [], _ => .inl (by simp)
  | e :: es, h => by
    unfold Layer.pointInEdges at h
    split at h
    · simp at h
    · simp only [bind_eq_ok, idxUnchecked_eq_ok] at h
      obtain ⟨va, h1, vb, h2, h⟩ := h
      split at h
      · rename_i hs
        simp only [Bool.and_eq_true] at hs
        exact .inr ⟨e, by simp, va, vb, h1, h2, hs.2⟩
      · split at h
        · simp at h
        · rename_i hl
          have hl : side pt (va.coords, vb.coords) = .left := by simpa using hl
          rcases pointInEdges_true es h with h | ⟨e', he', h⟩
          · left
            intro e' he'
            rcases List.mem_cons.1 he' with rfl | he'
            · exact ⟨va, vb, h1, h2, hl⟩
            · exact h e' he'
          · exact .inr ⟨e', List.mem_cons_of_mem _ he', h⟩

/-- What `point_in_polygon` accepts. -/
theorem pointInPolygon_contains {l : Layer ℝ} {pt : Vec2 ℝ} {p : Polygon}
    (h : l.pointInPolygon pt p = .ok true) : PolygonContains l p pt ∧ p.vertices ≠ [] := by
  unfold Layer.pointInPolygon at h
  rw [bind_eq_ok] at h
  obtain ⟨es, hes, h⟩ := h
  have hne : p.vertices ≠ [] := by
    intro h0
    simp [Polygon.edgesIndex, h0] at hes
  refine ⟨?_, hne⟩
  rcases pointInEdges_true es h with h | ⟨e, he, va, vb, h1, h2, h3⟩
  · left
    intro a b hab
    obtain ⟨va, vb, h1, h2, h3⟩ := h (a, b) ((mem_edgesIndex hes a b).2 hab)
    exact ⟨va, vb, h1, h2, side_left.1 h3⟩
  · right
    rw [C39_on_segment] at h3
    exact ⟨e.1, e.2, va, vb, (mem_edgesIndex hes e.1 e.2).1 he, h1, h2, h3⟩

/-- The box of a polygon contains its vertices. -/
theorem aabb_vertices (l : Layer ℝ) (p : Polygon) (a : UInt32) (ha : a ∈ p.vertices) (va : Vertex ℝ)
    (hva : l.vertices[a.toNat]? = some va) :
    (l.polygonAabb p).1.x ≤ va.coords.x ∧ va.coords.x ≤ (l.polygonAabb p).2.x ∧
    (l.polygonAabb p).1.y ≤ va.coords.y ∧ va.coords.y ≤ (l.polygonAabb p).2.y := by
  have step : ∀ (acc : Aabb ℝ) (c : Vec2 ℝ),
      (aabbStep acc c).1.x = min acc.1.x c.x ∧ (aabbStep acc c).2.x = max acc.2.x c.x ∧
      (aabbStep acc c).1.y = min acc.1.y c.y ∧ (aabbStep acc c).2.y = max acc.2.y c.y := by
    intro acc c
    simp only [aabbStep, real_lt]
    refine ⟨?_, ?_, ?_, ?_⟩ <;> split <;> rename_i h
    · rw [min_eq_right h.le]
    · rw [min_eq_left (not_lt.1 h)]
    · rw [max_eq_right h.le]
    · rw [max_eq_left (not_lt.1 h)]
    · rw [min_eq_right h.le]
    · rw [min_eq_left (not_lt.1 h)]
    · rw [max_eq_right h.le]
    · rw [max_eq_left (not_lt.1 h)]
  -- the fold only widens the box
  have mono : ∀ (vs : List UInt32) (acc : Aabb ℝ),
      let r := vs.foldl l.aabbVertex acc
      r.1.x ≤ acc.1.x ∧ acc.2.x ≤ r.2.x ∧ r.1.y ≤ acc.1.y ∧ acc.2.y ≤ r.2.y := by
    intro vs
    induction vs with
    | nil => intro acc; simp
    | cons v vs ih =>
      intro acc
      simp only [List.foldl_cons]
      cases hv : l.vertices[v.toNat]? with
      | none =>
        have : l.aabbVertex acc v = acc := by unfold Layer.aabbVertex; rw [hv]
        rw [this]; exact ih acc
      | some w =>
        have : l.aabbVertex acc v = aabbStep acc w.coords := by unfold Layer.aabbVertex; rw [hv]
        rw [this]
        obtain ⟨s1, s2, s3, s4⟩ := step acc w.coords
        obtain ⟨i1, i2, i3, i4⟩ := ih (aabbStep acc w.coords)
        rw [s1] at i1; rw [s2] at i2; rw [s3] at i3; rw [s4] at i4
        exact ⟨i1.trans (min_le_left _ _), (le_max_left _ _).trans i2, i3.trans (min_le_left _ _),
          (le_max_left _ _).trans i4⟩
  unfold Layer.polygonAabb
  obtain ⟨l1, l2, hl⟩ := List.append_of_mem ha
  rw [hl, List.foldl_append, List.foldl_cons]
  generalize List.foldl _ _ l1 = acc
  have : l.aabbVertex acc a = aabbStep acc va.coords := by unfold Layer.aabbVertex; rw [hva]
  rw [this]
  obtain ⟨s1, s2, s3, s4⟩ := step acc va.coords
  obtain ⟨i1, i2, i3, i4⟩ := mono l2 (aabbStep acc va.coords)
  rw [s1] at i1; rw [s2] at i2; rw [s3] at i3; rw [s4] at i4
  exact ⟨i1.trans (min_le_right _ _), (le_max_right _ _).trans i2, i3.trans (min_le_right _ _),
    (le_max_right _ _).trans i4⟩

/-- A polygon only contains points of its bounding box. -/
theorem contains_in_box {l : Layer ℝ} {p : Polygon} {pt : Vec2 ℝ} (hne : p.vertices ≠ [])
    (h : PolygonContains l p pt) :
    (l.polygonAabb p).1.x ≤ pt.x ∧ pt.x ≤ (l.polygonAabb p).2.x ∧
    (l.polygonAabb p).1.y ≤ pt.y ∧ pt.y ≤ (l.polygonAabb p).2.y := by
  rcases h with h | ⟨a, b, va, vb, he, h1, h2, hx1, hx2, hy1, hy2, -⟩
  · -- left of all edges
    have hlen : 0 < p.vertices.length := List.length_pos_iff.2 hne
    obtain ⟨f, hf⟩ : ∃ f : Nat → Vec2 ℝ, ∀ i < p.vertices.length, ∃ a va, p.vertices[i]? = some a ∧
        l.vertices[a.toNat]? = some va ∧ f i = va.coords := by
      have : ∀ i, ∃ c : Vec2 ℝ, i < p.vertices.length → ∃ a va, p.vertices[i]? = some a ∧
          l.vertices[a.toNat]? = some va ∧ c = va.coords := by
        intro i
        by_cases hi : i < p.vertices.length
        · obtain ⟨va, vb, h1, -, -⟩ := h p.vertices[i] _
            ⟨i, hi, List.getElem?_eq_getElem hi, List.getElem?_eq_getElem (Nat.mod_lt _ hlen)⟩
          exact ⟨va.coords, fun _ => ⟨_, va, List.getElem?_eq_getElem hi, h1, rfl⟩⟩
        · exact ⟨⟨0, 0⟩, fun hc => absurd hc hi⟩
      choose f hf using this
      exact ⟨f, hf⟩
    have hedge : ∀ i < p.vertices.length, 0 < cross (f i) (f ((i + 1) % p.vertices.length)) pt := by
      intro i hi
      have hj := Nat.mod_lt (i + 1) hlen
      obtain ⟨a, va, ha, hva, hfa⟩ := hf i hi
      obtain ⟨b, vb, hb, hvb, hfb⟩ := hf _ hj
      obtain ⟨va', vb', h1, h2, h3⟩ := h a b ⟨i, hi, ha, hb⟩
      rw [hva] at h1; rw [hvb] at h2
      cases h1; cases h2
      rw [hfa, hfb]; linarith
    obtain ⟨⟨i1, l1, e1⟩, ⟨i2, l2, e2⟩, ⟨i3, l3, e3⟩, ⟨i4, l4, e4⟩⟩ :=
      left_of_all_box f (p.vertices.length - 1) pt (by
        intro i hi
        have := hedge i (by omega)
        rwa [Nat.mod_eq_of_lt (by omega)] at this) (by
        have := hedge (p.vertices.length - 1) (by omega)
        rwa [show p.vertices.length - 1 + 1 = p.vertices.length by omega, Nat.mod_self] at this)
    have box : ∀ i ≤ p.vertices.length - 1, (l.polygonAabb p).1.x ≤ (f i).x ∧ (f i).x ≤ (l.polygonAabb p).2.x ∧
        (l.polygonAabb p).1.y ≤ (f i).y ∧ (f i).y ≤ (l.polygonAabb p).2.y := by
      intro i hi
      obtain ⟨a, va, ha, hva, hfa⟩ := hf i (by omega)
      rw [hfa]
      exact aabb_vertices l p a (List.mem_of_getElem? ha) va hva
    exact ⟨(box i1 l1).1.trans e1, e2.trans (box i2 l2).2.1, (box i3 l3).2.2.1.trans e3,
      e4.trans (box i4 l4).2.2.2⟩
  · -- on an edge
    obtain ⟨i, hi, ha, hb⟩ := he
    obtain ⟨a1, a2, a3, a4⟩ := aabb_vertices l p a (List.mem_of_getElem? ha) va h1
    obtain ⟨b1, b2, b3, b4⟩ := aabb_vertices l p b (List.mem_of_getElem? hb) vb h2
    exact ⟨(le_min a1 b1).trans hx1, hx2.trans (max_le a2 b2), (le_min a3 b3).trans hy1,
      hy2.trans (max_le a4 b4)⟩

/-- The lookup in a layer succeeds iff some polygon accepts the point. -/
theorem locate_iff {bvh : Bvh ℝ} (hb : bvh.Complete) {l : Layer ℝ} (hl : l.Findable) (hf : l.FinderOk)
    (pt : Vec2 ℝ) : ∃ r, l.locate bvh pt = .ok r ∧ (r ≠ u32Max ↔ LayerHit l pt) := by
  refine locate_iff_of_box hb hl hf pt ?_
  intro p _ hin
  obtain ⟨hcon, hne⟩ := pointInPolygon_contains hin
  obtain ⟨b1, b2, b3, b4⟩ := contains_in_box hne hcon
  exact ⟨(real_le _ _).2 b1, (real_le _ _).2 b2, (real_le _ _).2 b3, (real_le _ _).2 b4⟩

/-- C14: for every layer with non-empty polygons and every point, the lookup with the baked polygon finder
and the linear scan both answer; one succeeds iff the other does; and the polygon either returns
contains the point. -/
theorem C14_finder_agrees (bvh : Bvh ℝ) (hb : bvh.Complete) (l : Layer ℝ) (hl : l.Findable) (pt : Vec2 ℝ) :
    ∃ r r', l.bakePolygonFinder.locate bvh pt = .ok r ∧ l.unbake.locate bvh pt = .ok r' ∧
      (r = u32Max ↔ r' = u32Max) ∧
      (r ≠ u32Max → ∃ p, l.polygons[r.toNat]? = some p ∧ PolygonContains l p pt) ∧
      (r' ≠ u32Max → ∃ p, l.polygons[r'.toNat]? = some p ∧ PolygonContains l p pt) := by
  have hl1 : l.bakePolygonFinder.Findable :=
    ⟨hl.sized, hl.nonempty, by simp [Layer.bakePolygonFinder]⟩
  have hl2 : l.unbake.Findable := ⟨hl.sized, hl.nonempty, by simp [Layer.unbake]⟩
  obtain ⟨r, h1, h2⟩ := locate_iff hb hl1 (by
    intro boxes h
    simp only [Layer.bakePolygonFinder, Option.some.injEq] at h
    simp only [Layer.bakePolygonFinder, Option.getD_some, ← h]
    rfl) pt
  obtain ⟨r', h3, h4⟩ := locate_iff hb hl2 (by simp [Layer.FinderOk, Layer.unbake]) pt
  have e1 : ∀ es, l.bakePolygonFinder.pointInEdges pt es = l.pointInEdges pt es := by
    intro es
    induction es with
    | nil => rfl
    | cons e es ih => unfold Layer.pointInEdges; rw [ih]; rfl
  have e2 : ∀ es, l.unbake.pointInEdges pt es = l.pointInEdges pt es := by
    intro es
    induction es with
    | nil => rfl
    | cons e es ih => unfold Layer.pointInEdges; rw [ih]; rfl
  have f1 : ∀ p, l.bakePolygonFinder.pointInPolygon pt p = l.pointInPolygon pt p := by
    intro p; unfold Layer.pointInPolygon; simp only [e1]
  have f2 : ∀ p, l.unbake.pointInPolygon pt p = l.pointInPolygon pt p := by
    intro p; unfold Layer.pointInPolygon; simp only [e2]
  have g1 : LayerHit l.bakePolygonFinder pt ↔ LayerHit l pt := by
    unfold LayerHit; simp only [f1]; rfl
  have g2 : LayerHit l.unbake pt ↔ LayerHit l pt := by
    unfold LayerHit; simp only [f2]; rfl
  rw [g1] at h2
  rw [g2] at h4
  refine ⟨r, r', h1, h3, ?_, ?_, ?_⟩
  · rw [← not_iff_not]; exact h2.trans h4.symm
  · intro hne
    obtain ⟨i, p, hi, rfl, hin⟩ := locate_found h1 hne
    rw [f1] at hin
    have hi' : l.polygons[i]? = some p := hi
    have := (List.getElem?_eq_some_iff.1 hi').1
    have hs := hl.sized
    exact ⟨p, by rw [UInt32.toNat_ofNat_of_lt' (show i < 4294967296 by omega)]; exact hi',
      (pointInPolygon_contains hin).1⟩
  · intro hne
    obtain ⟨i, p, hi, rfl, hin⟩ := locate_found h3 hne
    rw [f2] at hin
    have hi' : l.polygons[i]? = some p := hi
    have := (List.getElem?_eq_some_iff.1 hi').1
    have hs := hl.sized
    exact ⟨p, by rw [UInt32.toNat_ofNat_of_lt' (show i < 4294967296 by omega)]; exact hi',
      (pointInPolygon_contains hin).1⟩

/-! ### The same for meshes -/

theorem layer_location_iff {bvh : Bvh ℝ} (hb : bvh.Complete) {l : Layer ℝ} (hl : l.Findable)
    (hf : l.FinderOk) (pt : Vec2 ℝ) (delta : ℝ) :
    ∃ r, l.getPointLocation bvh pt delta = .ok r ∧
      (r.isSome = true ↔ ∃ d ∈ probeOffsets delta, LayerHit l (pt + d)) ∧
      ∀ p, r = some p → p.toNat < l.polygons.length := by
  obtain ⟨r, hr, -⟩ := findFirst_ok (f := fun d => do
      let p ← l.locate bvh (pt + d)
      .ok (if p ≠ u32Max then some p else none)) (l := probeOffsets delta) (fun _ => True) (by
        intro d _
        obtain ⟨p, hp, -⟩ := locate_iff hb hl hf (pt + d)
        rw [hp, res_bind_ok]
        exact ⟨_, rfl, fun _ _ => trivial⟩)
  refine ⟨r, hr, ?_, fun p hp => getPointLocation_ne_max hl.sized (by rw [← hp]; exact hr)⟩
  cases r with
  | some p =>
    obtain ⟨l1, d, l2, h1, h2, hne, -⟩ := layer_getPointLocation_some hr
    obtain ⟨p', hp', hi⟩ := locate_iff hb hl hf (pt + d)
    rw [h2] at hp'
    cases hp'
    exact ⟨fun _ => ⟨d, by rw [h1]; simp, hi.1 hne⟩, fun _ => rfl⟩
  | none =>
    rw [findFirst_none] at hr
    refine ⟨fun h => by simp at h, ?_⟩
    rintro ⟨d, hd, hh⟩
    obtain ⟨p, hp, hi⟩ := locate_iff hb hl hf (pt + d)
    have := hr d hd
    rw [hp, res_bind_ok, if_pos (hi.2 hh)] at this
    simp at this

/-- A mesh all of whose layers can be searched, each with no finder or the finder `bake` builds. -/
def Mesh.FinderOk (m : Mesh ℝ) : Prop := ∀ l ∈ m.layers, l.Findable ∧ l.FinderOk

/-- When `point_in_mesh` holds: the point or one of its eight neighbours at distance `search_delta` is
accepted by a polygon of an allowed layer. -/
theorem pointInMesh_iff {bvh : Bvh ℝ} (hb : bvh.Complete) {m : Mesh ℝ} (hm : m.FinderOk)
    (c : Coords ℝ) :
    ∃ b, m.pointInMesh bvh c = .ok b ∧ (b = true ↔ ∃ (j : Nat) (l : Layer ℝ), m.layers[j]? = some l ∧
      Allowed c j ∧ ∃ d ∈ probeOffsets m.searchDelta, LayerHit l (c.pos - l.offset + d)) := by
  have hpack : ∀ (l : Layer ℝ), l ∈ m.layers → ∀ (i : UInt8) (p : UInt32), p.toNat < l.polygons.length →
      packId i p ≠ u32Max := by
    intro l hl i p hp
    have := (hm l hl).1.sized
    exact packId_ne_max i p (by omega)
  have hans : ∀ (l : Layer ℝ), l ∈ m.layers → ∀ i : UInt8, ∃ r, m.locationInLayer bvh c.pos i l = .ok r ∧
      (r.isSome = true ↔ ∃ d ∈ probeOffsets m.searchDelta, LayerHit l (c.pos - l.offset + d)) ∧
      ∀ id, r = some id → id ≠ u32Max := by
    intro l hl i
    obtain ⟨r, h1, h2, h3⟩ := layer_location_iff hb (hm l hl).1 (hm l hl).2 (c.pos - l.offset) m.searchDelta
    refine ⟨r.map (packId i), ?_, ?_, ?_⟩
    · unfold Mesh.locationInLayer; rw [h1]; rfl
    · rw [Option.isSome_map]; exact h2
    · intro id hid
      rw [Option.map_eq_some_iff] at hid
      obtain ⟨p, hp, rfl⟩ := hid
      exact hpack l hl i p (h3 p hp)
  unfold Mesh.pointInMesh Mesh.getPointLocation
  cases hc : c.layer with
  | some i =>
    simp only
    cases hl : m.layers[i.toNat]? with
    | none =>
      refine ⟨false, by simp, ?_⟩
      simp only [Bool.false_eq_true, false_iff, not_exists, not_and]
      intro j l hj ha
      have := ha i hc
      subst this
      rw [hl] at hj; simp at hj
    | some l =>
      obtain ⟨r, h1, h2, h3⟩ := hans l (List.mem_of_getElem? hl) i
      simp only [h1, res_bind_ok]
      refine ⟨_, rfl, ?_⟩
      have key : (r.getD u32Max != u32Max) = true ↔ r.isSome = true := by
        cases r with
        | none => simp
        | some id => simpa using h3 id rfl
      rw [key, h2]
      constructor
      · intro h
        exact ⟨i.toNat, l, hl, fun i' hi' => by rw [hc] at hi'; cases hi'; rfl, h⟩
      · rintro ⟨j, l', hj, ha, h⟩
        have := ha i hc
        subst this
        rw [hl] at hj
        cases hj
        exact h
  | none =>
    simp only
    obtain ⟨r, hr, hr'⟩ := findFirst_ok (f := fun (il : UInt8 × Layer ℝ) => do
        let r ← m.locationInLayer bvh c.pos il.1 il.2
        .ok (r.filter (· != u32Max))) (l := m.numbered) (fun id => id ≠ u32Max) (by
          rintro ⟨i, l⟩ hil
          obtain ⟨j, hj, -⟩ := mem_numbered hil
          obtain ⟨r, h1, -, h3⟩ := hans l (List.mem_of_getElem? hj) i
          refine ⟨r.filter (· != u32Max), by rw [h1]; rfl, ?_⟩
          intro id hid
          rw [Option.filter_eq_some_iff] at hid
          exact h3 id hid.1)
    rw [hr]
    refine ⟨_, rfl, ?_⟩
    have key : (r.getD u32Max != u32Max) = true ↔ r.isSome = true := by
      cases r with
      | none => simp
      | some id => simpa using hr' id rfl
    rw [key]
    constructor
    · intro hsome
      obtain ⟨id, rfl⟩ := Option.isSome_iff_exists.1 hsome
      obtain ⟨l1, ⟨i, l⟩, l2, h1, h2, -⟩ := findFirst_some hr
      obtain ⟨j, hj, -⟩ := mem_numbered (m := m) (i := i) (l := l) (by rw [h1]; simp)
      obtain ⟨r', h4, h5, -⟩ := hans l (List.mem_of_getElem? hj) i
      refine ⟨j, l, hj, fun i' hi' => by rw [hc] at hi'; simp at hi', h5.1 ?_⟩
      simp only [h4, res_bind_ok, Except.ok.injEq, Option.filter_eq_some_iff] at h2
      rw [h2.1]; rfl
    · rintro ⟨j, l, hj, -, h⟩
      cases r with
      | some _ => rfl
      | none =>
        exfalso
        rw [findFirst_none] at hr
        have hmem : (UInt8.ofNat j, l) ∈ m.numbered := by
          unfold Mesh.numbered
          rw [List.mem_map]
          exact ⟨(l, j), List.mem_zipIdx_iff_getElem?.2 hj, rfl⟩
        obtain ⟨r', h4, h5, h6⟩ := hans l (List.mem_of_getElem? hj) (UInt8.ofNat j)
        have h7 := hr _ hmem
        simp only [h4, res_bind_ok, Except.ok.injEq, Option.filter_eq_none_iff] at h7
        have h8 := h5.2 h
        obtain ⟨id, hid⟩ := Option.isSome_iff_exists.1 h8
        exact h7 id hid (by simpa using h6 id hid)

theorem layerHit_bake {l l' : Layer ℝ} (h : l.bake = .ok l') (pt : Vec2 ℝ) :
    LayerHit l' pt ↔ LayerHit l pt := by
  unfold Layer.bake Layer.bakeIslands at h
  simp only [bind_eq_ok, Except.ok.injEq] at h
  obtain ⟨isl, -, rfl⟩ := h
  have e1 : ∀ es, Layer.pointInEdges (K := ℝ)
      { l.bakePolygonFinder with islands := some (isl.map (·.getD 0)) } pt es = l.pointInEdges pt es := by
    intro es
    induction es with
    | nil => rfl
    | cons e es ih => unfold Layer.pointInEdges; rw [ih]; rfl
  unfold LayerHit Layer.pointInPolygon
  simp only [e1]
  rfl

theorem layerHit_unbake (l : Layer ℝ) (pt : Vec2 ℝ) : LayerHit l.unbake pt ↔ LayerHit l pt := by
  have e2 : ∀ es, l.unbake.pointInEdges pt es = l.pointInEdges pt es := by
    intro es
    induction es with
    | nil => rfl
    | cons e es ih => unfold Layer.pointInEdges; rw [ih]; rfl
  unfold LayerHit Layer.pointInPolygon
  simp only [e2]
  rfl

/-- C14 for a whole mesh: `point_in_mesh` answers the same before and after baking, whatever was baked
before, for every position and layer. -/
theorem C14_point_in_mesh (bvh : Bvh ℝ) (hb : bvh.Complete) (m m' : Mesh ℝ)
    (hm : ∀ l ∈ m.layers, l.Findable) (hbake : m.bake = .ok m')
    (c : Coords ℝ) :
    ∃ b, m'.pointInMesh bvh c = .ok b ∧ m.unbake.pointInMesh bvh c = .ok b := by
  unfold Mesh.bake at hbake
  simp only [bind_eq_ok, Except.ok.injEq] at hbake
  obtain ⟨ls, hls, rfl⟩ := hbake
  rw [mapM_ok_iff] at hls
  have hget : ∀ j : Nat, (∀ l', ls[j]? = some l' → ∃ l, m.layers[j]? = some l ∧ l.bake = .ok l') ∧
      (∀ l, m.layers[j]? = some l → ∃ l', ls[j]? = some l' ∧ l.bake = .ok l') := by
    intro j
    have hl := hls.length_eq
    constructor
    · intro l' h
      obtain ⟨hlt, rfl⟩ := List.getElem?_eq_some_iff.1 h
      exact ⟨m.layers[j], List.getElem?_eq_getElem (by omega), hls.get (by omega) hlt⟩
    · intro l h
      obtain ⟨hlt, rfl⟩ := List.getElem?_eq_some_iff.1 h
      exact ⟨ls[j], List.getElem?_eq_getElem (by omega), hls.get hlt (by omega)⟩
  have hoff : ∀ l l' : Layer ℝ, l.bake = .ok l' → l'.offset = l.offset := by
    intro l l' h
    unfold Layer.bake Layer.bakeIslands at h
    simp only [bind_eq_ok, Except.ok.injEq] at h
    obtain ⟨isl, -, rfl⟩ := h
    rfl
  obtain ⟨b, h1, h2⟩ := pointInMesh_iff (m := { m with layers := ls }) hb (by
    intro l' hl'
    obtain ⟨j, hj⟩ := List.mem_iff_getElem?.1 hl'
    obtain ⟨l, hl, hbk⟩ := (hget j).1 l' hj
    have hf := hm l (List.mem_of_getElem? hl)
    unfold Layer.bake Layer.bakeIslands at hbk
    simp only [bind_eq_ok, Except.ok.injEq] at hbk
    obtain ⟨isl, -, rfl⟩ := hbk
    refine ⟨⟨hf.sized, hf.nonempty, ?_⟩, ?_⟩
    · simp [Layer.bakePolygonFinder]
    · intro boxes hbx
      simp only [Layer.bakePolygonFinder, Option.some.injEq] at hbx
      simp only [Layer.bakePolygonFinder, Option.getD_some, ← hbx]
      rfl) c
  obtain ⟨b', h3, h4⟩ := pointInMesh_iff (m := m.unbake) hb (by
    intro l' hl'
    simp only [Mesh.unbake, List.mem_map] at hl'
    obtain ⟨l, hl, rfl⟩ := hl'
    have hf := hm l hl
    exact ⟨⟨hf.sized, hf.nonempty, by simp [Layer.unbake]⟩, by simp [Layer.FinderOk, Layer.unbake]⟩) c
  refine ⟨b, h1, ?_⟩
  have : b = b' := by
    rw [Bool.eq_iff_iff, h2, h4]
    constructor
    · rintro ⟨j, l', hj, ha, d, hd, hh⟩
      obtain ⟨l, hl, hbk⟩ := (hget j).1 l' hj
      refine ⟨j, l.unbake, by simp [Mesh.unbake, hl], ha, d, hd, ?_⟩
      rw [layerHit_unbake]
      rw [layerHit_bake hbk, hoff l l' hbk] at hh
      exact hh
    · rintro ⟨j, l', hj, ha, d, hd, hh⟩
      simp only [Mesh.unbake, List.getElem?_map, Option.map_eq_some_iff] at hj
      obtain ⟨l, hl, rfl⟩ := hj
      obtain ⟨l', hl', hbk⟩ := (hget j).2 l hl
      refine ⟨j, l', hl', ha, d, hd, ?_⟩
      rw [layerHit_unbake] at hh
      rw [layerHit_bake hbk, hoff l l' hbk]
      exact hh
  rw [this]; exact h3

/-! ### Non-vacuity -/

/-- A hierarchy that proposes every box meets the contract. -/
def everyBox : Bvh ℝ := fun boxes _ => List.range boxes.length

theorem everyBox_complete : everyBox.Complete where
  inRange boxes pt i hi := by simpa [everyBox] using hi
  complete boxes pt i b hb _ := by
    simpa [everyBox] using (List.getElem?_eq_some_iff.1 hb).1

theorem realTri_findable : realTri.Findable where
  sized := by simp [realTri, Layer.mk']
  nonempty := by
    intro p hp
    simp only [realTri, Layer.mk', List.mem_singleton] at hp
    subst hp
    simp [Polygon.new]
  baked := by simp [realTri, Layer.mk']

/-- The triangle (0,0), (1,0), (0,1): the finder finds (1/4, 1/4). -/
example : ∃ r, realTri.bakePolygonFinder.locate everyBox ⟨1/4, 1/4⟩ = .ok r ∧ r ≠ u32Max := by
  obtain ⟨r, r', h1, h2, h3, -⟩ := C14_finder_agrees everyBox everyBox_complete realTri realTri_findable
    ⟨1/4, 1/4⟩
  refine ⟨r, h1, ?_⟩
  rw [ne_eq, h3]
  have h4 := realTri_locate everyBox
  have hz : (⟨1/4, 1/4⟩ : Vec2 ℝ) - realTri.offset = ⟨1/4, 1/4⟩ := by
    apply Vec2.ext' <;> simp [realTri, Layer.mk', Vec2.zero]
  rw [hz] at h4
  have h5 : realTri.unbake = realTri := rfl
  rw [h5, h4] at h2
  cases h2
  decide

end Polyanya
