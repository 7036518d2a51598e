import Verif.Proofs.CastMesh
import Verif.Proofs.MergeWalk
import Verif.Props.MergeLoop
/-
Merging polygons over the rationals and over the reals is the same.
-/

namespace Polyanya

theorem Ext.real_injective : Function.Injective Ext.real := by
  intro a b h
  cases a <;> cases b <;> simp [Ext.real] at h <;> simp [h]

theorem extReal_injective : Function.Injective Vec2.extReal := by
  intro a b h
  cases a; cases b
  simp only [Vec2.extReal, Vec2.mk.injEq] at h
  rw [Ext.real_injective h.1, Ext.real_injective h.2]

theorem Ext.real_isNan (a : Ext ℚ) : Scalar.isNan a.real = Scalar.isNan a := by cases a <;> rfl

theorem Ext.real_le (a b : Ext ℚ) : (a.real <=. b.real) = (a <=. b) := by
  cases a with
  | fin a =>
    cases b with
    | fin b =>
      change ((a : ℝ) <=. (b : ℝ)) = (a <=. b)
      rw [Bool.eq_iff_iff, ExactField.le, ExactField.le]
      exact Rat.cast_le
    | inf b => cases b <;> rfl
    | nan => rfl
  | inf a => cases b <;> rfl
  | nan => cases b <;> rfl

open Classical in
/-- The functions of `geo` on rational points, for real points. -/
noncomputable def Geo.lift (g : Geo (Ext ℚ)) : Geo (Ext ℝ) where
  area cs := if h : ∃ qs : List (Vec2 (Ext ℚ)), cs = qs.map Vec2.extReal then (g.area h.choose).real else .fin 0
  ccwConvex cs := decide (∃ qs : List (Vec2 (Ext ℚ)), cs = qs.map Vec2.extReal ∧ g.ccwConvex qs = true)

theorem Geo.lift_area (g : Geo (Ext ℚ)) (qs : List (Vec2 (Ext ℚ))) :
    g.lift.area (qs.map Vec2.extReal) = (g.area qs).real := by
  have h : ∃ qs' : List (Vec2 (Ext ℚ)), qs.map Vec2.extReal = qs'.map Vec2.extReal := ⟨qs, rfl⟩
  have h2 := h.choose_spec
  unfold Geo.lift
  simp only [dif_pos h]
  rw [← (List.map_injective_iff.2 extReal_injective) h2]

open Classical in
theorem Geo.lift_accepts (g : Geo (Ext ℚ)) (cs : List (Vec2 (Ext ℝ))) : g.lift.ccwConvex cs = true ↔
    ∃ qs : List (Vec2 (Ext ℚ)), cs = qs.map Vec2.extReal ∧ g.ccwConvex qs = true := by
  unfold Geo.lift
  exact decide_eq_true_iff

theorem Geo.lift_convex (g : Geo (Ext ℚ)) (qs : List (Vec2 (Ext ℚ))) :
    g.lift.ccwConvex (qs.map Vec2.extReal) = g.ccwConvex qs := by
  rw [Bool.eq_iff_iff, Geo.lift_accepts]
  constructor
  · rintro ⟨qs', h, h'⟩
    rw [(List.map_injective_iff.2 extReal_injective) h]; exact h'
  · intro h
    exact ⟨qs, rfl, h⟩

variable {l : Layer (Ext ℚ)}

theorem idx_map {α β : Type} (f : α → β) (xs : List α) (i : Nat) : idx (xs.map f) i = (idx xs i).map f := by
  unfold idx
  rw [List.getElem?_map]
  cases xs[i]? <;> rfl

theorem mapM_res {α β γ : Type} {f : α → Res β} {f' : α → Res γ} {φ : β → γ} (h : ∀ a, f' a = (f a).map φ) (xs : List α) :
    xs.mapM f' = (xs.mapM f).map (List.map φ) := by
  induction xs with
  | nil => rfl
  | cons a xs ih =>
    rw [List.mapM_cons, List.mapM_cons, ih, h]
    cases f a with
    | error e => rfl
    | ok b => cases xs.mapM f <;> rfl

theorem coordsOf_real (vs : List UInt32) : l.real.coordsOf vs = (l.coordsOf vs).map (List.map Vec2.extReal) := by
  unfold Layer.coordsOf
  apply mapM_res
  intro v
  change ((idx (l.vertices.map Vertex.real) v.toNat) >>= _) = _
  rw [idx_map]
  cases idx l.vertices v.toNat <;> rfl

theorem mergeOrder_real (g : Geo (Ext ℚ)) : l.real.mergeOrder g.lift = l.mergeOrder g := by
  unfold Layer.mergeOrder
  rw [mapM_res (φ := fun a : Nat × Ext ℚ => (a.1, a.2.real)) (f := fun p : Polygon × Nat => do
    let cs ← l.coordsOf p.1.vertices
    .ok (p.2, g.area cs)) (f' := fun p : Polygon × Nat => do
    let cs ← l.real.coordsOf p.1.vertices
    .ok (p.2, g.lift.area cs)) (by
      intro p
      rw [coordsOf_real]
      cases l.coordsOf p.1.vertices with
      | error e => rfl
      | ok cs =>
        change Except.ok (p.2, g.lift.area (cs.map Vec2.extReal)) = Except.ok (p.2, (g.area cs).real)
        rw [Geo.lift_area])]
  change (Except.map _ (l.polygons.zipIdx.mapM _) >>= _) = _
  cases (l.polygons.zipIdx.mapM fun p : Polygon × Nat => do
    let cs ← l.coordsOf p.1.vertices
    (.ok (p.2, g.area cs) : Res _)) with
  | error e => rfl
  | ok as =>
    change (if _ then _ else _) = (if _ then _ else _)
    simp only [List.length_map, List.any_map, Function.comp_def, Ext.real_isNan]
    split
    · rfl
    · congr 1
      rw [← List.map_insertionSort (r := fun a b : Nat × Ext ℚ => (b.2 <=. a.2) = true), List.map_map]
      · rfl
      · intro a _ b _
        rw [Ext.real_le]

theorem mergeEdge_real (g : Geo (Ext ℚ)) (st : MergeState) (i : Nat) (poly : List UInt32) (e : UInt32 × UInt32) :
    l.real.mergeEdge g.lift st i poly e = l.mergeEdge g st i poly e := by
  unfold Layer.mergeEdge
  have hv : ∀ v : UInt32, l.real.vertices[v.toNat]? = (l.vertices[v.toNat]?).map Vertex.real := by
    intro v
    change (l.vertices.map Vertex.real)[v.toNat]? = _
    rw [List.getElem?_map]
  rw [hv, hv]
  cases l.vertices[e.1.toNat]? with
  | none => rfl
  | some a =>
    cases l.vertices[e.2.toNat]? with
    | none => rfl
    | some b =>
      simp only [Option.map_some]
      change (if (((a.polygons.find? _).getD u32Max) = u32Max) then _ else _) = _
      refine ite_congr rfl (fun _ => rfl) fun _ => ?_
      refine bind_congr fun r => ?_
      refine ite_congr rfl (fun _ => rfl) fun _ => ?_
      refine bind_congr fun o => ?_
      refine ite_congr rfl (fun _ => rfl) fun _ => ?_
      rw [coordsOf_real]
      cases l.coordsOf (joinVertices poly o.vertices e) with
      | error e => rfl
      | ok cs =>
        change (if g.lift.ccwConvex (cs.map Vec2.extReal) = true then _ else _) = (if g.ccwConvex cs = true then _ else _)
        rw [Geo.lift_convex]
        rfl

theorem mergeOne_real (g : Geo (Ext ℚ)) : l.real.mergeOne g.lift = l.mergeOne g := by
  funext st i
  unfold Layer.mergeOne
  have : (fun p e => l.real.mergeEdge g.lift st i p e) = (fun p e => l.mergeEdge g st i p e) := by
    funext p e; exact mergeEdge_real g st i p e
  refine bind_congr fun r => ?_
  refine ite_congr rfl (fun _ => rfl) fun _ => ?_
  refine bind_congr fun o => ?_
  refine bind_congr fun es => ?_
  rw [show l.real.mergeEdge g.lift st i o.vertices = l.mergeEdge g st i o.vertices from funext (mergeEdge_real g st i _)]

theorem mergeVertex_real (new : List (Option Nat)) (v : Vertex (Ext ℚ)) :
    mergeVertex new v.real = (mergeVertex new v).map Vertex.real := by
  unfold mergeVertex
  change ((v.polygons.mapM (renumber new)) >>= _) = _
  cases v.polygons.mapM (renumber new) <;> rfl

theorem mapM_map_real {f : Vertex (Ext ℝ) → Res (Vertex (Ext ℝ))} {f' : Vertex (Ext ℚ) → Res (Vertex (Ext ℚ))}
    (h : ∀ v, f v.real = (f' v).map Vertex.real) (vs : List (Vertex (Ext ℚ))) :
    (vs.map Vertex.real).mapM f = (vs.mapM f').map (List.map Vertex.real) := by
  induction vs with
  | nil => rfl
  | cons a xs ih =>
    rw [List.map_cons, List.mapM_cons, List.mapM_cons, ih, h]
    cases f' a with
    | error e => rfl
    | ok b => cases xs.mapM f' <;> rfl

theorem mergePolygons_real (g : Geo (Ext ℚ)) (l : Layer (Ext ℚ)) :
    l.real.mergePolygons g.lift = (l.mergePolygons g).map fun r => (r.1.real, r.2) := by
  unfold Layer.mergePolygons
  rw [show l.real.unbake = l.unbake.real from rfl]
  simp only
  rw [mergeOrder_real, mergeOne_real]
  cases l.unbake.mergeOrder g with
  | error e => rfl
  | ok order =>
    change (List.foldlM (l.unbake.mergeOne g) { polygons := l.polygons, parent := ufNew l.polygons.length } order >>= _) =
      Except.map _ (List.foldlM (l.unbake.mergeOne g) { polygons := l.polygons, parent := ufNew l.polygons.length } order >>= _)
    cases List.foldlM (l.unbake.mergeOne g) { polygons := l.polygons, parent := ufNew l.polygons.length } order with
    | error e => rfl
    | ok st =>
      change (List.foldlM (compactStep st.parent) _ _ >>= _) = Except.map _ (List.foldlM (compactStep st.parent) _ _ >>= _)
      rw [show l.unbake.real.polygons = l.unbake.polygons from rfl]
      cases List.foldlM (compactStep st.parent) { new := List.replicate l.unbake.polygons.length none, kept := 0, polygons := st.polygons } (List.range st.parent.length) with
      | error e => rfl
      | ok cst =>
        change (if cst.polygons.length < cst.kept then _ else _) = Except.map _ (if cst.polygons.length < cst.kept then _ else _)
        split
        · rfl
        · change ((l.vertices.map Vertex.real).mapM _ >>= _) = Except.map _ (l.vertices.mapM _ >>= _)
          rw [mapM_map_real (mergeVertex_real cst.new)]
          cases l.vertices.mapM (mergeVertex cst.new) <;> rfl

theorem mergeLayers_real (g : Geo (Ext ℚ)) : ∀ ls : List (Layer (Ext ℚ)),
    mergeLayers g.lift (ls.map Layer.real) = (mergeLayers g ls).map fun r => (r.1.map Layer.real, r.2)
  | [] => rfl
  | l :: ls => by
    rw [List.map_cons, mergeLayers, mergeLayers, mergePolygons_real]
    cases l.mergePolygons g with
    | error e => rfl
    | ok r =>
      obtain ⟨l', b⟩ := r
      cases b with
      | true => rfl
      | false =>
        change (mergeLayers g.lift (ls.map Layer.real) >>= _) = Except.map _ (mergeLayers g ls >>= _)
        rw [mergeLayers_real g ls]
        cases mergeLayers g ls <;> rfl

theorem mesh_mergePolygons_real (g : Geo (Ext ℚ)) (m : Mesh (Ext ℚ)) :
    m.real.mergePolygons g.lift = (m.mergePolygons g).map fun r => (r.1.real, r.2) := by
  unfold Mesh.mergePolygons
  change (mergeLayers g.lift (m.layers.map Layer.real) >>= _) = _
  rw [mergeLayers_real]
  cases mergeLayers g m.layers <;> rfl

/-! ### Tilings -/

/-- The number that an extended rational stands for. -/
def Ext.ratio : Ext ℚ → ℚ
  | .fin x => x
  | .inf _ => 0
  | .nan => 0

theorem Ext.value_real (a : Ext ℚ) : a.real.value = (a.ratio : ℝ) := by cases a <;> simp [Ext.real, Ext.value, Ext.ratio]

def Vec2.ratio (v : Vec2 (Ext ℚ)) : Vec2 ℚ := ⟨v.x.ratio, v.y.ratio⟩

/-- The layer without the extended numbers. -/
def Layer.ratio (l : Layer (Ext ℚ)) : Layer Rat :=
  { vertices := l.vertices.map fun v => { coords := v.coords.ratio, polygons := v.polygons, isCorner := v.isCorner }
    polygons := l.polygons, offset := l.offset.ratio, scale := l.scale.ratio, baked := none, islands := none }

theorem place_ratio (l : Layer (Ext ℚ)) : l.real.place Ext.value = l.ratio.place ratVal := by
  funext v
  unfold Layer.place
  have h1 : l.real.vertices[v.toNat]? = (l.vertices[v.toNat]?).map Vertex.real := by
    change (l.vertices.map Vertex.real)[v.toNat]? = _
    rw [List.getElem?_map]
  have h2 : l.ratio.vertices[v.toNat]? = (l.vertices[v.toNat]?).map
      fun v : Vertex (Ext ℚ) => (⟨v.coords.ratio, v.polygons, v.isCorner⟩ : Vertex ℚ) := by
    change (l.vertices.map _)[v.toNat]? = _
    rw [List.getElem?_map]
  rw [h1, h2]
  cases l.vertices[v.toNat]? with
  | none => rfl
  | some vx =>
    change (⟨vx.coords.x.real.value, vx.coords.y.real.value⟩ : Vec2 ℝ) = ⟨(vx.coords.x.ratio : ℝ), (vx.coords.y.ratio : ℝ)⟩
    rw [Ext.value_real, Ext.value_real]

theorem consistent_ratio (h : l.ratio.Consistent) : l.real.Consistent where
  sized := h.sized
  polygonVertex := by
    intro k p hp v hv
    obtain ⟨vx, h1, h2⟩ := h.polygonVertex k p hp v hv
    change (l.vertices.map _)[v.toNat]? = some vx at h1
    rw [List.getElem?_map] at h1
    obtain ⟨w, hw, rfl⟩ := Option.map_eq_some_iff.1 h1
    refine ⟨w.real, ?_, h2⟩
    change (l.vertices.map _)[v.toNat]? = _
    rw [List.getElem?_map, hw]; rfl
  vertexPolygon := by
    intro v vx hv id hid hne
    change (l.vertices.map _)[v.toNat]? = some vx at hv
    rw [List.getElem?_map] at hv
    obtain ⟨w, hw, rfl⟩ := Option.map_eq_some_iff.1 hv
    refine h.vertexPolygon v ⟨w.coords.ratio, w.polygons, w.isCorner⟩ ?_ id hid hne
    change (l.vertices.map _)[v.toNat]? = _
    rw [List.getElem?_map, hw]; rfl

theorem tiling_ratio (h : l.ratio.Tiling ratVal) : l.real.Tiling Ext.value := by
  have ho : l.real.outline Ext.value = l.ratio.outline ratVal := by
    funext p; unfold Layer.outline; rw [place_ratio]
  refine ⟨consistent_ratio h.consistent, h.nodup, h.nonempty, ?_, ?_, ?_, ?_⟩
  · rw [ho]; exact h.convex
  · rw [ho]; exact h.disjoint
  · rw [place_ratio]; exact h.distinct
  · rw [place_ratio]; exact h.clear

/-- A convexity test that keeps the promise of the documentation of `geo::IsConvex`, and an area. -/
def extGeo : Geo (Ext ℚ) where
  area cs := .fin (ratArea (cs.map Vec2.ratio))
  ccwConvex cs := decide cs.Nodup && outlineCheck (cs.map Vec2.ratio)

theorem extGeo_accepts : extGeo.lift.AcceptsConvexOnly Ext.value := by
  intro cs h
  rw [Geo.lift_accepts] at h
  obtain ⟨qs, rfl, h⟩ := h
  simp only [extGeo, Bool.and_eq_true, decide_eq_true_eq] at h
  refine ⟨h.1.map extReal_injective, ?_⟩
  have := outline_of_check h.2
  rw [List.map_map] at this ⊢
  have e : (Vec2.valued Ext.value ∘ Vec2.extReal) = (Vec2.real ∘ Vec2.ratio) := by
    funext v
    change (⟨v.x.real.value, v.y.real.value⟩ : Vec2 ℝ) = ⟨(v.x.ratio : ℝ), (v.y.ratio : ℝ)⟩
    rw [Ext.value_real, Ext.value_real]
  rw [e]; exact this

theorem finitePlaces_of_check (h : (l.vertices.all fun v => (toFin v.coords).isSome) = true) (ho : (toFin l.offset).isSome = true) :
    l.real.FinitePlaces := by
  constructor
  · intro v hv
    change v ∈ l.vertices.map Vertex.real at hv
    obtain ⟨w, hw, rfl⟩ := List.mem_map.1 hv
    obtain ⟨y, hy⟩ := Option.isSome_iff_exists.1 (List.all_eq_true.1 h w hw)
    exact ⟨y.real, extReal_eq_fin.2 ⟨y, toFin_eq.1 hy, rfl⟩⟩
  · obtain ⟨y, hy⟩ := Option.isSome_iff_exists.1 ho
    exact ⟨y.real, extReal_eq_fin.2 ⟨y, toFin_eq.1 hy, rfl⟩⟩

end Polyanya
