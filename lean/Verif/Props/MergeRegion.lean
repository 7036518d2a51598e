import Verif.Proofs.MergeRegion
import Verif.Props.Merging
/-
C63: merging polygons does not change the area that can be walked.
-/

namespace Polyanya

variable {K : Type} [Scalar K]

theorem place_congr {l l' : Layer K} (val : K → ℝ) (hlen : l'.vertices.length = l.vertices.length)
    (hv : ∀ (i : Nat) (v v' : Vertex K), l.vertices[i]? = some v → l'.vertices[i]? = some v' → v'.coords = v.coords) :
    l'.place val = l.place val := by
  funext v
  unfold Layer.place
  by_cases hlt : v.toNat < l.vertices.length
  · have h1 := List.getElem?_eq_getElem hlt
    have h2 := List.getElem?_eq_getElem (l := l'.vertices) (i := v.toNat) (by rw [hlen]; exact hlt)
    rw [h1, h2]
    simp only [hv _ _ _ h1 h2]
  · rw [List.getElem?_eq_none (by omega), List.getElem?_eq_none (by omega)]

/-- C63: on a consistent conforming layer of convex polygons, `merge_polygons` gives convex polygons, each of which
covers exactly the points that the polygons merged into it covered. `f` maps the numbers of polygons before to the
numbers after. -/
theorem C63_polygons (val : K → ℝ) (geo : Geo K) (hg : geo.AcceptsConvexOnly val) (l l' : Layer K) (b : Bool)
    (hcon : l.Consistent) (hc : l.Conforming) (hv : ∀ p ∈ l.polygons, ConvexOutline (l.outline val p))
    (h : l.mergePolygons geo = .ok (l', b)) :
    ∃ f : Nat → Nat, (∀ m, m < l.polygons.length → f m < l'.polygons.length) ∧
      ∀ (j : Nat) p', l'.polygons[j]? = some p' → ConvexOutline (l'.outline val p') ∧
        ∀ x, Encloses (l'.outline val p') x ↔
          ∃ m q, f m = j ∧ l.polygons[m]? = some q ∧ Encloses (l.outline val q) x := by
  obtain ⟨_, -, -, hvlen, hvs, -⟩ := C25_references geo l l' b hcon.sized h
  have hpl : l'.place val = l.place val := place_congr val hvlen fun i v v' h1 h2 => (hvs i v v' h1 h2).1
  have hout : ∀ p, l'.outline val p = l.outline val p := fun p => by unfold Layer.outline; rw [hpl]
  obtain ⟨order, st, cst, vs, ho, hst, hb, hinv, -, hl', rfl⟩ := mergePolygons_ok h
  have hk := hinv.keptLe
  have hlen : (cst.polygons.take cst.kept).length = cst.kept := by
    rw [List.length_take, hinv.polyLen, hb.polyLen]; omega
  have hcon' : l.unbake.Consistent := ⟨hcon.sized, hcon.polygonVertex, hcon.vertexPolygon⟩
  have hc' : l.unbake.Conforming := ⟨hc.nodup, hc.three, hc.opposite⟩
  have hm : RInv val l.unbake st := mergeLoop_region hg hcon' hc' hv ho hst
  have hplen : l'.polygons.length = cst.kept := by rw [hl']; exact hlen
  refine ⟨newIndex cst.new, ?_, ?_⟩
  · intro m hmlt
    obtain ⟨j, hj⟩ := hinv.done m hmlt
    rw [newIndex_eq hj, hplen]
    exact (hinv.slot m j hj).1
  · intro j p' hp
    rw [hl'] at hp
    have hp2 : (cst.polygons.take cst.kept)[j]? = some p' := hp
    have hj : j < cst.kept := by
      rw [← hlen]; exact (List.getElem?_eq_some_iff.1 hp2).1
    rw [List.getElem?_take_of_lt hj] at hp2
    obtain ⟨r, hr, hrj⟩ := hinv.surj j hj
    have hrp : st.polygons[r]? = some p' := by
      rw [← hp2]
      exact (hinv.moved r j (by rw [← hb.parLen]; exact hr.lt) hr hrj).symm
    have hrpoly := hm r p' hr hrp
    rw [hout]
    refine ⟨hrpoly.convex, fun x => (hrpoly.region x).trans ?_⟩
    constructor
    · rintro ⟨q, ⟨m, hmr, hq⟩, hx⟩
      refine ⟨m, q, ?_, hq, hx⟩
      obtain ⟨j', hj'⟩ := hinv.done m (List.getElem?_eq_some_iff.1 hq).1
      rw [newIndex_eq hj']
      obtain ⟨_, s, hs, hsj⟩ := hinv.slot m j' hj'
      have := hmr.unique hs
      subst this
      rw [hrj] at hsj
      simpa using hsj.symm
    · rintro ⟨m, q, hmj, hq, hx⟩
      refine ⟨q, ⟨m, ?_, hq⟩, hx⟩
      obtain ⟨j', hj'⟩ := hinv.done m (List.getElem?_eq_some_iff.1 hq).1
      rw [newIndex_eq hj'] at hmj
      subst hmj
      obtain ⟨_, s, hs, hsj⟩ := hinv.slot m j' hj'
      rw [hinv.inj r s j' hr hs.rootSelf hrj hsj]; exact hs

/-- C63: merging does not change the area covered by the layer. -/
theorem C63_region (val : K → ℝ) (geo : Geo K) (hg : geo.AcceptsConvexOnly val) (l l' : Layer K) (b : Bool)
    (hcon : l.Consistent) (hc : l.Conforming) (hv : ∀ p ∈ l.polygons, ConvexOutline (l.outline val p))
    (h : l.mergePolygons geo = .ok (l', b)) :
    (∀ x, l'.Walkable val x ↔ l.Walkable val x) ∧ ∀ p ∈ l'.polygons, ConvexOutline (l'.outline val p) := by
  obtain ⟨f, hf, hp⟩ := C63_polygons val geo hg l l' b hcon hc hv h
  refine ⟨fun x => ⟨?_, ?_⟩, ?_⟩
  · rintro ⟨p', hp', hx⟩
    obtain ⟨j, hj⟩ := List.mem_iff_getElem?.1 hp'
    obtain ⟨m, q, -, hq, hx'⟩ := ((hp j p' hj).2 x).1 hx
    exact ⟨q, List.mem_of_getElem? hq, hx'⟩
  · rintro ⟨q, hq, hx⟩
    obtain ⟨m, hm⟩ := List.mem_iff_getElem?.1 hq
    have hj := List.getElem?_eq_getElem (hf m (lt_of_getElem? hm))
    exact ⟨_, List.mem_of_getElem? hj, ((hp _ _ hj).2 x).2 ⟨m, q, rfl, hm, hx⟩⟩
  · intro p' hp'
    obtain ⟨j, hj⟩ := List.mem_iff_getElem?.1 hp'
    exact (hp j p' hj).1

end Polyanya
