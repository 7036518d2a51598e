import Verif.Proofs.Merge
import Verif.Proofs.Fuel
/-
`merge_polygons` terminates: no union-find lookup runs out of fuel.
-/

namespace Polyanya

variable {K : Type} [Scalar K] {α β σ : Type}

theorem noFuel_foldlM_inv {f : σ → α → Res σ} (P : σ → Prop) (l : List α) (s : σ) (h0 : P s)
    (h : ∀ s, ∀ a ∈ l, P s → NoFuel (f s a)) (hs : ∀ s a s', a ∈ l → P s → f s a = .ok s' → P s') :
    NoFuel (l.foldlM f s) := by
  induction l generalizing s with
  | nil => exact noFuel_ok _
  | cons a l ih =>
    rw [List.foldlM_cons]
    exact noFuel_bind (h s a (List.mem_cons_self ..) h0)
      (fun s' hs' => ih s' (hs s a s' (List.mem_cons_self ..) h0 hs')
        (fun s x hx => h s x (List.mem_cons_of_mem _ hx))
        (fun s x s' hx => hs s x s' (List.mem_cons_of_mem _ hx)))

theorem noFuel_ufFind {par : List Nat} (h : UfOk par) (x : Nat) : NoFuel (ufFind par (ufFuel par) x) := by
  by_cases hx : x < par.length
  · obtain ⟨r, hr⟩ := h x hx
    rw [ufFind_root hr]; exact noFuel_ok _
  · unfold ufFuel
    simp only [ufFind]
    refine noFuel_bind (noFuel_idx _ _) (fun a ha => ?_)
    rw [idx_eq_ok] at ha
    exact absurd (List.getElem?_eq_some_iff.1 ha).1 hx

theorem noFuel_ufUnion {par : List Nat} {x y rx ry : Nat} (hx : Root par x rx) (hy : Root par y ry) :
    NoFuel (ufUnion par x y) := by
  obtain ⟨p, he, -⟩ := ufUnion_root hx hy
  rw [he]; exact noFuel_ok _

theorem noFuel_coordsOf (l : Layer K) (vs : List UInt32) : NoFuel (l.coordsOf vs) :=
  noFuel_mapM _ (fun _ _ => noFuel_bind (noFuel_idx _ _) (fun _ _ => noFuel_ok _))

theorem noFuel_mergeEdge (geo : Geo K) (l : Layer K) {st : MergeState} (h : UfOk st.parent) {i : Nat}
    (hi : Root st.parent i i) (poly : List UInt32) (e : UInt32 × UInt32) :
    NoFuel (l.mergeEdge geo st i poly e) := by
  unfold Layer.mergeEdge
  split
  · simp only
    split
    · exact noFuel_ok _
    · refine noFuel_bind (noFuel_ufFind h _) (fun r hr => ?_)
      split
      · exact noFuel_ok _
      · rename_i hro
        simp only [ne_eq, not_not] at hro
        refine noFuel_bind (noFuel_idx _ _) (fun _ _ => ?_)
        split
        · exact noFuel_panic
        · refine noFuel_bind (noFuel_coordsOf _ _) (fun _ _ => ?_)
          split
          · exact noFuel_bind (noFuel_ufUnion hi (ufFind_ok hr)) (fun _ _ => noFuel_ok _)
          · exact noFuel_ok _
  · exact noFuel_ok _

theorem noFuel_mergeOne (geo : Geo K) (l : Layer K) {st : MergeState} (h : UfOk st.parent) (i : Nat) :
    NoFuel (l.mergeOne geo st i) := by
  unfold Layer.mergeOne
  refine noFuel_bind (noFuel_ufFind h _) (fun r hr => ?_)
  split
  · exact noFuel_ok _
  · rename_i hri
    simp only [ne_eq, not_not] at hri
    subst hri
    refine noFuel_bind (noFuel_idx _ _) (fun p _ => noFuel_bind (noFuel_edgesIndex p) (fun es _ => ?_))
    exact noFuel_bind (noFuel_findFirst _ (fun e _ => noFuel_mergeEdge geo l h (ufFind_ok hr) _ e))
      (fun _ _ => noFuel_ok _)

theorem noFuel_mergeVertex (new : List (Option Nat)) (v : Vertex K) : NoFuel (mergeVertex new v) := by
  refine noFuel_bind (noFuel_mapM _ (fun p _ => ?_)) (fun _ _ => noFuel_ok _)
  unfold renumber
  split
  · exact noFuel_ok _
  · exact noFuel_bind (noFuel_idx _ _) (fun _ _ => noFuel_ok _)

theorem noFuel_mergePolygons (geo : Geo K) (l : Layer K) : NoFuel (l.mergePolygons geo) := by
  unfold Layer.mergePolygons
  simp only
  refine noFuel_bind ?_ (fun order _ => noFuel_bind ?_ (fun st hst => ?_))
  · unfold Layer.mergeOrder
    refine noFuel_bind (noFuel_mapM _ (fun _ _ => noFuel_bind (noFuel_coordsOf _ _) (fun _ _ => noFuel_ok _)))
      (fun _ _ => ?_)
    split
    · exact noFuel_panic
    · exact noFuel_ok _
  · exact noFuel_foldlM_inv (MBase l.polygons.length) _ _ (MBase.init _)
      (fun s a _ hb => noFuel_mergeOne geo _ hb.ok a)
      (fun s a s' _ hb h => (mergeOne_step h).base hb)
  · have hb : MBase l.polygons.length st := mergeLoop_base (l := l.unbake) hst
    obtain ⟨cst, hc, hinv⟩ := compact_ok (par := st.parent) (P := st.polygons)
      (by rw [hb.polyLen, hb.parLen]) hb.ok
    rw [hb.polyLen] at hc
    have : l.unbake.polygons = l.polygons := rfl
    rw [this, hc, res_bind_ok]
    split
    · exact noFuel_panic
    · exact noFuel_bind (noFuel_mapM _ (fun _ _ => noFuel_mergeVertex _ _)) (fun _ _ => noFuel_ok _)

theorem noFuel_mergeLayers (geo : Geo K) : ∀ ls : List (Layer K), NoFuel (mergeLayers geo ls)
  | [] => noFuel_ok _
  | l :: ls => by
    unfold mergeLayers
    refine noFuel_bind (noFuel_mergePolygons geo l) (fun r _ => ?_)
    simp only
    split
    · exact noFuel_ok _
    · exact noFuel_bind (noFuel_mergeLayers geo ls) (fun _ _ => noFuel_ok _)

end Polyanya
