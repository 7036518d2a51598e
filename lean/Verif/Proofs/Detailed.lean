import Verif.Proofs.Traced
import Verif.Props.TourOf
import Verif.Props.Shortest
import Verif.Props.LengthExact
import Verif.Props.Sorted
/-
Paths found with the feature `detailed-layers` on a mesh with the default scales.
-/

namespace Polyanya

section
variable {F : Type} [Field F] [LinearOrder F] [Scalar F] [ExactField F] [IsStrictOrderedRing F]

omit [ExactField F] [IsStrictOrderedRing F] in
theorem sight_aim {m : Mesh (Ext F)} {start goal r A B x : Vec2 F} (h : Sight m start r A B x) :
    Aim m start goal r x := by
  obtain ⟨he, rfl | rfl | ⟨w, hw, hn, h1, h2⟩⟩ := h
  · exact aim_at (.inl (.inr (he.isVertex _ (.inl rfl))))
  · exact aim_at (.inl (.inr (he.isVertex _ (.inr rfl))))
  · refine .inr ⟨w, .inl hw, ?_, h1⟩
    rintro rfl
    exact hn (by simp only [tri]; ring)

omit [ExactField F] [IsStrictOrderedRing F] in
theorem sight_listed {m : Mesh (Ext F)} {start goal r A B x : Vec2 F} (h : Sight m start r A B x) :
    Listed m start goal r x := by
  obtain ⟨he, rfl | rfl | ⟨w, hw, hn, h1, h2⟩⟩ := h
  · exact .inl (.inr (he.isVertex _ (.inl rfl)))
  · exact .inl (.inr (he.isVertex _ (.inr rfl)))
  · exact .inr (.inr ⟨A, B, w, he, .inl hw, hn, h1, h2⟩)

/-- The entries of a found path. -/
theorem foundBy_traced {q : Query (Ext F)} {start goal : Vec2 F} (hc : Conforming q.mesh)
    (hm : NoNearMiss q.mesh start goal) (hd : q.dst.2 ≠ u32Max) (hsrc : q.src.1 = start.fin)
    (hdst : q.dst.1 = goal.fin) (hs : InPolygon q.mesh q.src.2 start)
    (he : InPolygon q.mesh q.dst.2 goal) (hcfg : q.cfg.detailed = true) {p : Path (Ext F)} (h : FoundBy q p) :
    ∃ ws full thinned, p.path = ws.map Vec2.fin ∧ p.pathWithLayers = thinned.map finEntry ∧ Thinned full thinned ∧
      Traces start ws full ∧ (start :: full.map (·.1)).IsChain (CoListed q.mesh start goal) ∧
      detailedLength q.mesh (Scalar.lit 0 0) (finEntry (start, layerOf q.src.2)) (thinned.map finEntry) = .ok p.length := by
  obtain ⟨inst, n, hi, hgen, hto, hp⟩ := h
  obtain ⟨h1, -, h3⟩ := foundPath_shape hp
  obtain ⟨hlen, -⟩ := h3 hcfg
  have hstart : inst.start = finEntry (start, layerOf q.src.2) := by
    rw [hi.start, hsrc]; rfl
  rw [hstart] at hlen
  obtain ⟨r, a, b, A, B, s, t, hg, ws, hw, hlast, es₀, fixed, opens, i1, i2, i3, i4, i7, i8, i6⟩ :=
    gen_trace hc hm hd hsrc hs hcfg hgen (goal := goal)
  obtain ⟨cs, hn⟩ := gen_inv hd hgen
  rw [← hto] at he
  have hgoal : inst.goal = goal.fin := hi.goal.trans hdst
  have hpwl : p.pathWithLayers = dropClose (resolveLayers (((pathEnd inst n).head?.map (·.1)).getD inst.goal) start.fin
      n.pathWithLayers ++ pathEnd inst n) := by
    unfold foundPath at hp
    simp only [hcfg, if_true, bind_eq_ok, Except.ok.injEq] at hp
    obtain ⟨len, -, rfl⟩ := hp
    rw [hi.start, hsrc]
  suffices H : ∃ ws full, p.path = ws.map Vec2.fin ∧ p.pathWithLayers = dropClose (full.map finEntry) ∧ Traces start ws full ∧
      (start :: full.map (·.1)).IsChain (CoListed q.mesh start goal) by
    obtain ⟨ws, full, k1, k2, k3, k4⟩ := H
    obtain ⟨thinned, j1, j2⟩ := thinned_dropClose full
    rw [j1] at k2
    exact ⟨ws, full, thinned, k1, k2, j2, k3, k4, by rw [← k2]; exact hlen⟩
  rcases nodeGeo_turn hc hm hg hn.valid he hgoal with ⟨w, hbw, ht⟩ | ⟨ht, y, hy, hry⟩
  · have hend : pathEnd inst n = [(w.fin, layerOf n.polygonTo), (goal.fin, layerOf n.polygonTo)] := by
      unfold pathEnd; rw [ht, hgoal]; rfl
    obtain ⟨es, j1, j2, j3, j4⟩ := i6 w w hbw (Between.right _ _)
    have hsight : Sight q.mesh start r A B w := by
      rw [hg.root, hg.interval] at ht
      rcases turningPoint_mem ht with h | h
      · have := Vec2.fin_injective h
        exact this ▸ hg.sightA
      · have := Vec2.fin_injective h
        exact this ▸ hg.sightB
    refine ⟨ws ++ [w, goal], es₀ ++ (es ++ [(w, layerOf n.polygonTo), (goal, layerOf n.polygonTo)]),
      by rw [h1, hend, hw]; simp, ?_, ?_, ?_⟩
    · rw [hpwl, i1, hend]
      simp only [List.head?_cons, Option.map_some, Option.getD_some]
      rw [i3, j1]
      simp [finEntry]
    · exact i4.append (by rw [hlast]; exact j2.traces (.bend .nil))
    · rw [List.map_append]
      refine chain_glue i7 i8 (chain_listed hg.eye (.inl hg.eye) ?_)
      intro e he
      simp only [List.map_append, List.map_cons, List.map_nil, List.mem_append, List.mem_map, List.mem_cons,
        List.not_mem_nil, or_false] at he
      rcases he with ⟨e, he, rfl⟩ | rfl | rfl
      · exact j4 (sight_aim hsight) e he
      · exact sight_listed hsight
      · exact .inr (.inl rfl)
  · have hend : pathEnd inst n = [(goal.fin, layerOf n.polygonTo)] := by
      unfold pathEnd; rw [ht, hgoal]; rfl
    obtain ⟨es, j1, j2, j3, j4⟩ := i6 y goal hy hry
    refine ⟨ws ++ [goal], es₀ ++ (es ++ [(goal, layerOf n.polygonTo)]),
      by rw [h1, hend, hw]; simp, ?_, ?_, ?_⟩
    · rw [hpwl, i1, hend]
      simp only [List.head?_cons, Option.map_some, Option.getD_some]
      rw [i3, j1]
      simp [finEntry]
    · exact i4.append (by rw [hlast]; exact j2.traces .nil)
    · rw [List.map_append]
      refine chain_glue i7 i8 (chain_listed hg.eye (.inl hg.eye) ?_)
      intro e he
      simp only [List.map_append, List.map_cons, List.map_nil, List.mem_append, List.mem_map, List.mem_singleton] at he
      rcases he with ⟨e, he, rfl⟩ | rfl
      · exact j4 (aim_at (.inr rfl)) e he
      · exact .inr (.inl rfl)

end

/-! ### Lengths -/

/-- Points on the way make a polyline no longer. -/
theorem Traces.polyLen {p : Vec2 ℝ} {ws : List (Vec2 ℝ)} {es : List (Vec2 ℝ × UInt8)} (h : Traces p ws es) :
    polyLen (p :: es.map (·.1)) = polyLen (p :: ws) := by
  induction h with
  | nil => rfl
  | bend _ ih => simp only [List.map_cons, Polyanya.polyLen]; rw [ih]
  | between h1 _ ih =>
    simp only [List.map_cons, Polyanya.polyLen] at ih ⊢
    rw [ih]
    have := dist2_between h1
    linarith

/-- Leaving out points makes a polyline no longer. -/
theorem Thinned.polyLen_le {es es' : List (Vec2 ℝ × UInt8)} (h : Thinned es es') :
    ∀ p, polyLen (p :: es'.map (·.1)) ≤ polyLen (p :: es.map (·.1)) := by
  induction h with
  | nil => intro p; exact le_refl _
  | last => intro p; exact le_refl _
  | @keep e f es es' _ _ ih =>
    intro p
    have := ih e.1
    simp only [List.map_cons, polyLen] at this ⊢
    linarith
  | @drop e f es es' _ _ ih =>
    intro p
    have h1 := ih p
    simp only [List.map_cons, polyLen] at h1 ⊢
    linarith [dist2_triangle p e.1 f.1]

/-- Leaving out repeated points does not change the length. -/
theorem Thinned.polyLen_eq {es es' : List (Vec2 ℝ × UInt8)} (h : Thinned es es')
    (hch : (es.map (·.1)).IsChain (fun z z' => sqDist z z' < 1 / 10000 → z = z')) :
    ∀ p, polyLen (p :: es'.map (·.1)) = polyLen (p :: es.map (·.1)) := by
  induction h with
  | nil => intro p; rfl
  | last => intro p; rfl
  | keep _ _ ih =>
    intro p
    simp only [List.map_cons, List.isChain_cons_cons] at hch
    have := ih (by simpa using hch.2)
    simp only [List.map_cons, polyLen] at this ⊢
    rw [this]
  | @drop e f es es' hlt _ ih =>
    intro p
    simp only [List.map_cons, List.isChain_cons_cons] at hch
    have h1 := ih (by simpa using hch.2) p
    have h2 := hch.1 hlt
    simp only [List.map_cons, polyLen] at h1 ⊢
    rw [h1, h2, dist2_self]
    ring

theorem Thinned.last_eq {es es' : List (Vec2 ℝ × UInt8)} (h : Thinned es es') : es'.getLast? = es.getLast? := by
  induction h with
  | nil => rfl
  | last => rfl
  | keep _ h ih =>
    rw [List.getLast?_cons, ih, List.getLast?_cons_cons]
    rw [List.getLast?_cons]; rfl
  | drop _ _ ih => rw [ih, List.getLast?_cons_cons]

theorem Traces.last_eq {p : Vec2 ℝ} {ws : List (Vec2 ℝ)} {es : List (Vec2 ℝ × UInt8)} (h : Traces p ws es) :
    (es.map (·.1)).getLast? = ws.getLast? := by
  induction h with
  | nil => rfl
  | bend _ ih => rw [List.map_cons, List.getLast?_cons, ih, List.getLast?_cons]
  | between _ _ ih => rw [List.map_cons, List.getLast?_cons, ih, List.getLast?_cons]; rfl

theorem detailedLength_unscaled {m : Mesh (Ext ℝ)} (hu : m.Unscaled) : ∀ (ps : List (Vec2 ℝ × UInt8)) (c : Vec2 ℝ × UInt8)
    (x : ℝ) (len : Ext ℝ), detailedLength m (Ext.fin x) (finEntry c) (ps.map finEntry) = .ok len →
    len = Ext.fin (x + polyLen (c.1 :: ps.map (·.1)))
  | [], c, x, len, h => by
    simp only [List.map_nil, detailedLength, Except.ok.injEq] at h
    rw [← h]; simp [polyLen]
  | e :: ps, c, x, len, h => by
    simp only [List.map_cons, detailedLength, bind_eq_ok] at h
    obtain ⟨l, hl, h⟩ := h
    rw [hu.one l (List.mem_of_getElem? (idx_eq_ok.1 hl)), cmul_one_ext, cmul_one_ext] at h
    have e1 : (Ext.fin x +. (finEntry c).1.distance (finEntry e).1 : Ext ℝ) = Ext.fin (x + dist2 c.1 e.1) := by
      change (Ext.fin x +. c.1.fin.distance e.1.fin : Ext ℝ) = _
      rw [fin_distance]; rfl
    rw [e1] at h
    rw [detailedLength_unscaled hu ps e _ len h]
    simp only [List.map_cons, polyLen]
    rw [add_assoc]

/-- The length of a path found with `detailed-layers` and the default scales. -/
theorem foundBy_detailed {q : Query (Ext ℝ)} {start goal : Vec2 ℝ} (hs : Exactly q start goal)
    (hcfg : q.cfg.detailed = true) {p : Path (Ext ℝ)} (h : FoundBy q p) :
    ∃ ws x, p.path = ws.map Vec2.fin ∧ Walk q.mesh q.src.2 start q.dst.2 goal ws ∧ p.length = Ext.fin x ∧
      dist2 start goal ≤ x ∧ x ≤ polyLen (start :: ws) ∧
      (Spaced q.mesh start goal → x = polyLen (start :: ws)) := by
  obtain ⟨ws, full, thinned, k1, k2, k3, k4, k5, k6⟩ := foundBy_traced hs.conforming hs.exact hs.dst hs.src hs.goalAt
    hs.src_in hs.dst_in hcfg h
  obtain ⟨ws', k1', hw⟩ := foundBy_walk hs.conforming hs.exact hs.dst hs.src hs.goalAt hs.src_in hs.dst_in h
  obtain rfl := map_fin_injective (k1.symm.trans k1')
  have hz : (Scalar.lit 0 0 : Ext ℝ) = Ext.fin 0 := ext_zero
  rw [hz] at k6
  have hlen := detailedLength_unscaled (hs.plain hcfg) _ _ _ _ k6
  rw [zero_add] at hlen
  refine ⟨ws, _, k1, hw, hlen, ?_, ?_, ?_⟩
  · have hg := polyLen_ge start (thinned.map (·.1))
    have hl : (start :: thinned.map (·.1)).getLast (by simp) = goal := by
      have e1 : (thinned.map (·.1)).getLast? = ws.getLast? := by
        rw [List.getLast?_map, k3.last_eq, ← List.getLast?_map, k4.last_eq]
      have e2 : (start :: ws).getLast? = some goal := hw.last
      rw [List.getLast?_cons, ← e1] at e2
      have e3 : (start :: thinned.map (·.1)).getLast? = some goal := by rw [List.getLast?_cons]; exact e2
      rw [List.getLast?_eq_some_getLast (by simp)] at e3
      exact Option.some.inj e3
    rw [hl] at hg
    exact hg
  · rw [← k4.polyLen]
    exact k3.polyLen_le start
  · intro hsp
    rw [← k4.polyLen]
    refine k3.polyLen_eq ?_ start
    refine (k5.tail).imp ?_
    rintro z z' ⟨r, hr, hz, hz'⟩ hlt
    exact hsp r hr z z' hz hz' hlt

end Polyanya
