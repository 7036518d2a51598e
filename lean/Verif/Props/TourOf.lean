import Verif.Proofs.TourGen
/-
Property C67: `path_with_layers` (feature `detailed-layers`) says, for every piece of the path, in which layer it is.
-/

namespace Polyanya

variable {F : Type} [Field F] [LinearOrder F] [Scalar F] [ExactField F] [IsStrictOrderedRing F]

/-- Dropping entries that are close to the next. -/
theorem thinned_dropClose (es : List (Vec2 F × UInt8)) :
    ∃ es', dropClose (es.map finEntry) = es'.map finEntry ∧ Thinned es es' := by
  induction es with
  | nil => exact ⟨[], rfl, .nil⟩
  | cons e es ih =>
    cases es with
    | nil => exact ⟨[e], rfl, .last⟩
    | cons f es =>
      obtain ⟨es', h1, h2⟩ := ih
      rw [List.map_cons] at h1
      simp only [List.map_cons, dropClose]
      have hiff : ((finEntry e).1.distanceSquared (finEntry f).1 <. (epsilon : Ext F)) = true ↔ sqDist e.1 f.1 < 1 / 10000 := by
        simp only [finEntry]
        rw [fin_distanceSquared, epsilon, ext_lit, ext_lt]
        norm_num
      by_cases hlt : sqDist e.1 f.1 < 1 / 10000
      · rw [if_pos (hiff.2 hlt)]
        exact ⟨es', h1, .drop hlt h2⟩
      · rw [if_neg (fun h => hlt (hiff.1 h))]
        exact ⟨e :: es', by rw [h1]; rfl, .keep (not_lt.1 hlt) h2⟩

/-- The entries of a found path. -/
theorem foundBy_tour {q : Query (Ext F)} {start goal : Vec2 F} (hc : Conforming q.mesh)
    (hm : NoNearMiss q.mesh start goal) (hd : q.dst.2 ≠ u32Max) (hsrc : q.src.1 = start.fin)
    (hdst : q.dst.1 = goal.fin) (hs : InPolygon q.mesh q.src.2 start)
    (he : InPolygon q.mesh q.dst.2 goal) (hcfg : q.cfg.detailed = true) {p : Path (Ext F)} (h : FoundBy q p) :
    ∃ ws, p.path = ws.map Vec2.fin ∧ ((start :: ws).IsChain (ClearLeg q.mesh) → ∃ full thinned,
      p.pathWithLayers = thinned.map finEntry ∧ Thinned full thinned ∧
      Tour q.mesh (layerOf q.src.2) q.src.2 start ws full (layerOf q.dst.2) q.dst.2 goal ∧ Traces start ws full) := by
  obtain ⟨inst, n, hi, hgen, hto, hp⟩ := h
  obtain ⟨h1, -, -⟩ := foundPath_shape hp
  obtain ⟨r, a, b, A, B, s, t, hg, ws, hw, hlast, hinv⟩ := gen_tour hc hm hd hsrc hs hcfg hgen
  obtain ⟨cs, hn⟩ := gen_inv hd hgen
  rw [← hto] at he
  have hgoal : inst.goal = goal.fin := hi.goal.trans hdst
  have hpwl : p.pathWithLayers = dropClose (resolveLayers (((pathEnd inst n).head?.map (·.1)).getD inst.goal) start.fin
      n.pathWithLayers ++ pathEnd inst n) := by
    unfold foundPath at hp
    simp only [hcfg, if_true, bind_eq_ok, Except.ok.injEq] at hp
    obtain ⟨len, -, rfl⟩ := hp
    rw [hi.start, hsrc]
  rcases nodeGeo_turn hc hm hg hn.valid he hgoal with ⟨w, hbw, ht⟩ | ⟨ht, y, hy, hry⟩
  · have hend : pathEnd inst n = [(w.fin, layerOf n.polygonTo), (goal.fin, layerOf n.polygonTo)] := by
      unfold pathEnd; rw [ht, hgoal]; rfl
    refine ⟨ws ++ [w, goal], by rw [h1, hend, hw]; simp, fun hcl => ?_⟩
    rw [← List.cons_append, List.isChain_append] at hcl
    obtain ⟨es₀, L₀, pr, fixed, opens, i1, i2, i3, i4, i5, i6⟩ := hinv hcl.1
    obtain ⟨es, L₁, j1, j2, j3, j4, j5⟩ := i6 w w hbw (Between.right _ _) (hcl.2.2 _ (by
      rw [← hlast, List.getLast?_cons, List.getLastD_eq_getLast?]; rfl) _ (by simp))
    have hfull : resolveLayers w.fin start.fin n.pathWithLayers ++ pathEnd inst n
        = (es₀ ++ (es ++ [(w, layerOf n.polygonTo), (goal, layerOf n.polygonTo)])).map finEntry := by
      rw [i1, i3, j1, hend]; simp [finEntry]
    obtain ⟨thinned, k1, k2⟩ := thinned_dropClose (es₀ ++ (es ++ [(w, layerOf n.polygonTo), (goal, layerOf n.polygonTo)]))
    refine ⟨_, thinned, ?_, k2, ?_, ?_⟩
    · rw [hpwl, ← k1, ← hfull, hend]; rfl
    · rw [← hto]
      have := (((i5.trans j4).stop (L'' := layerOf n.polygonTo) (layerOf_toNat _)).move (layerOf_toNat _) he).stop
        (L'' := layerOf n.polygonTo) (layerOf_toNat _)
      simpa using this
    · exact i4.append (by rw [hlast]; exact j2.traces (.bend .nil))
  · have hend : pathEnd inst n = [(goal.fin, layerOf n.polygonTo)] := by
      unfold pathEnd; rw [ht, hgoal]; rfl
    refine ⟨ws ++ [goal], by rw [h1, hend, hw]; simp, fun hcl => ?_⟩
    rw [← List.cons_append, List.isChain_append] at hcl
    obtain ⟨es₀, L₀, pr, fixed, opens, i1, i2, i3, i4, i5, i6⟩ := hinv hcl.1
    obtain ⟨es, L₁, j1, j2, j3, j4, j5⟩ := i6 y goal hy hry (hcl.2.2 _ (by
      rw [← hlast, List.getLast?_cons, List.getLastD_eq_getLast?]; rfl) _ (by simp))
    have hfull : resolveLayers goal.fin start.fin n.pathWithLayers ++ pathEnd inst n
        = (es₀ ++ (es ++ [(goal, layerOf n.polygonTo)])).map finEntry := by
      rw [i1, i3, j1, hend]; simp [finEntry]
    obtain ⟨thinned, k1, k2⟩ := thinned_dropClose (es₀ ++ (es ++ [(goal, layerOf n.polygonTo)]))
    refine ⟨_, thinned, ?_, k2, ?_, ?_⟩
    · rw [hpwl, ← k1, ← hfull, hend]; rfl
    · rw [← hto]
      have hmove : Tour q.mesh L₀ pr r [] es L₁ n.polygonTo goal := by
        by_cases e : y = goal
        · exact e ▸ j4
        · exact j4.move (j5 e) he
      have := (i5.trans hmove).stop (L'' := layerOf n.polygonTo) (layerOf_toNat _)
      simpa using this
    · exact i4.append (by rw [hlast]; exact j2.traces .nil)

/-- **C67** (synchronous queries). Hypotheses as for C53; with the feature `detailed-layers`. If no leg of the returned path is along
an edge where two layers meet, `path_with_layers` is, up to entries closer than 1/100 to the next one, the list of the announcements
of a tour of the mesh from the start to the goal that moves only in the layer it announced last (the layer of the start, at first)
and announces a layer at its waypoints, which are those of the path, and where it changes to another layer, on the straight lines
between the waypoints. -/
theorem C67_path_with_layers (bvh : Bvh (Ext F)) (heap : Heap (Ext F)) (m : Mesh (Ext F))
    (hsize : m.Sized) (hc : Conforming m) (src dst : Coords (Ext F)) (start goal : Vec2 F)
    (hsrc : src.pos = start.fin) (hdst : dst.pos = goal.fin)
    (hs : ∀ s, Located m bvh src s → InPolygon m s start)
    (he : ∀ e, Located m bvh dst e → InPolygon m e goal)
    (hm : NoNearMiss m start goal) (blocked : List UInt8) (p : Path (Ext F))
    (h : m.pathOnLayers bvh heap ⟨true⟩ src dst blocked = .ok (some p)) :
    ∃ s e ws, Located m bvh src s ∧ Located m bvh dst e ∧ p.path = ws.map Vec2.fin
      ∧ ((start :: ws).IsChain (ClearLeg m) → ∃ full thinned, p.pathWithLayers = thinned.map finEntry
        ∧ Thinned full thinned ∧ Tour m (layerOf s) s start ws full (layerOf e) e goal ∧ Traces start ws full) := by
  obtain ⟨s, e, h1, h2, h3⟩ := pathOnLayers_some h
  have hls := endpointPolygon_located.1 h1
  have hle := endpointPolygon_located.1 h2
  refine ⟨s, e, ?_⟩
  rcases pathBetween_some h3 with ⟨rfl, rfl⟩ | ⟨-, hf⟩
  · refine ⟨[goal], hls, hle, by simp [hdst], fun _ => ⟨[(goal, layerOf s)], [(goal, layerOf s)], ?_, .last, ?_, .bend .nil⟩⟩
    · simp [hdst, finEntry]
    · exact ((Tour.here (hs _ hls)).move (layerOf_toNat _) (he _ hle)).stop (layerOf_toNat _)
  · obtain ⟨ws, hw1, hw2⟩ := foundBy_tour (q := ⟨⟨true⟩, m, (src.pos, s), (dst.pos, e), blocked⟩) hc hm
      (located_ne_max hsize hle) hsrc hdst (hs _ hls) (he _ hle) rfl hf
    exact ⟨ws, hls, hle, hw1, hw2⟩

/-- **C67** (asynchronous queries). -/
theorem C67_async (bvh : Bvh (Ext F)) (heap : Heap (Ext F)) (m : Mesh (Ext F))
    (hc : Conforming m) (start goal : Vec2 F)
    (hs : ∀ s, m.getPointLocation bvh (Coords.onMesh start.fin) = .ok s → s ≠ u32Max → InPolygon m s start)
    (he : ∀ e, m.getPointLocation bvh (Coords.onMesh goal.fin) = .ok e → e ≠ u32Max → InPolygon m e goal)
    (hm : NoNearMiss m start goal) (p : Path (Ext F))
    (h : Resolves bvh heap ⟨true⟩ m (Mesh.getPath start.fin goal.fin) (some p)) :
    ∃ s e ws, m.getPointLocation bvh (Coords.onMesh start.fin) = .ok s
      ∧ m.getPointLocation bvh (Coords.onMesh goal.fin) = .ok e ∧ p.path = ws.map Vec2.fin
      ∧ ((start :: ws).IsChain (ClearLeg m) → ∃ full thinned, p.pathWithLayers = thinned.map finEntry
        ∧ Thinned full thinned ∧ Tour m (layerOf s) s start ws full (layerOf e) e goal ∧ Traces start ws full) := by
  obtain ⟨s, e, h1, h2, h3, h4, hcase⟩ := resolves_found h
  refine ⟨s, e, ?_⟩
  have is := hs s h1 h3
  have ie := he e h2 h4
  rcases hcase with ⟨rfl, rfl⟩ | ⟨-, hf⟩
  · refine ⟨[goal], h1, h2, by simp [straightPath], fun _ => ⟨[(goal, layerOf s)], [(goal, layerOf s)], ?_, .last, ?_,
      .bend .nil⟩⟩
    · simp [finEntry, straightPath]
    · exact ((Tour.here is).move (layerOf_toNat _) ie).stop (layerOf_toNat _)
  · obtain ⟨ws, hw1, hw2⟩ := foundBy_tour (q := ⟨⟨true⟩, m, (start.fin, s), (goal.fin, e), []⟩) hc hm
      h4 rfl rfl is ie rfl hf
    exact ⟨ws, h1, h2, hw1, hw2⟩

end Polyanya
