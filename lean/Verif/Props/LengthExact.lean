import Verif.Proofs.Final
import Verif.Props.EndsExample
import Verif.Props.ShortestExample
/-
C57: without near misses the reported length is exact, for every mesh of convex polygons, every choice of blocked
layers and every tie-break of the heap.
-/

namespace Polyanya

/-- The length of a found path. -/
theorem foundBy_length {q : Query (Ext ℝ)} {start goal : Vec2 ℝ} (hs : Exactly q start goal) {p : Path (Ext ℝ)}
    (hcfg : q.cfg.detailed = false) (h : FoundBy q p) :
    ∃ ws, p.path = ws.map Vec2.fin ∧ Walk q.mesh q.src.2 start q.dst.2 goal ws
      ∧ p.length = Ext.fin (polyLen (start :: ws)) := by
  obtain ⟨inst, n, hi, hgen, hto, hp⟩ := h
  obtain ⟨r, a, b, A, B, s, t, g, hk⟩ := hs.known hgen
  obtain ⟨ws, h1, h2, h3, -⟩ := hk.final hs hto hi.goal hp
  exact ⟨ws, h1, h2, h3 hcfg⟩

/-- A path whose waypoints are `ws` and whose length is exact is not shorter than the straight line to its
last waypoint. -/
theorem polyLen_straight {m : Mesh (Ext ℝ)} {s e : UInt32} {start goal : Vec2 ℝ} {ws : List (Vec2 ℝ)}
    (hw : Walk m s start e goal ws) : dist2 start goal ≤ polyLen (start :: ws) := by
  obtain ⟨rs, -, hr⟩ := hw.route
  have := routeLen_ge start goal rs
  linarith

/-- **C57** (blocking queries). The mesh is made of strictly convex polygons that share their edges, the start and the
goal are in the polygons where they are located, and no comparison with a tolerance is a near miss. Then the
length that is reported is exactly the length of the polyline that is returned, and at least the distance of
the two points. -/
theorem C57_length (bvh : Bvh (Ext ℝ)) (heap : Heap (Ext ℝ)) (cfg : Cfg) (hcfg : cfg.detailed = false)
    (m : Mesh (Ext ℝ)) (hsize : m.Sized) (hc : Conforming m) (src dst : Coords (Ext ℝ)) (start goal : Vec2 ℝ)
    (hsrc : src.pos = start.fin) (hdst : dst.pos = goal.fin)
    (hs : ∀ s, Located m bvh src s → InPolygon m s start)
    (he : ∀ e, Located m bvh dst e → InPolygon m e goal)
    (hm : NoNearMiss m start goal) (blocked : List UInt8) (p : Path (Ext ℝ))
    (h : m.pathOnLayers bvh heap cfg src dst blocked = .ok (some p)) :
    ∃ ws, p.path = ws.map Vec2.fin ∧ p.length = Ext.fin (polyLen (start :: ws))
      ∧ dist2 start goal ≤ polyLen (start :: ws) := by
  obtain ⟨s, e, h1, h2, h3⟩ := pathOnLayers_some h
  have hls := endpointPolygon_located.1 h1
  have hle := endpointPolygon_located.1 h2
  rcases pathBetween_some h3 with ⟨rfl, rfl⟩ | ⟨-, hf⟩
  · refine ⟨[goal], by simp [hdst], ?_, by simp [polyLen]⟩
    simp only
    rw [hsrc, hdst, fin_distance]
    simp [polyLen]
  · obtain ⟨ws, w1, w2, w3⟩ := foundBy_length (q := ⟨cfg, m, (src.pos, s), (dst.pos, e), blocked⟩)
      ⟨hc, hm, located_ne_max hsize hle, hsrc, hdst, hs _ hls, he _ hle, plain_of hcfg⟩ hcfg hf
    exact ⟨ws, w1, w3, polyLen_straight w2⟩

/-- **C57** (futures). -/
theorem C57_future_length (bvh : Bvh (Ext ℝ)) (heap : Heap (Ext ℝ)) (cfg : Cfg) (hcfg : cfg.detailed = false)
    (m : Mesh (Ext ℝ)) (hc : Conforming m) (start goal : Vec2 ℝ)
    (hs : ∀ s, m.getPointLocation bvh (Coords.onMesh start.fin) = .ok s → s ≠ u32Max → InPolygon m s start)
    (he : ∀ e, m.getPointLocation bvh (Coords.onMesh goal.fin) = .ok e → e ≠ u32Max → InPolygon m e goal)
    (hm : NoNearMiss m start goal) (p : Path (Ext ℝ))
    (h : Resolves bvh heap cfg m (Mesh.getPath start.fin goal.fin) (some p)) :
    ∃ ws, p.path = ws.map Vec2.fin ∧ p.length = Ext.fin (polyLen (start :: ws))
      ∧ dist2 start goal ≤ polyLen (start :: ws) := by
  obtain ⟨s, e, h1, h2, h3, h4, hcase⟩ := resolves_found h
  have is := hs s h1 h3
  have ie := he e h2 h4
  rcases hcase with ⟨rfl, rfl⟩ | ⟨-, hf⟩
  · refine ⟨[goal], by simp [straightPath], ?_, by simp [polyLen]⟩
    simp only [straightPath]
    rw [fin_distance]
    simp [polyLen]
  · obtain ⟨ws, w1, w2, w3⟩ := foundBy_length (q := ⟨cfg, m, (start.fin, s), (goal.fin, e), []⟩)
      ⟨hc, hm, h4, rfl, rfl, is, ie, plain_of hcfg⟩ hcfg hf
    exact ⟨ws, w1, w3, polyLen_straight w2⟩

/-- **C57** (estimates). The estimate of every node that the search creates (known length plus heuristic) is a finite
number, at most the length of every route that takes the node's bends and goes from the last of them through a point of
its interval to the goal. -/
theorem C57_estimate (q : Query (Ext ℝ)) (hcfg : q.cfg.detailed = false) (start goal : Vec2 ℝ)
    (hc : Conforming q.mesh) (hm : NoNearMiss q.mesh start goal) (hd : q.dst.2 ≠ u32Max)
    (hsrc : q.src.1 = start.fin) (hdst : q.dst.1 = goal.fin)
    (hs : InPolygon q.mesh q.src.2 start) (he : InPolygon q.mesh q.dst.2 goal)
    (n : SearchNode (Ext ℝ)) (hn : Gen q n) :
    ∃ (bends : List (Vec2 ℝ)) (a b : Vec2 ℝ) (f : ℝ), n.path = bends.map Vec2.fin ∧ n.interval = (a.fin, b.fin)
      ∧ (n.distanceStartToRoot +. n.heuristic : Ext ℝ) = Ext.fin f
      ∧ ∀ x pre post, OnSeg a b x →
        f ≤ polyLen (start :: bends ++ (pre ++ x :: post ++ [goal])) := by
  have hex : Exactly q start goal := ⟨hc, hm, hd, hsrc, hdst, hs, he, plain_of hcfg⟩
  obtain ⟨r, a, b, A, B, s, t, g, hk⟩ := hex.known hn
  obtain ⟨ws, hws, hroot, hlen⟩ := gen_length hc hm hd hsrc hs (plain_of hcfg) hn
  rw [hk.geo.root] at hroot
  have hroot := Vec2.fin_injective hroot
  refine ⟨ws, a, b, _, hws, hk.geo.interval, hk.estimate hex, fun x pre post hx => ?_⟩
  obtain ⟨c1, c2⟩ := hex.clear hk.geo.eye hk.geo.sightA hk.geo.sightB
  have h4 := C38_heuristic_admissible_partial r goal a b x c1 c2 hx pre post
  have hg : g = polyLen (start :: ws) := by
    have := hk.length.symm.trans hlen
    simpa using this
  have := polyLen_glue start r ws (pre ++ x :: post ++ [goal]) hroot.symm
  simp only [List.cons_append, List.append_assoc] at this h4 ⊢
  rw [this, hg]
  linarith

/-- The hypotheses of C57 are met by a query that bends around a corner. -/
example (heap : Heap (Ext ℝ)) (hmax : heap.Max) :
    ∃ p, dartMesh.real.pathOnLayers everyIndex heap ⟨false⟩ dartStart dartGoal [] = .ok (some p) ∧
      ∃ ws, p.path = ws.map Vec2.fin
        ∧ p.length = Ext.fin (polyLen ((⟨24, 16⟩ : Vec2 ℚ).real :: ws))
        ∧ dist2 (⟨24, 16⟩ : Vec2 ℚ).real (⟨24, -16⟩ : Vec2 ℚ).real
          ≤ polyLen ((⟨24, 16⟩ : Vec2 ℚ).real :: ws) := by
  obtain ⟨p, hp, -⟩ := dart_shortest heap hmax
  refine ⟨p, hp, C57_length everyIndex heap ⟨false⟩ rfl dartMesh.real (fun l hl => (dart_wf.layer l hl).sized)
    dart_setting.conforming dartStart dartGoal _ _ rfl rfl ?_ ?_ dart_noNearMiss [] p hp⟩
  · rintro s (⟨-, rfl⟩ | ⟨h, -⟩)
    · exact dart_setting.src_in
    · exact absurd h (by decide)
  · rintro e (⟨-, rfl⟩ | ⟨h, -⟩)
    · exact dart_setting.dst_in
    · exact absurd h (by decide)

/-- The hypotheses of C57 for futures are met by a query around a hole. -/
example (heap : Heap (Ext ℝ)) (hmax : heap.Max) :
    ∃ p, Resolves everyIndex heap ⟨false⟩ ringMesh.real
        (Mesh.getPath (⟨24, 8⟩ : Vec2 ℚ).real.fin (⟨28, 40⟩ : Vec2 ℚ).real.fin) (some p) ∧
      ∃ ws, p.path = ws.map Vec2.fin
        ∧ p.length = Ext.fin (polyLen ((⟨24, 8⟩ : Vec2 ℚ).real :: ws))
        ∧ dist2 (⟨24, 8⟩ : Vec2 ℚ).real (⟨28, 40⟩ : Vec2 ℚ).real
          ≤ polyLen ((⟨24, 8⟩ : Vec2 ℚ).real :: ws) := by
  obtain ⟨p, hp, -⟩ := ring_found heap hmax
  have hcheck : soundCheck ringMesh = true := by decide +kernel
  have hsea := searchable_of_check hcheck
  have hc := conforming_real ring_conforming
  have h1 := sharp_of_grid (m := ringMesh.real) (x := (⟨24, 8⟩ : Vec2 ℚ).real) (by norm_num) (fun _ => ring_onGrid)
    (onGrid_real (onGridRing_spec (by decide +kernel)))
  have h2 := sharp_of_grid (m := ringMesh.real) (x := (⟨28, 40⟩ : Vec2 ℚ).real) (by norm_num) (fun _ => ring_onGrid)
    (onGrid_real (onGridRing_spec (by decide +kernel)))
  have hs : InPolygon ringMesh.real 0 (⟨24, 8⟩ : Vec2 ℚ).real :=
    inPolygon_real (inPolygon_of_check (by decide +kernel))
  have he : InPolygon ringMesh.real 2 (⟨28, 40⟩ : Vec2 ℚ).real :=
    inPolygon_real (inPolygon_of_check (by decide +kernel))
  obtain ⟨s, ls, -, is⟩ := location_first everyIndex_complete hsea hc h1 ⟨0, rfl, hs⟩
  obtain ⟨e, le, -, ie⟩ := location_first everyIndex_complete hsea hc h2 ⟨2, rfl, he⟩
  exact ⟨p, hp, C57_future_length everyIndex heap ⟨false⟩ rfl ringMesh.real hc _ _
    (fun s' h' _ => by rw [ls] at h'; cases h'; exact is) (fun e' h' _ => by rw [le] at h'; cases h'; exact ie)
    ring_noNearMiss p hp⟩

end Polyanya
