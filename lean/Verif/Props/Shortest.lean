import Verif.Proofs.Optimal
import Verif.Proofs.CalmRoute
import Verif.Proofs.IslandWalk
import Verif.Props.AsyncAgree
/-
C54: in exact arithmetic, on a navigable mesh, the returned path is a shortest one, and a path is found whenever
there is a way.
-/

namespace Polyanya

/-- A shortest path query between known polygons. -/
theorem shortest_of_held {q : Query (Ext ℝ)} {start goal : Vec2 ℝ} (hs : Setting q start goal) {ws₀ : List (Vec2 ℝ)}
    (hw : Walk q.mesh q.src.2 start q.dst.2 goal ws₀) (hse : q.src.2 ≠ q.dst.2) {inst : Inst (Ext ℝ)}
    (h : Inst.setup q.cfg q.mesh q.src q.dst q.blocked = .ok inst) :
    ∃ opt, Least q start goal opt ∧ Kept q inst ∧ Held q start goal opt inst.queue
      ∧ ∀ p : Path (Ext ℝ), FoundLeast q start goal opt p → q.cfg.detailed = false →
        ShortestPath q.mesh q.src.2 start q.dst.2 goal p := by
  obtain ⟨rs, hr, hnd, hcalm, hfl, hl⟩ := hs.calm_route hw
  obtain ⟨k1, k2⟩ := setup_held hs hl hfl hse hr le_rfl hnd hcalm h
  refine ⟨_, hl, k1, k2, ?_⟩
  rintro p ⟨-, ws, w1, w2, w3, w4⟩ hcfg
  exact ⟨ws, w1, w3 hcfg, w2, fun ws' hw' => w4.trans (hl ws' hw')⟩

/-- In one polygon the straight path is the shortest. -/
theorem shortest_straight {m : Mesh (Ext ℝ)} {s : UInt32} {start goal : Vec2 ℝ} (h1 : InPolygon m s start)
    (h2 : InPolygon m s goal) {p : Path (Ext ℝ)} (hp : p.path = [goal.fin])
    (hl : p.length = start.fin.distance goal.fin) : ShortestPath m s start s goal p := by
  refine ⟨[goal], by simp [hp], ?_, .cons (.stay h1 h2) (.nil h2), ?_⟩
  · rw [hl, fin_distance]
    simp [polyLen]
  · intro ws hw
    obtain ⟨rs, -, hr⟩ := hw.route
    have := routeLen_ge start goal rs
    simp only [polyLen, add_zero]
    linarith

/-- The query between the polygons `s` and `e`. -/
theorem pathBetween_shortest {heap : Heap (Ext ℝ)} (hmax : heap.Max) {q : Query (Ext ℝ)} {start goal : Vec2 ℝ}
    (hs : Setting q start goal) (hplain : q.cfg.detailed = false) {r : Option (Path (Ext ℝ))}
    (h : q.mesh.pathBetween heap q.cfg q.src.1 q.dst.1 q.src.2 q.dst.2 q.blocked = .ok r) :
    (∀ p, r = some p → ShortestPath q.mesh q.src.2 start q.dst.2 goal p) ∧
    (r = none → ∀ ws, Walk q.mesh q.src.2 start q.dst.2 goal ws →
      q.mesh.islandsDiffer q.src.2 q.dst.2 = .ok true ∨
      ∃ inst inst', Inst.setup q.cfg q.mesh q.src q.dst q.blocked = .ok inst
        ∧ pollSteps heap q.cfg q.mesh q.mesh.stepBudget inst = .ok (none, inst')) := by
  have hsame : ∀ p, q.src.2 = q.dst.2 → p = straightPath q.cfg q.src.1 q.dst.1 q.dst.2 →
      ShortestPath q.mesh q.src.2 start q.dst.2 goal p := by
    rintro p hse rfl
    rw [← hse]
    refine shortest_straight hs.src_in (by rw [hse]; exact hs.dst_in) ?_ ?_
    · simp [straightPath, hs.goalAt]
    · simp [straightPath, hs.goalAt, hs.src]
  have hfound : ∀ p, r = some p → q.src.2 = q.dst.2 ∨ ∃ ws, Walk q.mesh q.src.2 start q.dst.2 goal ws := by
    rintro p rfl
    rcases pathBetween_some h with ⟨hse, -⟩ | ⟨-, hf⟩
    · exact .inl hse
    · obtain ⟨ws, -, hw⟩ := foundBy_walk hs.conforming hs.exact hs.dst hs.src hs.goalAt hs.src_in hs.dst_in hf
      exact .inr ⟨ws, hw⟩
  unfold Mesh.pathBetween at h
  simp only [bind_eq_ok] at h
  obtain ⟨b, hb, h⟩ := h
  split at h
  · rename_i hbt
    simp only [Except.ok.injEq] at h
    subst h
    subst hbt
    exact ⟨by simp, fun _ _ _ => .inl hb⟩
  · split at h
    · rename_i hse
      simp only [Except.ok.injEq] at h
      subst h
      refine ⟨fun p hp => hsame p hse ?_, by simp⟩
      simp only [Option.some.injEq] at hp
      exact hp.symm
    · rename_i hse
      simp only [bind_eq_ok] at h
      obtain ⟨inst, hset, x, hx, h⟩ := h
      have key : ∀ ws, Walk q.mesh q.src.2 start q.dst.2 goal ws →
          (∃ p, x = .inl p ∧ ShortestPath q.mesh q.src.2 start q.dst.2 goal p) ∨
          (x = .inr [] ∧ ∃ inst', pollSteps heap q.cfg q.mesh q.mesh.stepBudget inst = .ok (none, inst')) := by
        intro ws hw
        obtain ⟨opt, hl, k1, k2, hshort⟩ := shortest_of_held hs hw hse hset
        rcases searchLoop_held hs hplain hl (hs.straightOn hl) hmax _ _ _ k1 k2 hx with ⟨p, rfl, hp⟩ | h
        · exact .inl ⟨p, rfl, hshort p hp hplain⟩
        · exact .inr h
      constructor
      · intro p hp
        obtain ⟨ws, hw⟩ := (hfound p hp).resolve_left hse
        subst hp
        rcases key ws hw with ⟨p', rfl, hs'⟩ | ⟨rfl, -⟩
        · simp only [Except.ok.injEq, Option.some.injEq] at h
          exact h ▸ hs'
        · simp [pickPath, hplain] at h
      · rintro rfl ws hw
        rcases key ws hw with ⟨p', rfl, hs'⟩ | ⟨-, inst', hi⟩
        · simp at h
        · exact .inr ⟨inst, inst', hset, hi⟩

/-- **C54**. In exact arithmetic, on a navigable mesh of convex polygons without near misses, when both end points are
located in polygons that contain them, a returned path is a shortest walk between them, and its length is the
length of this walk. -/
theorem C54_shortest (bvh : Bvh (Ext ℝ)) (heap : Heap (Ext ℝ)) (hmax : heap.Max) (cfg : Cfg)
    (hcfg : cfg.detailed = false) (m : Mesh (Ext ℝ)) (hsize : m.Sized) (hc : Conforming m)
    (src dst : Coords (Ext ℝ)) (start goal : Vec2 ℝ) (hsrc : src.pos = start.fin) (hdst : dst.pos = goal.fin)
    (hs : ∀ s, Located m bvh src s → InPolygon m s start)
    (he : ∀ e, Located m bvh dst e → InPolygon m e goal)
    (hnav : ∀ s e, Located m bvh src s → Located m bvh dst e → Navigable m s start e goal)
    (hm : NoNearMiss m start goal) (p : Path (Ext ℝ))
    (h : m.path bvh heap cfg src dst = .ok (some p)) :
    ∃ s e, Located m bvh src s ∧ Located m bvh dst e ∧ ShortestPath m s start e goal p := by
  obtain ⟨s, e, h1, h2, h3⟩ := pathOnLayers_some h
  have hls := endpointPolygon_located.1 h1
  have hle := endpointPolygon_located.1 h2
  refine ⟨s, e, hls, hle, ?_⟩
  exact (pathBetween_shortest hmax (q := ⟨cfg, m, (src.pos, s), (dst.pos, e), []⟩)
    ⟨hc, hm, hnav s e hls hle, located_ne_max hsize hle, hsrc, hdst, hs s hls, he e hle, plain_of hcfg, rfl⟩ hcfg h3).1 p rfl

/-- The search between the polygons `s` and `e` is still going on after the steps that `path` allows (ten for each
polygon of the mesh). -/
def BudgetUsedUp (heap : Heap (Ext ℝ)) (cfg : Cfg) (m : Mesh (Ext ℝ)) (src dst : Vec2 (Ext ℝ)) (s e : UInt32) :
    Prop :=
  ∃ inst inst', Inst.setup cfg m (src, s) (dst, e) [] = .ok inst
    ∧ pollSteps heap cfg m ((m.layers.map (·.polygons.length)).sum * 10) inst = .ok (none, inst')

/-- **C54** (completeness). If there is a walk between the located polygons, then `path` returns a shortest path, or it
gives up because the number of its steps is limited. -/
theorem C54_complete (bvh : Bvh (Ext ℝ)) (heap : Heap (Ext ℝ)) (hmax : heap.Max) (cfg : Cfg)
    (hcfg : cfg.detailed = false) (m : Mesh (Ext ℝ)) (hsize : m.Sized) (hc : Conforming m)
    (hisl : m.layers.length = 1 → m.IslandsTrue)
    (src dst : Coords (Ext ℝ)) (start goal : Vec2 ℝ) (hsrc : src.pos = start.fin) (hdst : dst.pos = goal.fin)
    (s e : UInt32) (hls : Located m bvh src s) (hle : Located m bvh dst e)
    (hs : InPolygon m s start) (hnav : Navigable m s start e goal) (he : InPolygon m e goal)
    (hm : NoNearMiss m start goal) (ws : List (Vec2 ℝ)) (hw : Walk m s start e goal ws)
    (r : Option (Path (Ext ℝ))) (h : m.path bvh heap cfg src dst = .ok r) :
    (∃ p, r = some p ∧ ShortestPath m s start e goal p) ∨
    (r = none ∧ BudgetUsedUp heap cfg m src.pos dst.pos s e) := by
  have h1 := endpointPolygon_located.2 hls
  have h2 := endpointPolygon_located.2 hle
  unfold Mesh.path Mesh.pathOnLayers at h
  rw [h1, res_bind_ok] at h
  simp only at h
  rw [h2, res_bind_ok] at h
  simp only at h
  have key := pathBetween_shortest hmax (q := ⟨cfg, m, (src.pos, s), (dst.pos, e), []⟩)
    ⟨hc, hm, hnav, located_ne_max hsize hle, hsrc, hdst, hs, he, plain_of hcfg, rfl⟩ hcfg h
  cases r with
  | some p => exact .inl ⟨p, rfl, key.1 p rfl⟩
  | none =>
    right
    refine ⟨rfl, ?_⟩
    rcases key.2 rfl ws hw with hi | hi
    · by_cases h1 : m.layers.length = 1
      · exact absurd hi (hw.islands (hisl h1)).1
      · simp [Mesh.islandsDiffer, h1] at hi
    · exact hi

/-- A path that is a walk of least length: the straight one in a polygon, or one found by the search. -/
def LeastPath (q : Query (Ext ℝ)) (start goal : Vec2 ℝ) (p : Path (Ext ℝ)) : Prop :=
  (q.src.2 = q.dst.2 ∧ p = straightPath q.cfg q.src.1 q.dst.1 q.dst.2) ∨
  ∃ opt, Least q start goal opt ∧ FoundLeast q start goal opt p

/-- A future, in either build. -/
theorem future_least (bvh : Bvh (Ext ℝ)) (heap : Heap (Ext ℝ)) (hmax : heap.Max) (cfg : Cfg)
    (m : Mesh (Ext ℝ)) (hcfg : cfg.detailed = true → m.Unscaled) (hc : Conforming m)
    (hisl : m.IslandsTrue) (start goal : Vec2 ℝ) (s e : UInt32)
    (hls : m.getPointLocation bvh (Coords.onMesh start.fin) = .ok s) (hsm : s ≠ u32Max)
    (hle : m.getPointLocation bvh (Coords.onMesh goal.fin) = .ok e) (hem : e ≠ u32Max)
    (hs : InPolygon m s start) (hnav : Navigable m s start e goal) (he : InPolygon m e goal)
    (hm : NoNearMiss m start goal) (ws : List (Vec2 ℝ)) (hw : Walk m s start e goal ws)
    (r : Option (Path (Ext ℝ))) (h : Resolves bvh heap cfg m (Mesh.getPath start.fin goal.fin) r) :
    ∃ p, r = some p ∧ LeastPath ⟨cfg, m, (start.fin, s), (goal.fin, e), []⟩ start goal p := by
  have hset : Setting ⟨cfg, m, (start.fin, s), (goal.fin, e), []⟩ start goal :=
    ⟨hc, hm, hnav, hem, rfl, rfl, hs, he, hcfg, rfl⟩
  obtain ⟨rs, hr, hnd, hcalm, hfl, hl⟩ := hset.calm_route hw
  suffices H : ∀ f r, Resolves bvh heap cfg m f r → f.src = start.fin → f.dst = goal.fin →
      (f.instance? = none ∨ ∃ inst, f.instance? = some inst
        ∧ Kept ⟨cfg, m, (start.fin, s), (goal.fin, e), []⟩ inst
        ∧ Held ⟨cfg, m, (start.fin, s), (goal.fin, e), []⟩ start goal (routeLen start goal rs) inst.queue) →
      ∃ p, r = some p ∧ LeastPath ⟨cfg, m, (start.fin, s), (goal.fin, e), []⟩ start goal p from
    H _ _ h rfl rfl (.inl rfl)
  intro f r hres
  have step : ∀ (f f' : FuturePath (Ext ℝ)) (x : Poll (Ext ℝ)), f.poll bvh heap cfg m = .ok (x, f') →
      f.src = start.fin → f.dst = goal.fin →
      (f.instance? = none ∨ ∃ inst, f.instance? = some inst
        ∧ Kept ⟨cfg, m, (start.fin, s), (goal.fin, e), []⟩ inst
        ∧ Held ⟨cfg, m, (start.fin, s), (goal.fin, e), []⟩ start goal (routeLen start goal rs) inst.queue) →
      (∃ p, x = .ready (some p) ∧ LeastPath ⟨cfg, m, (start.fin, s), (goal.fin, e), []⟩ start goal p) ∨
      ((∃ w, x = .pending w) ∧ f'.src = start.fin ∧ f'.dst = goal.fin ∧ ∃ inst, f'.instance? = some inst
        ∧ Kept ⟨cfg, m, (start.fin, s), (goal.fin, e), []⟩ inst
        ∧ Held ⟨cfg, m, (start.fin, s), (goal.fin, e), []⟩ start goal (routeLen start goal rs) inst.queue) := by
    intro f f' x h h1 h2 h3
    unfold FuturePath.poll at h
    split at h
    · rename_i inst hinst
      obtain ⟨i, hi, k1, k2⟩ := h3.resolve_left (by rw [hinst]; simp)
      rw [hinst] at hi
      cases hi
      simp only [bind_eq_ok] at h
      obtain ⟨⟨y, inst'⟩, hp, h⟩ := h
      rcases pollSteps_held hset hl (hset.straightOn hl) hmax 3 inst inst' y k1 k2 hp with ⟨p, rfl, hfp⟩ | ⟨rfl, k3, k4⟩
      · simp only [Except.ok.injEq, Prod.mk.injEq] at h
        exact .inl ⟨p, h.1.symm, .inr ⟨_, hl, hfp⟩⟩
      · simp only [Except.ok.injEq, Prod.mk.injEq] at h
        obtain ⟨rfl, rfl⟩ := h
        exact .inr ⟨⟨_, rfl⟩, h1, h2, inst', rfl, k3, k4⟩
    · rw [h1, h2, hls, res_bind_ok, if_neg hsm, hle, res_bind_ok, if_neg hem] at h
      simp only [bind_eq_ok] at h
      obtain ⟨b, hb, h⟩ := h
      have hbf : b = false := by
        cases b with
        | false => rfl
        | true => exact absurd hb (hw.islands hisl).2
      subst hbf
      simp only [Bool.false_eq_true, if_false] at h
      split at h
      · rename_i hse
        simp only [Except.ok.injEq, Prod.mk.injEq] at h
        obtain ⟨rfl, rfl⟩ := h
        left
        refine ⟨_, rfl, ?_⟩
        exact .inl ⟨hse, rfl⟩
      · rename_i hse
        simp only [bind_eq_ok, Except.ok.injEq, Prod.mk.injEq] at h
        obtain ⟨inst, hset', rfl, rfl⟩ := h
        obtain ⟨k1, k2⟩ := setup_held hset hl hfl hse hr le_rfl hnd hcalm hset'
        exact .inr ⟨⟨_, rfl⟩, rfl, rfl, inst, rfl, k1, k2⟩
  induction hres with
  | ready hp =>
    intro h1 h2 h3
    rcases step _ _ _ hp h1 h2 h3 with ⟨p, hx, hp'⟩ | ⟨⟨w, hx⟩, -⟩
    · cases hx
      exact ⟨p, rfl, hp'⟩
    · cases hx
  | pending hp _ ih =>
    intro h1 h2 h3
    rcases step _ _ _ hp h1 h2 h3 with ⟨p, hx, -⟩ | ⟨-, k1, k2, k3⟩
    · cases hx
    · exact ih k1 k2 (.inr k3)

/-- **C54** (futures). If there is a walk between the located polygons, then a future that resolves gives a shortest
path. -/
theorem C54_future (bvh : Bvh (Ext ℝ)) (heap : Heap (Ext ℝ)) (hmax : heap.Max) (cfg : Cfg)
    (hcfg : cfg.detailed = false) (m : Mesh (Ext ℝ)) (hc : Conforming m)
    (hisl : m.IslandsTrue) (start goal : Vec2 ℝ) (s e : UInt32)
    (hls : m.getPointLocation bvh (Coords.onMesh start.fin) = .ok s) (hsm : s ≠ u32Max)
    (hle : m.getPointLocation bvh (Coords.onMesh goal.fin) = .ok e) (hem : e ≠ u32Max)
    (hs : InPolygon m s start) (hnav : Navigable m s start e goal) (he : InPolygon m e goal)
    (hm : NoNearMiss m start goal) (ws : List (Vec2 ℝ)) (hw : Walk m s start e goal ws)
    (r : Option (Path (Ext ℝ))) (h : Resolves bvh heap cfg m (Mesh.getPath start.fin goal.fin) r) :
    ∃ p, r = some p ∧ ShortestPath m s start e goal p := by
  obtain ⟨p, rfl, hp⟩ := future_least bvh heap hmax cfg m (plain_of hcfg) hc hisl start goal s e hls hsm hle hem hs hnav he
    hm ws hw r h
  refine ⟨p, rfl, ?_⟩
  rcases hp with ⟨hse, rfl⟩ | ⟨opt, hl, -, ws', w1, w2, w3, w4⟩
  · simp only at hse
    subst hse
    exact shortest_straight hs he rfl rfl
  · exact ⟨ws', w1, w3 hcfg, w2, fun ws'' hw'' => w4.trans (hl ws'' hw'')⟩

end Polyanya
