import Verif.Proofs.Detailed
import Verif.Props.Ends
/-
C76: with the feature `detailed-layers`, on a mesh whose layers have the default scale, paths are shortest as well.
-/

namespace Polyanya

instance {F : Type} [Field F] [LinearOrder F] [Scalar F] [ExactField F] : LeLaws (Ext F) where
  le_trans a b c hab hbc := by
    cases a <;> cases b <;> cases c <;> simp_all [Scalar.le, Ext.le]
    case fin.fin.fin =>
      exact (ExactField.le _ _).2 (le_trans ((ExactField.le _ _).1 hab) ((ExactField.le _ _).1 hbc))
    case inf.inf.inf =>
      rcases hab with h | h
      · exact .inl h
      · rcases hbc with h' | h'
        · rw [h] at h'; cases h'
        · exact .inr h'
  le_total a b ha hb := by
    cases a <;> cases b <;> simp_all [Scalar.le, Ext.le, Scalar.isNan, Ext.isNan]
    case fin.fin =>
      exact (le_total _ _).imp (ExactField.le _ _).2 (ExactField.le _ _).2
    case inf.inf a b =>
      cases a <;> cases b <;> simp

/-- A path along a walk from `start` to `goal`, with a reported length that is at most the length of every walk between these
points (this one included) and at least the distance of the points. -/
def ReportsLeast (m : Mesh (Ext ℝ)) (s : UInt32) (start : Vec2 ℝ) (e : UInt32) (goal : Vec2 ℝ) (p : Path (Ext ℝ)) : Prop :=
  ∃ ws x, p.path = ws.map Vec2.fin ∧ Walk m s start e goal ws ∧ p.length = Ext.fin x ∧ dist2 start goal ≤ x
    ∧ ∀ ws', Walk m s start e goal ws' → x ≤ polyLen (start :: ws')

theorem ShortestPath.reports {m : Mesh (Ext ℝ)} {s e : UInt32} {start goal : Vec2 ℝ} {p : Path (Ext ℝ)}
    (h : ShortestPath m s start e goal p) : ReportsLeast m s start e goal p := by
  obtain ⟨ws, h1, h2, h3, h4⟩ := h
  refine ⟨ws, _, h1, h3, h2, ?_, h4⟩
  obtain ⟨rs, hl, hr⟩ := h3.route
  have := routeLen_ge start goal rs
  linarith

theorem emits_of_held {q : Query (Ext ℝ)} {start goal : Vec2 ℝ} {opt : ℝ} (hs : Setting q start goal)
    (hl : Least q start goal opt) (hso : StraightOn q start goal opt) {heap : Heap (Ext ℝ)} (hmax : heap.Max) :
    ∀ (k : Nat) (inst : Inst (Ext ℝ)) (ps : List (Path (Ext ℝ))) (r : Path (Ext ℝ) ⊕ List (Path (Ext ℝ))), Kept q inst →
    Held q start goal opt inst.queue → searchLoop heap q.cfg q.mesh k inst ps = .ok r →
    (∃ p, Emits heap q.cfg q.mesh k inst p ∧ FoundLeast q start goal opt p)
      ∨ (∃ inst', pollSteps heap q.cfg q.mesh k inst = .ok (none, inst')) ∧ ∀ p, ¬ Emits heap q.cfg q.mesh k inst p := by
  intro k
  induction k with
  | zero => intro inst ps r _ _ _; exact .inr ⟨⟨inst, rfl⟩, fun p h => by cases h⟩
  | succ k ih =>
    intro inst ps r hk hh h
    simp only [searchLoop, bind_eq_ok] at h
    obtain ⟨⟨st, inst1⟩, hn, h⟩ := h
    rcases next_held hs hl hso hmax hk hh hn with ⟨p, rfl, hp⟩ | ⟨rfl, k1, k2⟩
    · exact .inl ⟨p, .now hn, hp⟩
    · rcases ih inst1 ps r k1 k2 h with ⟨p, h1, h2⟩ | ⟨⟨inst', h1⟩, h2⟩
      · exact .inl ⟨p, .later hn h1, h2⟩
      · refine .inr ⟨⟨inst', ?_⟩, ?_⟩
        · simp only [pollSteps, hn, res_bind_ok]
          exact h1
        · intro p he
          cases he with
          | now h' => rw [hn] at h'; simp at h'
          | later h' h3 =>
            rw [hn] at h'
            simp only [Except.ok.injEq, Prod.mk.injEq] at h'
            exact h2 p (h'.2 ▸ h3)

theorem ext_le_fin {x y : ℝ} (h : (Ext.fin x <=. (Ext.fin y : Ext ℝ)) = true) : x ≤ y :=
  (ExactField.le _ _).1 h

/-- The query between the polygons `s` and `e`, with `detailed-layers`. -/
theorem pathBetween_detailed {heap : Heap (Ext ℝ)} (hmax : heap.Max) {q : Query (Ext ℝ)} {start goal : Vec2 ℝ}
    (hs : Setting q start goal) (hd : q.cfg.detailed = true) {r : Option (Path (Ext ℝ))}
    (h : q.mesh.pathBetween heap q.cfg q.src.1 q.dst.1 q.src.2 q.dst.2 q.blocked = .ok r) :
    (∀ p, r = some p → ReportsLeast q.mesh q.src.2 start q.dst.2 goal p ∧
      (Spaced q.mesh start goal → ShortestPath q.mesh q.src.2 start q.dst.2 goal p)) ∧
    (r = none → ∀ ws, Walk q.mesh q.src.2 start q.dst.2 goal ws →
      q.mesh.islandsDiffer q.src.2 q.dst.2 = .ok true ∨
      ∃ inst inst', Inst.setup q.cfg q.mesh q.src q.dst q.blocked = .ok inst
        ∧ pollSteps heap q.cfg q.mesh q.mesh.stepBudget inst = .ok (none, inst')) := by
  by_cases hse : q.src.2 = q.dst.2
  · have hsame : ∀ p, p = straightPath q.cfg q.src.1 q.dst.1 q.dst.2 →
        ShortestPath q.mesh q.src.2 start q.dst.2 goal p := by
      rintro p rfl
      rw [← hse]
      refine shortest_straight hs.src_in (by rw [hse]; exact hs.dst_in) ?_ ?_
      · simp [straightPath, hs.goalAt]
      · simp [straightPath, hs.goalAt, hs.src]
    constructor
    · rintro p rfl
      rcases pathBetween_some h with ⟨-, hp⟩ | ⟨hne, -⟩
      · have := hsame p hp
        exact ⟨this.reports, fun _ => this⟩
      · exact absurd hse hne
    · rintro rfl ws -
      unfold Mesh.pathBetween at h
      simp only [bind_eq_ok] at h
      obtain ⟨b, hb, h⟩ := h
      split at h
      · rename_i hbt
        subst hbt
        exact .inl hb
      · simp [hse] at h
  · constructor
    · rintro p rfl
      obtain ⟨inst, hset, hem, hbest⟩ := C41_shortest heap q.cfg hd q.mesh q.src.1 q.dst.1 q.src.2 q.dst.2 q.blocked p hse h
      have hfp : FoundBy q p := by
        rcases pathBetween_some h with ⟨h', -⟩ | ⟨-, hf⟩
        · exact absurd h' hse
        · exact hf
      obtain ⟨ws, x, k1, k2, k3, k4, k5, k6⟩ := foundBy_detailed hs.exactly hd hfp
      obtain ⟨opt, hl, j1, j2, -⟩ := shortest_of_held hs k2 hse hset
      obtain ⟨ps, hps⟩ : ∃ r, searchLoop heap q.cfg q.mesh q.mesh.stepBudget inst [] = .ok r := by
        unfold Mesh.pathBetween at h
        simp only [bind_eq_ok] at h
        obtain ⟨b, -, h⟩ := h
        split at h
        · simp at h
        · simp only [bind_eq_ok] at h
          obtain ⟨inst1, hset1, r, hr, -⟩ := h
          rw [hset] at hset1
          cases hset1
          exact ⟨r, hr⟩
      obtain ⟨p', he', hf', ws', w1, w2, -, w4⟩ :=
        (emits_of_held hs hl (hs.straightOn hl) hmax _ _ _ _ j1 j2 hps).resolve_right (fun h => h.2 p hem)
      obtain ⟨ws2, x', l1, -, l3, -, l5, -⟩ := foundBy_detailed hs.exactly hd hf'
      obtain rfl := map_fin_injective (w1.symm.trans l1)
      have hxx : x ≤ x' := by
        rcases hbest p' he' with rfl | hb
        · rw [k3] at l3
          exact le_of_eq (Ext.fin.inj l3)
        · rw [k3, l3] at hb
          exact ext_le_fin hb
      have hle : ∀ ws', Walk q.mesh q.src.2 start q.dst.2 goal ws' → x ≤ polyLen (start :: ws') :=
        fun ws' hw' => (hxx.trans l5).trans (w4.trans (hl ws' hw'))
      refine ⟨⟨ws, x, k1, k2, k3, k4, hle⟩, fun hsp => ⟨ws, k1, by rw [k3, k6 hsp], k2, ?_⟩⟩
      intro ws' hw'
      rw [← k6 hsp]
      exact hle ws' hw'
    · rintro rfl ws hw
      unfold Mesh.pathBetween at h
      simp only [bind_eq_ok] at h
      obtain ⟨b, hb, h⟩ := h
      split at h
      · rename_i hbt
        subst hbt
        exact .inl hb
      · simp only [bind_eq_ok] at h
        obtain ⟨inst, hset, r, hr, h⟩ := h
        obtain ⟨qs, rfl, hq⟩ := searchLoop_collects hd _ _ _ _ hr
        obtain ⟨opt, hl, j1, j2, -⟩ := shortest_of_held hs hw hse hset
        rcases emits_of_held hs hl (hs.straightOn hl) hmax _ _ _ _ j1 j2 hr with ⟨p', he', -⟩ | ⟨hi, -⟩
        · exfalso
          have hmem := (hq p').2 (.inr he')
          simp only [pickPath, hd, if_true] at h
          split at h
          · simp at h
          · simp only [Except.ok.injEq, List.head?_eq_none_iff] at h
            have : p' ∈ qs.mergeSort (fun a b => a.length <=. b.length) := by rwa [List.mem_mergeSort]
            rw [h] at this
            cases this
        · obtain ⟨inst', hi⟩ := hi
          exact .inr ⟨inst, inst', hset, hi⟩

/-- **C76**. With `detailed-layers`, in exact arithmetic and under the conditions of C54, on a mesh whose layers have the default
scale, a returned path is a walk between the points, and its length is at most the length of every walk between
them. If no two listed points are close to each other without being equal, the path is a shortest walk and its
length is the length of this walk. -/
theorem C76_shortest (bvh : Bvh (Ext ℝ)) (heap : Heap (Ext ℝ)) (hmax : heap.Max) (cfg : Cfg)
    (hcfg : cfg.detailed = true) (m : Mesh (Ext ℝ)) (hone : m.Unscaled) (hsize : m.Sized) (hc : Conforming m)
    (src dst : Coords (Ext ℝ)) (start goal : Vec2 ℝ) (hsrc : src.pos = start.fin) (hdst : dst.pos = goal.fin)
    (hs : ∀ s, Located m bvh src s → InPolygon m s start)
    (he : ∀ e, Located m bvh dst e → InPolygon m e goal)
    (hnav : ∀ s e, Located m bvh src s → Located m bvh dst e → Navigable m s start e goal)
    (hm : NoNearMiss m start goal) (p : Path (Ext ℝ))
    (h : m.path bvh heap cfg src dst = .ok (some p)) :
    ∃ s e, Located m bvh src s ∧ Located m bvh dst e ∧ ReportsLeast m s start e goal p ∧
      (Spaced m start goal → ShortestPath m s start e goal p) := by
  obtain ⟨s, e, h1, h2, h3⟩ := pathOnLayers_some h
  have hls := endpointPolygon_located.1 h1
  have hle := endpointPolygon_located.1 h2
  refine ⟨s, e, hls, hle, ?_⟩
  exact (pathBetween_detailed hmax (q := ⟨cfg, m, (src.pos, s), (dst.pos, e), []⟩)
    ⟨hc, hm, hnav s e hls hle, located_ne_max hsize hle, hsrc, hdst, hs s hls, he e hle, fun _ => hone, rfl⟩ hcfg h3).1 p rfl

/-- **C76** (completeness). With `detailed-layers`, if there is a walk between the located polygons, then `path` returns such a
path, or it gives up because the number of its steps is limited. -/
theorem C76_complete (bvh : Bvh (Ext ℝ)) (heap : Heap (Ext ℝ)) (hmax : heap.Max) (cfg : Cfg)
    (hcfg : cfg.detailed = true) (m : Mesh (Ext ℝ)) (hone : m.Unscaled) (hsize : m.Sized) (hc : Conforming m)
    (hisl : m.layers.length = 1 → m.IslandsTrue)
    (src dst : Coords (Ext ℝ)) (start goal : Vec2 ℝ) (hsrc : src.pos = start.fin) (hdst : dst.pos = goal.fin)
    (s e : UInt32) (hls : Located m bvh src s) (hle : Located m bvh dst e)
    (hs : InPolygon m s start) (hnav : Navigable m s start e goal) (he : InPolygon m e goal)
    (hm : NoNearMiss m start goal) (ws : List (Vec2 ℝ)) (hw : Walk m s start e goal ws)
    (r : Option (Path (Ext ℝ))) (h : m.path bvh heap cfg src dst = .ok r) :
    (∃ p, r = some p ∧ ReportsLeast m s start e goal p ∧ (Spaced m start goal → ShortestPath m s start e goal p)) ∨
    (r = none ∧ BudgetUsedUp heap cfg m src.pos dst.pos s e) := by
  have h1 := endpointPolygon_located.2 hls
  have h2 := endpointPolygon_located.2 hle
  unfold Mesh.path Mesh.pathOnLayers at h
  rw [h1, res_bind_ok] at h
  simp only at h
  rw [h2, res_bind_ok] at h
  simp only at h
  have key := pathBetween_detailed hmax (q := ⟨cfg, m, (src.pos, s), (dst.pos, e), []⟩)
    ⟨hc, hm, hnav, located_ne_max hsize hle, hsrc, hdst, hs, he, fun _ => hone, rfl⟩ hcfg h
  cases r with
  | some p => exact .inl ⟨p, rfl, key.1 p rfl⟩
  | none =>
    right
    refine ⟨rfl, ?_⟩
    rcases key.2 rfl ws hw with hi | hi
    · by_cases h1 : m.layers.length = 1
      · exact absurd hi (hw.islands (hisl h1)).1
      · simp [Mesh.islandsDiffer, h1] at hi
    · exact hi

/-- **C76** (both builds). The statement of C54, for every build that measures lengths along polylines. -/
theorem C76_either_shortest (bvh : Bvh (Ext ℝ)) (heap : Heap (Ext ℝ)) (hmax : heap.Max) (cfg : Cfg)
    (m : Mesh (Ext ℝ)) (hsize : m.Sized) (hc : Conforming m)
    (src dst : Coords (Ext ℝ)) (start goal : Vec2 ℝ) (hcfg : cfg.Plain m start goal) (hsrc : src.pos = start.fin)
    (hdst : dst.pos = goal.fin) (hs : ∀ s, Located m bvh src s → InPolygon m s start)
    (he : ∀ e, Located m bvh dst e → InPolygon m e goal)
    (hnav : ∀ s e, Located m bvh src s → Located m bvh dst e → Navigable m s start e goal)
    (hm : NoNearMiss m start goal) (p : Path (Ext ℝ))
    (h : m.path bvh heap cfg src dst = .ok (some p)) :
    ∃ s e, Located m bvh src s ∧ Located m bvh dst e ∧ ShortestPath m s start e goal p := by
  cases hd : cfg.detailed with
  | false => exact C54_shortest bvh heap hmax cfg hd m hsize hc src dst start goal hsrc hdst hs he hnav hm p h
  | true =>
    obtain ⟨hone, hsp⟩ := hcfg hd
    obtain ⟨s, e, h1, h2, -, h3⟩ := C76_shortest bvh heap hmax cfg hd m hone hsize hc src dst start goal hsrc hdst hs he hnav hm
      p h
    exact ⟨s, e, h1, h2, h3 hsp⟩

/-- **C76** (both builds, completeness). -/
theorem C76_either_complete (bvh : Bvh (Ext ℝ)) (heap : Heap (Ext ℝ)) (hmax : heap.Max) (cfg : Cfg)
    (m : Mesh (Ext ℝ)) (hsize : m.Sized) (hc : Conforming m)
    (hisl : m.layers.length = 1 → m.IslandsTrue)
    (src dst : Coords (Ext ℝ)) (start goal : Vec2 ℝ) (hcfg : cfg.Plain m start goal) (hsrc : src.pos = start.fin)
    (hdst : dst.pos = goal.fin) (s e : UInt32) (hls : Located m bvh src s) (hle : Located m bvh dst e)
    (hs : InPolygon m s start) (hnav : Navigable m s start e goal) (he : InPolygon m e goal)
    (hm : NoNearMiss m start goal) (ws : List (Vec2 ℝ)) (hw : Walk m s start e goal ws)
    (r : Option (Path (Ext ℝ))) (h : m.path bvh heap cfg src dst = .ok r) :
    (∃ p, r = some p ∧ ShortestPath m s start e goal p) ∨
    (r = none ∧ BudgetUsedUp heap cfg m src.pos dst.pos s e) := by
  cases hd : cfg.detailed with
  | false =>
    exact C54_complete bvh heap hmax cfg hd m hsize hc hisl src dst start goal hsrc hdst s e hls hle hs hnav he hm ws hw r h
  | true =>
    obtain ⟨hone, hsp⟩ := hcfg hd
    rcases C76_complete bvh heap hmax cfg hd m hone hsize hc hisl src dst start goal hsrc hdst s e hls hle hs hnav he hm ws hw r
      h with ⟨p, h1, -, h2⟩ | hb
    · exact .inl ⟨p, h1, h2 hsp⟩
    · exact .inr hb

/-- **C76** (length). With `detailed-layers` and the default scale, on every mesh of convex polygons, with any blocked layers and any
order of the queue, without near misses: the reported length is at most that of the returned polyline, at least the distance
of the points, and exactly that of the polyline if no entry is left out (the counterpart of C57). -/
theorem C76_length (bvh : Bvh (Ext ℝ)) (heap : Heap (Ext ℝ)) (cfg : Cfg) (hcfg : cfg.detailed = true)
    (m : Mesh (Ext ℝ)) (hone : m.Unscaled) (hsize : m.Sized) (hc : Conforming m) (src dst : Coords (Ext ℝ)) (start goal : Vec2 ℝ)
    (hsrc : src.pos = start.fin) (hdst : dst.pos = goal.fin)
    (hs : ∀ s, Located m bvh src s → InPolygon m s start)
    (he : ∀ e, Located m bvh dst e → InPolygon m e goal)
    (hm : NoNearMiss m start goal) (blocked : List UInt8) (p : Path (Ext ℝ))
    (h : m.pathOnLayers bvh heap cfg src dst blocked = .ok (some p)) :
    ∃ ws x, p.path = ws.map Vec2.fin ∧ p.length = Ext.fin x ∧ dist2 start goal ≤ x ∧ x ≤ polyLen (start :: ws) ∧
      (Spaced m start goal → x = polyLen (start :: ws)) := by
  obtain ⟨s, e, h1, h2, h3⟩ := pathOnLayers_some h
  have hls := endpointPolygon_located.1 h1
  have hle := endpointPolygon_located.1 h2
  rcases pathBetween_some h3 with ⟨rfl, rfl⟩ | ⟨-, hf⟩
  · refine ⟨[goal], dist2 start goal, by simp [hdst], ?_, le_refl _, by simp [polyLen], fun _ => by simp [polyLen]⟩
    simp only
    rw [hsrc, hdst, fin_distance]
  · obtain ⟨ws, x, w1, -, w3, w4, w5, w6⟩ := foundBy_detailed (q := ⟨cfg, m, (src.pos, s), (dst.pos, e), blocked⟩)
      ⟨hc, hm, located_ne_max hsize hle, hsrc, hdst, hs _ hls, he _ hle, fun _ => hone⟩ hcfg hf
    exact ⟨ws, x, w1, w3, w4, w5, w6⟩

/-- **C76** (futures). With `detailed-layers`, if there is a walk between the located polygons, then a future that resolves
gives a path along a shortest walk, with a reported length that is at most the length of this walk, and equal to it if no
two listed points are close to each other without being equal. -/
theorem C76_future (bvh : Bvh (Ext ℝ)) (heap : Heap (Ext ℝ)) (hmax : heap.Max) (cfg : Cfg)
    (hcfg : cfg.detailed = true) (m : Mesh (Ext ℝ)) (hone : m.Unscaled) (hc : Conforming m)
    (hisl : m.IslandsTrue) (start goal : Vec2 ℝ) (s e : UInt32)
    (hls : m.getPointLocation bvh (Coords.onMesh start.fin) = .ok s) (hsm : s ≠ u32Max)
    (hle : m.getPointLocation bvh (Coords.onMesh goal.fin) = .ok e) (hem : e ≠ u32Max)
    (hs : InPolygon m s start) (hnav : Navigable m s start e goal) (he : InPolygon m e goal)
    (hm : NoNearMiss m start goal) (ws : List (Vec2 ℝ)) (hw : Walk m s start e goal ws)
    (r : Option (Path (Ext ℝ))) (h : Resolves bvh heap cfg m (Mesh.getPath start.fin goal.fin) r) :
    ∃ p ws' x, r = some p ∧ p.path = ws'.map Vec2.fin ∧ ShortestWalk m s start e goal ws' ∧
      p.length = Ext.fin x ∧ dist2 start goal ≤ x ∧ x ≤ polyLen (start :: ws') ∧
      (Spaced m start goal → ShortestPath m s start e goal p) := by
  obtain ⟨p, rfl, hp⟩ := future_least bvh heap hmax cfg m (fun _ => hone) hc hisl start goal s e hls hsm hle hem hs hnav he
    hm ws hw r h
  rcases hp with ⟨hse, rfl⟩ | ⟨opt, hl, hf, ws', w1, w2, w3, w4⟩
  · simp only at hse
    subst hse
    have hsp : ShortestPath m s start s goal (straightPath cfg start.fin goal.fin s) := shortest_straight hs he rfl rfl
    obtain ⟨ws', k1, k2, k3⟩ := hsp
    refine ⟨_, ws', _, rfl, k1, k3, k2, ?_, le_refl _, fun _ => ⟨ws', k1, k2, k3⟩⟩
    obtain ⟨rs, hl, hr⟩ := k3.1.route
    have := routeLen_ge start goal rs
    linarith
  · have hset : Setting ⟨cfg, m, (start.fin, s), (goal.fin, e), []⟩ start goal :=
      ⟨hc, hm, hnav, hem, rfl, rfl, hs, he, fun _ => hone, rfl⟩
    obtain ⟨ws2, x, l1, -, l3, l4, l5, l6⟩ := foundBy_detailed hset.exactly hcfg hf
    obtain rfl := map_fin_injective (w1.symm.trans l1)
    have hsw : ShortestWalk m s start e goal ws' := ⟨w2, fun ws'' hw'' => w4.trans (hl ws'' hw'')⟩
    exact ⟨p, ws', x, rfl, w1, hsw, l3, l4, l5, fun hsp => ⟨ws', w1, by rw [l3, l6 hsp], hsw⟩⟩

/-- **C76** (the two builds). If both builds return a path, the length reported with `detailed-layers` is at most that of the
default build, and equal to it if no two listed points are close to each other without being equal. -/
theorem C76_builds_agree (bvh : Bvh (Ext ℝ)) (heap heap' : Heap (Ext ℝ)) (hmax : heap.Max) (hmax' : heap'.Max)
    (m : Mesh (Ext ℝ)) (hone : m.Unscaled) (hsize : m.Sized) (hc : Conforming m)
    (src dst : Coords (Ext ℝ)) (start goal : Vec2 ℝ) (hsrc : src.pos = start.fin) (hdst : dst.pos = goal.fin)
    (hs : ∀ s, Located m bvh src s → InPolygon m s start)
    (he : ∀ e, Located m bvh dst e → InPolygon m e goal)
    (hnav : ∀ s e, Located m bvh src s → Located m bvh dst e → Navigable m s start e goal)
    (hm : NoNearMiss m start goal) (p p' : Path (Ext ℝ))
    (h : m.path bvh heap ⟨false⟩ src dst = .ok (some p)) (h' : m.path bvh heap' ⟨true⟩ src dst = .ok (some p')) :
    (p'.length <=. p.length) = true ∧ (Spaced m start goal → p'.length = p.length) := by
  obtain ⟨s, e, l1, l2, ws, k1, k2, k3, k4⟩ := C54_shortest bvh heap hmax ⟨false⟩ rfl m hsize hc src dst start goal hsrc hdst hs
    he hnav hm p h
  obtain ⟨s', e', l1', l2', ⟨ws', x, j1, j2, j3, -, j4⟩, hsp⟩ := C76_shortest bvh heap' hmax' ⟨true⟩ rfl m hone hsize hc src dst
    start goal hsrc hdst hs he hnav hm p' h'
  obtain rfl : s' = s := by
    have := (endpointPolygon_located.2 l1').symm.trans (endpointPolygon_located.2 l1)
    simpa using this
  obtain rfl : e' = e := by
    have := (endpointPolygon_located.2 l2').symm.trans (endpointPolygon_located.2 l2)
    simpa using this
  refine ⟨?_, fun hsp' => ?_⟩
  · rw [j3, k2]
    exact (ExactField.le x _).2 (j4 ws k3)
  · obtain ⟨ws2, i1, i2, i3, i4⟩ := hsp hsp'
    rw [i2, k2, le_antisymm (i4 ws k3) (k4 ws2 i3)]

/-- **C76** (paths are found). With `detailed-layers`, under the conditions of C56: every `get_path` future resolves, and the
path follows a shortest walk. -/
theorem C76_found (bvh : Bvh (Ext ℝ)) (hb : bvh.InRange) (heap : Heap (Ext ℝ)) (hmax : heap.Max) (cfg : Cfg)
    (hcfg : cfg.detailed = true) (m : Mesh (Ext ℝ)) (hone : m.Unscaled) (hwf : m.WF cfg) (hnan : m.NoNan) (hc : Conforming m)
    (hisl : m.IslandsTrue) (start goal : Vec2 ℝ) (s e : UInt32)
    (hls : m.getPointLocation bvh (Coords.onMesh start.fin) = .ok s) (hsm : s ≠ u32Max)
    (hle : m.getPointLocation bvh (Coords.onMesh goal.fin) = .ok e) (hem : e ≠ u32Max)
    (hs : InPolygon m s start) (hnav : Navigable m s start e goal) (he : InPolygon m e goal)
    (hm : NoNearMiss m start goal) (hlink : ∀ r, LinkedAt m r) (hstart : NotEnclosed m start)
    (hbends : ∀ r, BendPoint m [] r → NotEnclosed m r)
    (ws : List (Vec2 ℝ)) (hw : Walk m s start e goal ws) :
    ∃ p ws', Resolves bvh heap cfg m (Mesh.getPath start.fin goal.fin) (some p) ∧ p.path = ws'.map Vec2.fin ∧
      ShortestWalk m s start e goal ws' ∧ (Spaced m start goal → ShortestPath m s start e goal p) := by
  obtain ⟨r, hr⟩ := C56_resolves bvh hb heap cfg m (fun _ => hone) hwf hnan hc start goal hm
    (fun s' h' _ => by rw [hls] at h'; cases h'; exact hs) (noCircle_of_notEnclosed hc hnav (hlink _) hstart)
    (fun r hr => noCircle_of_notEnclosed hc hnav (hlink r) (hbends r hr))
  obtain ⟨p, ws', x, rfl, h1, h2, -, -, -, h3⟩ := C76_future bvh heap hmax cfg hcfg m hone hc hisl start goal s e hls hsm hle hem
    hs hnav he hm ws hw r hr
  exact ⟨p, ws', hr, h1, h2, h3⟩

end Polyanya
