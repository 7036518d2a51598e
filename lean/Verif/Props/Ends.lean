import Verif.Proofs.Ends
import Verif.Proofs.Around
import Verif.Proofs.AsyncLocate
import Verif.Props.Inside
import Verif.Props.Walkable
import Verif.Props.Shortest
/-
C56: searches end when no point where a path can bend lies inside the walkable area.
-/

namespace Polyanya

/-- A future in the middle of a search resolves when the search ends. -/
theorem resolves_of_steps {K : Type} [Scalar K] {bvh : Bvh K} {heap : Heap K} {cfg : Cfg} {m : Mesh K} :
    ∀ (k : Nat) (f : FuturePath K) (inst i : Inst K) (x : Option (Path K)), f.instance? = some inst →
      pollSteps heap cfg m k inst = .ok (some x, i) → Resolves bvh heap cfg m f x := by
  intro k
  induction k using Nat.strong_induction_on with
  | _ k ih =>
    intro f inst i x hf h
    by_cases hk : k ≤ 3
    · have h3 := pollSteps_mono hk h
      refine .ready (f' := { f with instance? := some i }) ?_
      unfold FuturePath.poll
      rw [hf]
      simp only [h3, res_bind_ok]
    · obtain ⟨b, rfl⟩ := Nat.exists_eq_add_of_le (Nat.le_of_not_le hk)
      rw [pollSteps_add, bind_eq_ok] at h
      obtain ⟨⟨r, i1⟩, h1, h⟩ := h
      cases r with
      | some y =>
        simp only [Except.ok.injEq, Prod.mk.injEq, Option.some.injEq] at h
        obtain ⟨rfl, rfl⟩ := h
        refine .ready (f' := { f with instance? := some i1 }) ?_
        unfold FuturePath.poll
        rw [hf]
        simp only [h1, res_bind_ok]
      | none =>
        refine .pending (w := true) (f' := { f with instance? := some i1 }) ?_
          (ih b (by omega) _ i1 i x rfl h)
        unfold FuturePath.poll
        rw [hf]
        simp only [h1, res_bind_ok]

/-- **C56** (searches end). In exact arithmetic, on a mesh of convex polygons without near misses, when one cannot
walk around the start or around a corner of the outline at which paths bend, every `get_path` future resolves when
polled often enough. With `detailed-layers` this is for meshes with the default scales. -/
theorem C56_resolves (bvh : Bvh (Ext ℝ)) (hb : bvh.InRange) (heap : Heap (Ext ℝ)) (cfg : Cfg)
    (m : Mesh (Ext ℝ)) (hcfg : cfg.detailed = true → m.Unscaled) (hwf : m.WF cfg) (hnan : m.NoNan) (hc : Conforming m)
    (start goal : Vec2 ℝ) (hm : NoNearMiss m start goal)
    (hs : ∀ s, m.getPointLocation bvh (Coords.onMesh start.fin) = .ok s → s ≠ u32Max → InPolygon m s start)
    (haround : NoCircle m start) (hbends : ∀ r, BendPoint m [] r → NoCircle m r) :
    ∃ r, Resolves bvh heap cfg m (Mesh.getPath start.fin goal.fin) r := by
  obtain ⟨x, f', hp⟩ := C10_poll bvh heap cfg m start.fin goal.fin hb hwf hnan _ .refl
  cases x with
  | ready r => exact ⟨r, .ready hp⟩
  | pending w =>
    have hp' := hp
    unfold FuturePath.poll Mesh.getPath at hp
    simp only [bind_eq_ok] at hp
    obtain ⟨s, hls, hp⟩ := hp
    split at hp
    · simp at hp
    rename_i hsm
    simp only [bind_eq_ok] at hp
    obtain ⟨e, hle, hp⟩ := hp
    split at hp
    · simp at hp
    rename_i hem
    simp only [bind_eq_ok] at hp
    obtain ⟨b, -, hp⟩ := hp
    split at hp
    · simp at hp
    split at hp
    · simp at hp
    simp only [bind_eq_ok, Except.ok.injEq, Prod.mk.injEq] at hp
    obtain ⟨inst, hset, -, rfl⟩ := hp
    have hS : EndSetting ⟨cfg, m, (start.fin, s), (goal.fin, e), []⟩ start goal :=
      ⟨hc, hm, hem, rfl, hs s hls hsm, hcfg, haround, hbends⟩
    have hG : GoodQuery (K := Ext ℝ) ⟨cfg, m, (start.fin, s), (goal.fin, e), []⟩ :=
      ⟨hwf, hnan, getPointLocation_hasPolygon hwf hls hsm, getPointLocation_hasPolygon hwf hle hem⟩
    obtain ⟨Q, hQ⟩ := setup_waits hS hset
    obtain ⟨k, x, i, hk⟩ := search_ends hS (heap := heap) (fun inst hi => safe_next hG hi) Q inst hQ
    exact ⟨x, .pending hp' (resolves_of_steps k _ inst i x rfl hk)⟩

/-- **C56** (paths are found). In exact arithmetic, on a navigable mesh of convex polygons without near misses, whose
corners at which paths bend are not enclosed by walkable area, from a start that is not enclosed either: if there is a
walk between the located polygons, then every `get_path` future resolves, with a shortest path. -/
theorem C56_found (bvh : Bvh (Ext ℝ)) (hb : bvh.InRange) (heap : Heap (Ext ℝ)) (hmax : heap.Max) (cfg : Cfg)
    (hcfg : cfg.detailed = false) (m : Mesh (Ext ℝ)) (hwf : m.WF cfg) (hnan : m.NoNan) (hc : Conforming m)
    (hisl : m.IslandsTrue) (start goal : Vec2 ℝ) (s e : UInt32)
    (hls : m.getPointLocation bvh (Coords.onMesh start.fin) = .ok s) (hsm : s ≠ u32Max)
    (hle : m.getPointLocation bvh (Coords.onMesh goal.fin) = .ok e) (hem : e ≠ u32Max)
    (hs : InPolygon m s start) (hnav : Navigable m s start e goal) (he : InPolygon m e goal)
    (hm : NoNearMiss m start goal) (hlink : ∀ r, LinkedAt m r) (hstart : NotEnclosed m start)
    (hbends : ∀ r, BendPoint m [] r → NotEnclosed m r)
    (ws : List (Vec2 ℝ)) (hw : Walk m s start e goal ws) :
    ∃ p, Resolves bvh heap cfg m (Mesh.getPath start.fin goal.fin) (some p) ∧ ShortestPath m s start e goal p := by
  obtain ⟨r, hr⟩ := C56_resolves bvh hb heap cfg m (plain_of hcfg) hwf hnan hc start goal hm
    (fun s' h' _ => by rw [hls] at h'; cases h'; exact hs) (noCircle_of_notEnclosed hc hnav (hlink _) hstart)
    (fun r hr => noCircle_of_notEnclosed hc hnav (hlink r) (hbends r hr))
  obtain ⟨p, rfl, hp⟩ := C54_future bvh heap hmax cfg hcfg m hc hisl start goal s e hls hsm hle hem hs hnav he hm ws hw
    r hr
  exact ⟨p, hr, hp⟩

/-- **C56** (end to end). The same for any two points of the first layer, however they are located. -/
theorem C56_get_path (bvh : Bvh (Ext ℝ)) (hb : bvh.Complete) (heap : Heap (Ext ℝ)) (hmax : heap.Max) (cfg : Cfg)
    (hcfg : cfg.detailed = false) (m : Mesh (Ext ℝ)) (hwf : m.WF cfg) (hnan : m.NoNan) (hsea : m.Searchable)
    (hc : Conforming m) (hisl : m.IslandsTrue) (start goal : Vec2 ℝ)
    (hs : InLayer m 0 start) (hg : InLayer m 0 goal) (h1 : Sharp m start) (h2 : Sharp m goal)
    (hnav : ∀ s e, InPolygon m s start → InPolygon m e goal → Navigable m s start e goal)
    (hm : NoNearMiss m start goal) (hlink : ∀ r, LinkedAt m r) (hstart : NotEnclosed m start)
    (hbends : ∀ r, BendPoint m [] r → NotEnclosed m r)
    (hw : ∀ s e, InPolygon m s start → InPolygon m e goal → ∃ ws, Walk m s start e goal ws) :
    ∃ p s e, Resolves bvh heap cfg m (Mesh.getPath start.fin goal.fin) (some p) ∧ InPolygon m s start
      ∧ InPolygon m e goal ∧ ShortestPath m s start e goal p := by
  obtain ⟨s, ls, sm, is⟩ := location_first hb hsea hc h1 hs
  obtain ⟨e, le, em, ie⟩ := location_first hb hsea hc h2 hg
  obtain ⟨ws, hws⟩ := hw s e is ie
  obtain ⟨p, hp, hsp⟩ := C56_found bvh hb.inRange heap hmax cfg hcfg m hwf hnan hc hisl start goal s e ls sm le em is
    (hnav s e is ie) ie hm hlink hstart hbends ws hws
  exact ⟨p, s, e, hp, is, ie, hsp⟩

/-- **C53** for `get_path`: the path between two points of the first layer stays in the mesh. -/
theorem C53_get_path {F : Type} [Field F] [LinearOrder F] [Scalar F] [ExactField F] [IsStrictOrderedRing F]
    (bvh : Bvh (Ext F)) (hb : bvh.Complete) (heap : Heap (Ext F)) (cfg : Cfg) (m : Mesh (Ext F))
    (hsea : m.Searchable) (hc : Conforming m) (start goal : Vec2 F)
    (hs : InLayer m 0 start) (hg : InLayer m 0 goal) (h1 : Sharp m start) (h2 : Sharp m goal)
    (hm : NoNearMiss m start goal) (p : Path (Ext F))
    (h : Resolves bvh heap cfg m (Mesh.getPath start.fin goal.fin) (some p)) :
    ∃ ws, p.path = ws.map Vec2.fin ∧ (start :: ws).getLast? = some goal ∧ Walkable m start ws := by
  obtain ⟨s, ls, sm, is⟩ := location_first hb hsea hc h1 hs
  obtain ⟨e, le, em, ie⟩ := location_first hb hsea hc h2 hg
  obtain ⟨s', e', ws, -, -, hp, hw⟩ := C53_async_inside bvh heap cfg m hc start goal
    (fun s' h' _ => by rw [ls] at h'; cases h'; exact is) (fun e' h' _ => by rw [le] at h'; cases h'; exact ie) hm p h
  exact ⟨ws, hp, hw.last, hw.walkable hc⟩

end Polyanya
