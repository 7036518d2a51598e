import Verif.Props.Shortest
import Verif.Props.Detailed
import Verif.Proofs.Ends
import Verif.Spec.Metric
/-
C61: on navigable meshes path lengths are a distance: symmetric, with the triangle inequality, and zero for equal
points only.
-/

namespace Polyanya

variable {m : Mesh (Ext ℝ)}

theorem Straight.reverse (hc : Conforming m) (ht : TwoWay m) {s e : UInt32} {p q : Vec2 ℝ} (h : Straight m s p e q) :
    Straight m e q s p := by
  induction h with
  | stay h1 h2 => exact .stay h2 h1
  | @cross c e p y q A B hp hv hat hb hpq hrest ih =>
    obtain ⟨c', h1, h2, h3, h4⟩ := ht c hv A B hat
    have h5 := ih.snoc h2 h1 h4 hb.symm (h3 ▸ hc.leaves hv hat hb)
    rw [h3] at h5
    exact h5.extend hpq.symm hp

theorem Walk.reverse (hc : Conforming m) (ht : TwoWay m) {s e : UInt32} {p q : Vec2 ℝ} {ws : List (Vec2 ℝ)}
    (h : Walk m s p e q ws) : ∃ ws', Walk m e q s p ws' ∧ polyLen (q :: ws') = polyLen (p :: ws) := by
  induction h with
  | nil h => exact ⟨[], .nil h, rfl⟩
  | @cons s s' e p w q ws hst hw ih =>
    obtain ⟨ws', h1, h2⟩ := ih
    have h3 : Walk m s' w s p [p] := .cons (hst.reverse hc ht) (.nil hst.src_in)
    obtain ⟨h4, h5⟩ := h1.append h3
    refine ⟨_, h4, ?_⟩
    rw [h5, h2]
    simp only [polyLen, add_zero]
    rw [dist2_comm w p, add_comm]

theorem ExactQuery.shortest {bvh : Bvh (Ext ℝ)} {heap : Heap (Ext ℝ)} (hmax : heap.Max) {cfg : Cfg}
    (hsize : m.Sized) (hc : Conforming m) {a b : Coords (Ext ℝ)} {start goal : Vec2 ℝ} (hcfg : cfg.Plain m start goal)
    {s e : UInt32} (h : ExactQuery m bvh a start s b goal e) {p : Path (Ext ℝ)}
    (hp : m.path bvh heap cfg a b = .ok (some p)) : ShortestPath m s start e goal p := by
  have hu : ∀ (c : Coords (Ext ℝ)) x y, Located m bvh c x → Located m bvh c y → x = y := by
    intro c x y h1 h2
    have := (endpointPolygon_located.2 h1).symm.trans (endpointPolygon_located.2 h2)
    simpa using this
  obtain ⟨s', e', h1, h2, h3⟩ := C76_either_shortest bvh heap hmax cfg m hsize hc a b start goal hcfg h.start_pos h.goal_pos
    (fun x hx => hu a s x h.start_loc hx ▸ h.start_in) (fun x hx => hu b e x h.goal_loc hx ▸ h.goal_in)
    (fun x y hx hy => hu a s x h.start_loc hx ▸ hu b e y h.goal_loc hy ▸ h.navigable) h.noNearMiss p hp
  rw [hu a s s' h.start_loc h1, hu b e e' h.goal_loc h2]
  exact h3

/-- **C61** (symmetry). On a navigable mesh without one-way stitches the way back is as long as the way there. -/
theorem C61_symmetric (bvh : Bvh (Ext ℝ)) (heap heap' : Heap (Ext ℝ)) (hmax : heap.Max) (hmax' : heap'.Max) (cfg : Cfg)
    (m : Mesh (Ext ℝ)) (hsize : m.Sized) (hc : Conforming m) (ht : TwoWay m)
    (a b : Coords (Ext ℝ)) (start goal : Vec2 ℝ) (hcfg : cfg.Plain m start goal) (hcfg' : cfg.Plain m goal start)
    (s e : UInt32) (hab : ExactQuery m bvh a start s b goal e)
    (hba : ExactQuery m bvh b goal e a start s) (p p' : Path (Ext ℝ))
    (h : m.path bvh heap cfg a b = .ok (some p)) (h' : m.path bvh heap' cfg b a = .ok (some p')) :
    p.length = p'.length := by
  obtain ⟨ws, -, l1, w1, o1⟩ := hab.shortest hmax hsize hc hcfg h
  obtain ⟨ws', -, l2, w2, o2⟩ := hba.shortest hmax' hsize hc hcfg' h'
  obtain ⟨vs, r1, r2⟩ := w1.reverse hc ht
  obtain ⟨vs', r3, r4⟩ := w2.reverse hc ht
  have h1 := o1 vs' r3
  have h2 := o2 vs r1
  rw [l1, l2]
  congr 1
  linarith

/-- **C61** (the way back exists). If there is a path, then the reversed query returns one too, unless its steps are
used up. -/
theorem C61_way_back (bvh : Bvh (Ext ℝ)) (heap heap' : Heap (Ext ℝ)) (hmax : heap.Max) (hmax' : heap'.Max) (cfg : Cfg)
    (m : Mesh (Ext ℝ)) (hsize : m.Sized) (hc : Conforming m) (ht : TwoWay m)
    (hisl : m.layers.length = 1 → m.IslandsTrue)
    (a b : Coords (Ext ℝ)) (start goal : Vec2 ℝ) (hcfg : cfg.Plain m start goal) (hcfg' : cfg.Plain m goal start)
    (s e : UInt32) (hab : ExactQuery m bvh a start s b goal e)
    (hba : ExactQuery m bvh b goal e a start s) (p : Path (Ext ℝ)) (r : Option (Path (Ext ℝ)))
    (h : m.path bvh heap cfg a b = .ok (some p)) (h' : m.path bvh heap' cfg b a = .ok r) :
    (∃ p', r = some p' ∧ p'.length = p.length) ∨ (r = none ∧ BudgetUsedUp heap' cfg m b.pos a.pos e s) := by
  obtain ⟨ws, -, -, w1, -⟩ := hab.shortest hmax hsize hc hcfg h
  obtain ⟨vs, r1, -⟩ := w1.reverse hc ht
  rcases C76_either_complete bvh heap' hmax' cfg m hsize hc hisl b a goal start hcfg' hba.start_pos hba.goal_pos e s
    hba.start_loc hba.goal_loc hba.start_in hba.navigable hba.goal_in hba.noNearMiss vs r1 r h' with ⟨p', rfl, -⟩ | h
  · exact .inl ⟨p', rfl, (C61_symmetric bvh heap heap' hmax hmax' cfg m hsize hc ht a b start goal hcfg hcfg' s e hab hba p p'
      h h').symm⟩
  · exact .inr h

/-- **C61** (triangle inequality). Going over a third point is never shorter. -/
theorem C61_triangle (bvh : Bvh (Ext ℝ)) (heap : Heap (Ext ℝ)) (hmax : heap.Max) (cfg : Cfg)
    (m : Mesh (Ext ℝ)) (hsize : m.Sized) (hc : Conforming m)
    (a b c : Coords (Ext ℝ)) (x y z : Vec2 ℝ) (hxy : cfg.Plain m x y) (hyz : cfg.Plain m y z) (hxz : cfg.Plain m x z)
    (s t u : UInt32) (hab : ExactQuery m bvh a x s b y t)
    (hbc : ExactQuery m bvh b y t c z u) (hac : ExactQuery m bvh a x s c z u) (p q r : Path (Ext ℝ))
    (hp : m.path bvh heap cfg a b = .ok (some p)) (hq : m.path bvh heap cfg b c = .ok (some q))
    (hr : m.path bvh heap cfg a c = .ok (some r)) :
    ∃ lp lq lr : ℝ, p.length = .fin lp ∧ q.length = .fin lq ∧ r.length = .fin lr ∧ lr ≤ lp + lq := by
  obtain ⟨ws, -, l1, w1, -⟩ := hab.shortest hmax hsize hc hxy hp
  obtain ⟨ws', -, l2, w2, -⟩ := hbc.shortest hmax hsize hc hyz hq
  obtain ⟨ws'', -, l3, -, o3⟩ := hac.shortest hmax hsize hc hxz hr
  obtain ⟨h1, h2⟩ := w1.append w2
  exact ⟨_, _, _, l1, l2, l3, by rw [← h2]; exact o3 _ h1⟩

/-- **C61** (paths compose). If there is a path from `a` to `b` and one from `b` to `c`, then the query from `a` to `c`
returns one, unless its steps are used up. -/
theorem C61_compose (bvh : Bvh (Ext ℝ)) (heap : Heap (Ext ℝ)) (hmax : heap.Max) (cfg : Cfg)
    (m : Mesh (Ext ℝ)) (hsize : m.Sized) (hc : Conforming m)
    (hisl : m.layers.length = 1 → m.IslandsTrue)
    (a b c : Coords (Ext ℝ)) (x y z : Vec2 ℝ) (hxy : cfg.Plain m x y) (hyz : cfg.Plain m y z) (hxz : cfg.Plain m x z)
    (s t u : UInt32) (hab : ExactQuery m bvh a x s b y t)
    (hbc : ExactQuery m bvh b y t c z u) (hac : ExactQuery m bvh a x s c z u) (p q : Path (Ext ℝ))
    (hp : m.path bvh heap cfg a b = .ok (some p)) (hq : m.path bvh heap cfg b c = .ok (some q))
    (r : Option (Path (Ext ℝ))) (hr : m.path bvh heap cfg a c = .ok r) :
    (∃ p', r = some p') ∨ (r = none ∧ BudgetUsedUp heap cfg m a.pos c.pos s u) := by
  obtain ⟨ws, -, -, w1, -⟩ := hab.shortest hmax hsize hc hxy hp
  obtain ⟨ws', -, -, w2, -⟩ := hbc.shortest hmax hsize hc hyz hq
  obtain ⟨h1, -⟩ := w1.append w2
  rcases C76_either_complete bvh heap hmax cfg m hsize hc hisl a c x z hxz hac.start_pos hac.goal_pos s u
    hac.start_loc hac.goal_loc hac.start_in hac.navigable hac.goal_in hac.noNearMiss _ h1 r hr with ⟨p', rfl, -⟩ | h
  · exact .inl ⟨p', rfl⟩
  · exact .inr h

/-- **C61** (lengths separate points). The length is not negative, and it is zero only if the start is the goal. -/
theorem C61_zero (bvh : Bvh (Ext ℝ)) (heap : Heap (Ext ℝ)) (hmax : heap.Max) (cfg : Cfg)
    (m : Mesh (Ext ℝ)) (hsize : m.Sized) (hc : Conforming m)
    (a b : Coords (Ext ℝ)) (start goal : Vec2 ℝ) (hcfg : cfg.Plain m start goal) (s e : UInt32) (hab : ExactQuery m bvh a start s b goal e)
    (p : Path (Ext ℝ)) (h : m.path bvh heap cfg a b = .ok (some p)) :
    ∃ l : ℝ, p.length = .fin l ∧ dist2 start goal ≤ l ∧ (l = 0 → start = goal) ∧
      (s = e → l = dist2 start goal) := by
  obtain ⟨ws, -, l1, w1, o1⟩ := hab.shortest hmax hsize hc hcfg h
  obtain ⟨rs, -, hr⟩ := w1.route
  have h1 := routeLen_ge start goal rs
  refine ⟨_, l1, h1.trans hr, fun h0 => ?_, ?_⟩
  · have h2 : dist2 start goal = 0 := le_antisymm (by linarith) (dist2_nonneg _ _)
    exact dist2_eq_zero h2
  · rintro rfl
    have := o1 [goal] (.cons (.stay hab.start_in hab.goal_in) (.nil hab.goal_in))
    simp only [polyLen, add_zero] at this
    linarith

/-- **C61** (parts of shortest paths). After its first waypoint a returned path goes on along a shortest way to the
goal. -/
theorem C61_rest (bvh : Bvh (Ext ℝ)) (heap : Heap (Ext ℝ)) (hmax : heap.Max) (cfg : Cfg)
    (m : Mesh (Ext ℝ)) (hsize : m.Sized) (hc : Conforming m)
    (a b : Coords (Ext ℝ)) (start goal : Vec2 ℝ) (hcfg : cfg.Plain m start goal) (s e : UInt32) (hab : ExactQuery m bvh a start s b goal e)
    (p : Path (Ext ℝ)) (h : m.path bvh heap cfg a b = .ok (some p)) (w : Vec2 ℝ) (ws : List (Vec2 ℝ))
    (hp : p.path = (w :: ws).map Vec2.fin) :
    ∃ t, Straight m s start t w ∧ ShortestWalk m t w e goal ws := by
  obtain ⟨ws₀, hw, -, w1, o1⟩ := hab.shortest hmax hsize hc hcfg h
  obtain rfl : w :: ws = ws₀ := map_fin_injective (hp.symm.trans hw)
  cases w1 with
  | @cons _ t _ _ _ _ _ hst hrest =>
    refine ⟨t, hst, hrest, fun ws' hw' => ?_⟩
    have := o1 _ (.cons hst hw')
    simp only [polyLen] at this
    linarith

end Polyanya
