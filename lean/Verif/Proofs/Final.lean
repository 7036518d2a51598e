import Verif.Proofs.Cover
import Verif.Props.Inside
import Verif.Props.Length
/-
The estimate of a node is at most the length of the routes through it, and it is the length of the returned path
when the node enters the polygon of the goal.
-/

namespace Polyanya

variable {q : Query (Ext ℝ)} {start goal : Vec2 ℝ} {opt : ℝ} {n : SearchNode (Ext ℝ)}
  {y r a b A B : Vec2 ℝ} {s t g : ℝ}

/-- The setting without what only the search for a shortest path needs. -/
structure Exactly (q : Query (Ext ℝ)) (start goal : Vec2 ℝ) : Prop where
  conforming : Conforming q.mesh
  exact : NoNearMiss q.mesh start goal
  dst : q.dst.2 ≠ u32Max
  src : q.src.1 = start.fin
  goalAt : q.dst.1 = goal.fin
  src_in : InPolygon q.mesh q.src.2 start
  dst_in : InPolygon q.mesh q.dst.2 goal
  plain : q.cfg.detailed = true → q.mesh.Unscaled

theorem Setting.exactly (h : Setting q start goal) : Exactly q start goal :=
  ⟨h.conforming, h.exact, h.dst, h.src, h.goalAt, h.src_in, h.dst_in, h.plain⟩

theorem Exactly.known (h : Exactly q start goal) (hn : Gen q n) :
    ∃ r a b A B s t g, Known q start goal n r a b A B s t g := by
  obtain ⟨r, a, b, A, B, s, t, hg⟩ := gen_geo h.conforming h.exact h.dst h.src h.src_in hn
  obtain ⟨cs, hinv⟩ := gen_inv h.dst hn
  obtain ⟨ws, hp, -, hl⟩ := gen_length h.conforming h.exact h.dst h.src h.src_in h.plain hn
  obtain ⟨ws', pr, hp', h1, h2, h3, h4⟩ := hg.walk
  obtain rfl := map_fin_injective (hp.symm.trans hp')
  exact ⟨r, a, b, A, B, s, t, _, hn, hg, hinv.valid, hinv.prev, hl, ws, pr, rfl, h1, h2, h3, h4⟩

theorem Exactly.clear (hs : Exactly q start goal) {w C D i1 i2 : Vec2 ℝ}
    (hw : Eye q.mesh start w) (h1 : Sight q.mesh start w C D i1) (h2 : Sight q.mesh start w C D i2) :
    Clear i1 i2 w ∧ Clear i1 i2 goal := by
  constructor
  · by_cases h : |tri i1 i2 w| < 1 / 10000
    · exact .inl (hs.exact.flat w C D i1 i2 w hw h1 h2 (.inl rfl) h)
    · exact .inr (not_lt.1 h)
  · by_cases h : |tri i1 i2 goal| < 1 / 10000
    · exact .inl (hs.exact.flat w C D i1 i2 goal hw h1 h2 (.inr rfl) h)
    · exact .inr (not_lt.1 h)

namespace Known

theorem edge_ne (hs : Exactly q start goal) (h : Known q start goal n r a b A B s t g) : A ≠ B := by
  obtain ⟨ps, k, hring, hconv, hcons, hfan⟩ := hs.conforming.fan h.valid h.geo.at_
  rintro rfl
  have hlen := hfan.len
  have := hconv.rotate k |>.injective hfan.first hfan.last
  omega

theorem ab (hs : Exactly q start goal) (h : Known q start goal n r a b A B s t g) : a ≠ b := by
  rw [h.geo.ha, h.geo.hb]
  exact along_ne (h.edge_ne hs) h.geo.st.ne

/-- The heuristic of a node. -/
theorem heuristic_eq (hs : Exactly q start goal) (h : Known q start goal n r a b A B s t g) :
    n.heuristic = Ext.fin (heuristic r goal (a, b)) := by
  rw [gen_heuristic hs.plain h.gen, h.geo.root, h.geo.interval, hs.goalAt]
  obtain ⟨c1, c2⟩ := hs.clear h.geo.eye h.geo.sightA h.geo.sightB
  exact fin_heuristic (h.ab hs) c1 c2

theorem estimate (hs : Exactly q start goal) (h : Known q start goal n r a b A B s t g) :
    (n.distanceStartToRoot +. n.heuristic : Ext ℝ) = Ext.fin (g + heuristic r goal (a, b)) := by
  rw [h.length, h.heuristic_eq hs]
  rfl

end Known

/-- The estimate of a node on a shortest route. -/
theorem Cover.estimate_le (hs : Exactly q start goal) {rs : List (Crossing × Vec2 ℝ)}
    (h : Cover q start goal opt n rs y r a b A B s t g) : g + heuristic r goal (a, b) ≤ opt := by
  obtain ⟨c1, c2⟩ := hs.clear h.known.geo.eye h.known.geo.sightA h.known.geo.sightB
  have h1 : heuristic r goal (a, b) ≤ dist2 r y + dist2 y goal := by
    refine heuristic_le c1 c2 ?_
    obtain ⟨u, u0, u1, hu⟩ := h.mid
    exact ⟨u, u0, u1, hu⟩
  have h2 := routeLen_ge y goal rs
  linarith [h.cost]

theorem fin_turningPoint {a b r g : Vec2 ℝ} (hab : a ≠ b) :
    turningPoint r.fin g.fin (a.fin, b.fin) = (turningPoint r g (a, b)).map Vec2.fin := by
  unfold turningPoint
  simp only
  rw [fin_mirroredGoal hab, fin_side', fin_side']
  have e1 : r.fin.beq a.fin = r.beq a := rfl
  rw [e1]
  split
  · rfl
  · split
    · rfl
    · split <;> rfl

/-- On the last leg, the estimate is the length of the polyline root, turning point, destination. -/
theorem Known.last_leg (hs : Exactly q start goal) (h : Known q start goal n r a b A B s t g)
    (hto : n.polygonTo = q.dst.2) :
    heuristic r goal (a, b) = polyLen (r :: (turningPoint r goal (a, b)).toList ++ [goal]) := by
  obtain ⟨ps, k, hring, hconv, hcons, hfan⟩ := hs.conforming.fan h.valid h.geo.at_
  have hin := hs.dst_in
  rw [← hto] at hin
  obtain ⟨ps', hr', hins⟩ := hin
  obtain rfl := hr'.unique hring
  have hins' := (inside_rotate k).2 hins
  have hg := h.geo
  have hts : 0 < t - s := by linarith [hg.st]
  have e1 : tri a b r = (t - s) * tri A B r := by rw [hg.ha, hg.hb, tri_along₂]
  have e2 : tri a b goal = (t - s) * tri A B goal := by rw [hg.ha, hg.hb, tri_along₂]
  have h1 : 0 ≤ tri a b r := by rw [e1]; exact mul_nonneg hts.le hg.hr
  have h2 : tri a b goal ≤ 0 := by
    rw [e2]; exact mul_nonpos_of_nonneg_of_nonpos hts.le (hfan.base_nonpos hins')
  have hab := h.ab hs
  obtain ⟨c1, c2⟩ := hs.clear hg.eye hg.sightA hg.sightB
  have sA := hs.exact.sides r A B a goal hg.eye hg.sightA (.inr rfl)
  have sB := hs.exact.sides r A B b goal hg.eye hg.sightB (.inr rfl)
  have cA : ¬ (-(1 / 10000) < cross r a goal ∧ cross r a goal < 0) := by
    rintro ⟨g1, g2⟩
    have : cross r a goal = 0 := sA (by change |cross r a goal| < _; rw [abs_lt]; constructor <;> linarith)
    linarith
  have cB : ¬ (0 < cross r b goal ∧ cross r b goal < 1 / 10000) := by
    rintro ⟨g1, g2⟩
    have : cross r b goal = 0 := sB (by change |cross r b goal| < _; rw [abs_lt]; constructor <;> linarith)
    linarith
  have hreg : (1 / 10000 ≤ cross a b r ∧ cross a b goal < 1 / 10000) ∨
      (-(1 / 10000) < cross a b r ∧ cross a b goal ≤ -(1 / 10000)) → RegularLeg a b r goal :=
    fun h => ⟨h, cA, cB⟩
  have h1' : 0 ≤ cross a b r := h1
  have h2' : cross a b goal ≤ 0 := h2
  rcases c1 with c1 | c1
  · rcases c2 with c2 | c2
    · -- everything on the line of the edge
      have hr0 : tri a b r = 0 := c1
      have hg0 : tri a b goal = 0 := c2
      obtain ⟨ρ, hρ⟩ := on_line hab hr0
      obtain ⟨γ, hγ⟩ := on_line hab hg0
      have hm : mirroredGoal r goal (a, b) = goal := by
        unfold mirroredGoal
        split
        · have := fin_mirror_self hab hg0
          rw [fin_mirror hab] at this
          exact Vec2.fin_injective this
        · rfl
      have z1 : cross r a goal = 0 := by
        rw [hρ, hγ]; simp only [cross, along]; ring
      have z2 : cross r b goal = 0 := by
        rw [hρ, hγ]; simp only [cross, along]; ring
      have ht : turningPoint r goal (a, b) = none := by
        unfold turningPoint
        simp only
        rw [hm]
        split
        · rfl
        rw [if_neg (by rw [side_right]; linarith), if_neg (by rw [side_left]; linarith)]
      have hit : intersectionTime (r, goal) (a, b) = 0 := by
        rw [intersectionTime_eq, z1, zero_div]
      rw [ht]
      simp only [Option.toList_none, List.append_nil, List.cons_append, List.nil_append, polyLen]
      rcases heuristic_cases r goal a b with ⟨h, -⟩ | ⟨-, -, -, h⟩ | ⟨-, -, -, h⟩
      · rw [h, hm]; simp
      · rw [hm, hit] at h; linarith
      · rw [hm, hit] at h; linarith
    · refine heuristic_regular (hreg (.inr ⟨by linarith, ?_⟩))
      rw [abs_of_nonpos h2'] at c2
      linarith
  · refine heuristic_regular (hreg (.inl ⟨?_, by linarith⟩))
    rwa [abs_of_nonneg h1'] at c1

/-- The path found by a node that enters the polygon of the goal: it is a walk, and the length is its length. -/
theorem Known.final (hs : Exactly q start goal) (h : Known q start goal n r a b A B s t g)
    (hto : n.polygonTo = q.dst.2) {inst : Inst (Ext ℝ)} (hi : inst.goal = q.dst.1) {p : Path (Ext ℝ)}
    (hp : foundPath q.cfg q.mesh inst n = .ok p) :
    ∃ ws, p.path = ws.map Vec2.fin ∧ Walk q.mesh q.src.2 start q.dst.2 goal ws
      ∧ (q.cfg.detailed = false → p.length = Ext.fin (polyLen (start :: ws)))
      ∧ polyLen (start :: ws) = g + heuristic r goal (a, b) := by
  obtain ⟨h1, h2, -⟩ := foundPath_shape hp
  have hin := hs.dst_in
  rw [← hto] at hin
  obtain ⟨ws', hw1, hw2⟩ := nodeGeo_end hs.conforming hs.exact h.geo h.valid hin (hi.trans hs.goalAt)
  obtain ⟨ws, hws, hroot, hlen⟩ := gen_length hs.conforming hs.exact hs.dst hs.src hs.src_in hs.plain h.gen
  rw [h.geo.root] at hroot
  have hroot := Vec2.fin_injective hroot
  have hg : g = polyLen (start :: ws) := by
    have := h.length.symm.trans hlen
    simpa using this
  have hends : (pathEnd inst n).map (·.1) = ((turningPoint r goal (a, b)).toList ++ [goal]).map Vec2.fin := by
    unfold pathEnd
    rw [hi, hs.goalAt, h.geo.root, h.geo.interval, fin_turningPoint (h.ab hs)]
    cases turningPoint r goal (a, b) <;> simp
  have hws' : ws' = ws ++ ((turningPoint r goal (a, b)).toList ++ [goal]) := by
    apply map_fin_injective
    rw [← hw1, hws, hends]
    simp
  have hfin : polyLen (start :: ws') = g + heuristic r goal (a, b) := by
    rw [hws', hg, h.last_leg hs hto]
    have := polyLen_glue start r ws ((turningPoint r goal (a, b)).toList ++ [goal]) hroot.symm
    simpa using this
  refine ⟨ws', h1.trans hw1, hto ▸ hw2, fun hcfg => ?_, hfin⟩
  rw [(h2 hcfg).1, hfin]
  exact h.estimate hs

end Polyanya
