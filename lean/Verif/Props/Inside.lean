import Verif.Proofs.Sees
import Verif.Proofs.Found
/-
Property C53: in exact arithmetic, in a mesh of strictly convex polygons that share their edges, and when no
comparison with a tolerance is a near miss, the returned path stays inside the mesh: consecutive waypoints
are joined by straight lines that go through polygons of the mesh.
-/

namespace Polyanya

variable {F : Type} [Field F] [LinearOrder F] [Scalar F] [ExactField F] [IsStrictOrderedRing F]

/-- Mirroring a point of the line changes nothing. -/
theorem fin_mirror_self {a b g : Vec2 F} (hab : a ≠ b) (hg : tri a b g = 0) :
    mirror g.fin (a.fin, b.fin) = g.fin := by
  obtain ⟨k, rfl⟩ := on_line hab hg
  have hne := sq_ne_zero hab
  have hdiv : ∀ x : F, x ≠ 0 → (Scalar.lit 1 0 /. Ext.fin x : Ext F) = Ext.fin (1 / x) := by
    intro x hx
    rw [ext_one]
    change (if (x ==. Scalar.lit 0 0) = true then _ else Ext.fin (1 /. x)) = _
    rw [if_neg, ExactField.div]
    rw [ExactField.eq, ExactField.lit]
    simpa using hx
  have hproj : (Vec2.projectOnto (⟨k * (b.x - a.x), k * (b.y - a.y)⟩ : Vec2 F).fin
      (⟨b.x - a.x, b.y - a.y⟩ : Vec2 F).fin) = (⟨k * (b.x - a.x), k * (b.y - a.y)⟩ : Vec2 F).fin := by
    have hdot : ∀ p q : Vec2 F, p.fin.dot q.fin = Ext.fin (p.x * q.x + p.y * q.y) := by
      intro p q
      simp only [← ExactField.add, ← ExactField.mul]
      rfl
    have hsm : ∀ (p : Vec2 F) (c : F), p.fin.smul (Ext.fin c) = (⟨p.x * c, p.y * c⟩ : Vec2 F).fin := by
      intro p c
      simp only [← ExactField.mul]
      rfl
    unfold Vec2.projectOnto
    rw [hdot, hdot, hsm, hdiv _ hne, hsm]
    congr 1
    simp only [Vec2.mk.injEq]
    have hk := mul_inv_cancel₀ hne
    rw [one_div]
    generalize ((b.x - a.x) * (b.x - a.x) + (b.y - a.y) * (b.y - a.y))⁻¹ = i at hk
    constructor
    · linear_combination (b.x - a.x) * k * hk
    · linear_combination (b.y - a.y) * k * hk
  unfold mirror
  simp only
  rw [fin_sub, fin_sub]
  have e1 : (⟨(along a b k).x - a.x, (along a b k).y - a.y⟩ : Vec2 F)
      = ⟨k * (b.x - a.x), k * (b.y - a.y)⟩ := by
    simp only [along, Vec2.mk.injEq]; constructor <;> ring
  rw [e1, hproj]
  have hls : ∀ (p : Vec2 F), Vec2.lsmul (Scalar.lit 2 0 : Ext F) p.fin = (⟨2 * p.x, 2 * p.y⟩ : Vec2 F).fin := by
    intro p
    rw [ext_lit]
    norm_num
    simp only [← ExactField.mul]
    rfl
  rw [hls, fin_sub, fin_add]
  congr 1
  simp only [along, Vec2.mk.injEq]
  constructor <;> ring

/-- In a node that enters the polygon of the goal, the turning point is an end of the interval, or the goal is seen from the
root through the interval. -/
theorem nodeGeo_turn {m : Mesh (Ext F)} {start goal : Vec2 F} (hc : Conforming m)
    (hm : NoNearMiss m start goal) {src : UInt32} {n : SearchNode (Ext F)}
    {r a b A B : Vec2 F} {s t : F} (hg : NodeGeo m src start n r a b A B s t)
    (hv : n.crossing.Valid m) (hin : InPolygon m n.polygonTo goal) {inst : Inst (Ext F)}
    (hgoal : inst.goal = goal.fin) :
    (∃ w, Between a b w ∧ turningPoint n.root inst.goal n.interval = some w.fin) ∨
    (turningPoint n.root inst.goal n.interval = none ∧ ∃ y, Between a b y ∧ Between r goal y) := by
  obtain ⟨ps, k, hring, hconv, hcons, hfan⟩ := hc.fan hv hg.at_
  have hview := hg.view hm hring hfan
  obtain ⟨ps', hr', hins⟩ := hin
  obtain rfl := hr'.unique hring
  have hins' := (inside_rotate k).2 hins
  have hts : 0 < t - s := by linarith [hg.st]
  have e1 : tri a b r = (t - s) * tri A B r := by rw [hg.ha, hg.hb, tri_along₂]
  have e2 : tri a b goal = (t - s) * tri A B goal := by rw [hg.ha, hg.hb, tri_along₂]
  have h1 : 0 ≤ tri a b r := by rw [e1]; exact mul_nonneg hts.le hg.hr
  have h2 : tri a b goal ≤ 0 := by
    rw [e2]; exact mul_nonpos_of_nonneg_of_nonpos hts.le (hfan.base_nonpos hins')
  have fr := hm.flat r A B a b r hg.eye hg.sightA hg.sightB (.inl rfl)
  have fg := hm.flat r A B a b goal hg.eye hg.sightA hg.sightB (.inr rfl)
  have hAB : A ≠ B := by
    rintro rfl
    have hlen := hfan.len
    have := hconv.rotate k |>.injective hfan.first hfan.last
    omega
  have hab : a ≠ b := by
    intro hab
    have : along A B s = along A B t := by rw [← hg.ha, ← hg.hb, hab]
    simp only [along, Vec2.mk.injEq] at this
    apply hAB
    rw [Vec2.ext_iff']
    constructor
    · have : (t - s) * (B.x - A.x) = 0 := by linear_combination -this.1
      linarith [(mul_eq_zero.1 this).resolve_left hts.ne']
    · have : (t - s) * (B.y - A.y) = 0 := by linear_combination -this.2
      linarith [(mul_eq_zero.1 this).resolve_left hts.ne']
  have hmirror : mirroredGoal r.fin goal.fin (a.fin, b.fin) = goal.fin := by
    unfold mirroredGoal
    split
    · rename_i hside
      apply fin_mirror_self hab
      rcases h2.lt_or_eq with h2 | h2
      · rw [(fin_side_right fg).2 h2, fin_side_right fr] at hside
        exact absurd hside (not_lt.2 h1)
      · exact h2
    · rfl
  have sA := hm.sides r A B a goal hg.eye hg.sightA (.inr rfl)
  have sB := hm.sides r A B b goal hg.eye hg.sightB (.inr rfl)
  have htp : turningPoint n.root inst.goal n.interval =
      if r.fin.beq a.fin = true then none
      else if side goal.fin (r.fin, a.fin) = .right then some a.fin
      else if side goal.fin (r.fin, b.fin) = .left then some b.fin else none := by
    rw [hg.root, hg.interval, hgoal]
    unfold turningPoint
    simp only
    rw [hmirror]
  split at htp
  · rename_i hra
    rw [fin_beq] at hra
    exact .inr ⟨htp, a, Between.left _ _, hra ▸ Between.left _ _⟩
  · split at htp
    · exact .inl ⟨a, Between.left _ _, htp⟩
    · rename_i hA
      rw [fin_side_right sA, not_lt] at hA
      split at htp
      · exact .inl ⟨b, Between.right _ _, htp⟩
      · rename_i hB
        rw [fin_side_left sB, not_lt] at hB
        exact .inr ⟨htp, hview.sees hg.flat hins' hA hB⟩

/-- From a node that enters the polygon of the goal, the walk goes on to the goal. -/
theorem nodeGeo_end {m : Mesh (Ext F)} {start goal : Vec2 F} (hc : Conforming m)
    (hm : NoNearMiss m start goal) {src : UInt32} {n : SearchNode (Ext F)}
    {r a b A B : Vec2 F} {s t : F} (hg : NodeGeo m src start n r a b A B s t)
    (hv : n.crossing.Valid m) (hin : InPolygon m n.polygonTo goal) {inst : Inst (Ext F)}
    (hgoal : inst.goal = goal.fin) :
    ∃ ws, n.path ++ (pathEnd inst n).map (·.1) = ws.map Vec2.fin
      ∧ Walk m src start n.polygonTo goal ws := by
  obtain ⟨ws, pr, hpath, hwalk, hstr, -⟩ := hg.walk
  rcases nodeGeo_turn hc hm hg hv hin hgoal with ⟨w, hw, ht⟩ | ⟨ht, y, hy, hry⟩
  · have hwin : InPolygon m n.polygonTo w := (hstr w hw).dst_in
    refine ⟨ws ++ [w] ++ [goal], ?_, (hwalk.snoc (hstr w hw)).snoc (.stay hwin hin)⟩
    unfold pathEnd
    rw [ht, hpath, hgoal]
    simp
  · refine ⟨ws ++ [goal], ?_, hwalk.snoc ((hstr y hy).extend hry hin)⟩
    unfold pathEnd
    rw [ht, hpath, hgoal]
    simp

/-- A found path is a walk. -/
theorem foundBy_walk {q : Query (Ext F)} {start goal : Vec2 F} (hc : Conforming q.mesh)
    (hm : NoNearMiss q.mesh start goal) (hd : q.dst.2 ≠ u32Max) (hsrc : q.src.1 = start.fin)
    (hdst : q.dst.1 = goal.fin) (hs : InPolygon q.mesh q.src.2 start)
    (he : InPolygon q.mesh q.dst.2 goal) {p : Path (Ext F)} (h : FoundBy q p) :
    ∃ ws, p.path = ws.map Vec2.fin ∧ Walk q.mesh q.src.2 start q.dst.2 goal ws := by
  obtain ⟨inst, n, hi, hgen, hto, hp⟩ := h
  obtain ⟨h1, -, -⟩ := foundPath_shape hp
  obtain ⟨r, a, b, A, B, s, t, hg⟩ := gen_geo hc hm hd hsrc hs hgen
  obtain ⟨cs, hinv⟩ := gen_inv hd hgen
  rw [← hto] at he
  obtain ⟨ws, hws, hw⟩ := nodeGeo_end hc hm hg hinv.valid he (hi.goal.trans hdst)
  exact ⟨ws, h1.trans hws, hto ▸ hw⟩

/-- **C53** (synchronous queries). The mesh is made of strictly convex polygons that share their edges, the
start and the goal are in the polygons where they are located, and no comparison with a tolerance is a near
miss. Then the path that is returned stays in the mesh, for any choice of blocked layers, of the heap's
tie-breaks and with or without `detailed-layers`. -/
theorem C53_path_inside (bvh : Bvh (Ext F)) (heap : Heap (Ext F)) (cfg : Cfg) (m : Mesh (Ext F))
    (hsize : m.Sized) (hc : Conforming m) (src dst : Coords (Ext F)) (start goal : Vec2 F)
    (hsrc : src.pos = start.fin) (hdst : dst.pos = goal.fin)
    (hs : ∀ s, Located m bvh src s → InPolygon m s start)
    (he : ∀ e, Located m bvh dst e → InPolygon m e goal)
    (hm : NoNearMiss m start goal) (blocked : List UInt8) (p : Path (Ext F))
    (h : m.pathOnLayers bvh heap cfg src dst blocked = .ok (some p)) :
    ∃ s e ws, Located m bvh src s ∧ Located m bvh dst e ∧ p.path = ws.map Vec2.fin
      ∧ Walk m s start e goal ws := by
  obtain ⟨s, e, h1, h2, h3⟩ := pathOnLayers_some h
  have hls := endpointPolygon_located.1 h1
  have hle := endpointPolygon_located.1 h2
  refine ⟨s, e, ?_⟩
  rcases pathBetween_some h3 with ⟨rfl, rfl⟩ | ⟨-, hf⟩
  · exact ⟨[goal], hls, hle, by simp [hdst], .cons (.stay (hs _ hls) (he _ hle)) (.nil (he _ hle))⟩
  · obtain ⟨ws, hw1, hw2⟩ := foundBy_walk (q := ⟨cfg, m, (src.pos, s), (dst.pos, e), blocked⟩) hc hm
      (located_ne_max hsize hle) hsrc hdst (hs _ hls) (he _ hle) hf
    exact ⟨ws, hls, hle, hw1, hw2⟩

/-- **C53** (asynchronous queries). -/
theorem C53_async_inside (bvh : Bvh (Ext F)) (heap : Heap (Ext F)) (cfg : Cfg) (m : Mesh (Ext F))
    (hc : Conforming m) (start goal : Vec2 F)
    (hs : ∀ s, m.getPointLocation bvh (Coords.onMesh start.fin) = .ok s → s ≠ u32Max → InPolygon m s start)
    (he : ∀ e, m.getPointLocation bvh (Coords.onMesh goal.fin) = .ok e → e ≠ u32Max → InPolygon m e goal)
    (hm : NoNearMiss m start goal) (p : Path (Ext F))
    (h : Resolves bvh heap cfg m (Mesh.getPath start.fin goal.fin) (some p)) :
    ∃ s e ws, m.getPointLocation bvh (Coords.onMesh start.fin) = .ok s
      ∧ m.getPointLocation bvh (Coords.onMesh goal.fin) = .ok e ∧ p.path = ws.map Vec2.fin
      ∧ Walk m s start e goal ws := by
  obtain ⟨s, e, h1, h2, h3, h4, hcase⟩ := resolves_found h
  refine ⟨s, e, ?_⟩
  have is := hs s h1 h3
  have ie := he e h2 h4
  rcases hcase with ⟨rfl, rfl⟩ | ⟨-, hf⟩
  · exact ⟨[goal], h1, h2, by simp [straightPath], .cons (.stay is ie) (.nil ie)⟩
  · obtain ⟨ws, hw1, hw2⟩ := foundBy_walk (q := ⟨cfg, m, (start.fin, s), (goal.fin, e), []⟩) hc hm
      h4 rfl rfl is ie hf
    exact ⟨ws, h1, h2, hw1, hw2⟩

end Polyanya
