import Verif.Proofs.StraightOn
/-
There is a shortest route that passes by all vertices that are not flagged as corners.
-/

namespace Polyanya

variable {m : Mesh (Ext ℝ)} {v : Vec2 ℝ} {σ : ℝ}

/-! ### Turning around a vertex -/

/-- Turning around `v` from polygon `T` to polygon `Q`. -/
def Turns (m : Mesh (Ext ℝ)) (σ : ℝ) (v : Vec2 ℝ) : UInt32 → UInt32 → List (Crossing × Vec2 ℝ) → Prop
  | T, Q, [] => T = Q
  | T, Q, (e, b) :: es => e.src = T ∧ e.Valid m ∧ EndAt m σ e v b ∧ Turns m σ v e.dst Q es

theorem Spins.turns {q : Vec2 ℝ} : ∀ {es : List (Crossing × Vec2 ℝ)} {z : Vec2 ℝ} {T Q : UInt32},
    Spins m σ v q z T Q es → Turns m σ v T Q es ∧ ∀ x ∈ es, 0 < σ * tri v q x.2
  | [], _, _, _, h => ⟨h, by simp⟩
  | (e, b) :: es, _, _, _, ⟨h1, h2, h3, h4, _, h6⟩ => by
    obtain ⟨k1, k2⟩ := Spins.turns h6
    exact ⟨⟨h1, h2, h3, k1⟩, by simpa using ⟨h4, fun a b h => k2 (a, b) h⟩⟩

/-- Turning around `v` from the direction of `p` to the opposite direction of `q`. -/
theorem pass_spin (hc : Conforming m) (hsur : Surrounded m v) {P Q : UInt32} {ps ps' : List (Vec2 ℝ)} (hP : Ring m P ps)
    (hQ : Ring m Q ps') {b a b' a' p q : Vec2 ℝ} (cP : Corner ps v σ b a) (cQ : Corner ps' v σ b' a')
    (hp : Inside ps p) (hq : Inside ps' q) (hqa : 0 < σ * tri v q a') (hb : Between p q v) (hpv : p ≠ v) (hqv : q ≠ v) :
    ∃ es, Turns m σ v P Q es ∧ ∀ x ∈ es.tail, 0 < σ * tri v q x.2 := by
  obtain ⟨k, k0, hk⟩ : ∃ k, 0 < k ∧ p = along v q (-k) := by
    obtain ⟨u, u0, u1, hu⟩ := hb
    have h0 : 0 < u := lt_of_le_of_ne u0 (by rintro rfl; exact hpv (by rw [hu, along_zero]))
    have h1 : u < 1 := lt_of_le_of_ne u1 (by rintro rfl; exact hqv (by rw [hu, along_one]))
    have hd : 0 < 1 - u := by linarith
    refine ⟨u / (1 - u), by positivity, ?_⟩
    have hm := div_mul_cancel₀ u hd.ne'
    generalize u / (1 - u) = w at hm
    simp only [along, Vec2.ext_iff'] at hu ⊢
    constructor
    · have : (1 - u) * (p.x - (v.x + -w * (q.x - v.x))) = 0 := by
        linear_combination (q.x - v.x) * hm - hu.1
      linarith [(mul_eq_zero.1 this).resolve_left hd.ne']
    · have : (1 - u) * (p.y - (v.y + -w * (q.y - v.y))) = 0 := by
        linear_combination (q.y - v.y) * hm - hu.2
      linarith [(mul_eq_zero.1 this).resolve_left hd.ne']
  have e1 : ∀ x, σ * tri v x p = k * (σ * tri v q x) := by
    intro x; rw [hk]; simp only [tri, along]; ring
  have e2 : ∀ x, σ * tri v p x = -(k * (σ * tri v q x)) := by
    intro x; rw [hk]; simp only [tri, along]; ring
  obtain ⟨c1, c2⟩ := cP.cone hp
  rw [e1] at c1
  rw [e2] at c2
  have hqb : 0 ≤ σ * tri v q b := by
    by_contra hcon
    push Not at hcon
    have := mul_neg_of_pos_of_neg k0 hcon
    linarith
  have hqa' : σ * tri v q a ≤ 0 := by
    by_contra hcon
    push Not at hcon
    have := mul_pos k0 hcon
    linarith
  obtain ⟨e, he, hv, hat, ps2, b2, hr2, cT⟩ := spin_step hc hsur hP cP
  have hpos := cT.pos
  rcases eq_or_lt_of_le hqb with h0 | h0
  · -- the edge is in the direction of `p`
    have hs0 : σ ≠ 0 := by rcases cP.sign with rfl | rfl <;> norm_num
    obtain ⟨j, hj⟩ := on_line hqv.symm ((mul_eq_zero.1 h0.symm).resolve_left hs0)
    have f1 : σ * tri v b a = j * (σ * tri v q a) := by rw [hj]; simp only [tri, along]; ring
    have f2 : σ * tri v b2 b = - j * (σ * tri v q b2) := by rw [hj]; simp only [tri, along]; ring
    have hba := cP.pos
    rw [f1] at hba
    rw [f2] at hpos
    have hj0 : j < 0 := by
      by_contra hcon
      push Not at hcon
      have := mul_nonpos_of_nonneg_of_nonpos hcon hqa'
      linarith
    have hqb2 : 0 < σ * tri v q b2 := by
      by_contra hcon
      push Not at hcon
      have := mul_nonpos_of_nonneg_of_nonpos (show 0 ≤ -j by linarith) hcon
      linarith
    obtain ⟨es, hes⟩ := spin hc hsur hQ cQ (cQ.cone hq).1 hqa _ le_rfl hr2 cT (z := b2)
      ⟨by simp, cT.pos.le⟩ hqb2
    obtain ⟨t1, t2⟩ := hes.turns
    exact ⟨(e, b) :: es, ⟨he, hv, hat, t1⟩, t2⟩
  · obtain ⟨es, hes⟩ := spin hc hsur hQ cQ (cQ.cone hq).1 hqa _ le_rfl hr2 cT (z := b)
      ⟨hpos.le, by simp⟩ h0
    obtain ⟨t1, t2⟩ := hes.turns
    exact ⟨(e, b) :: es, ⟨he, hv, hat, t1⟩, t2⟩

namespace Turns

theorem drop {T Q : UInt32} {e : Crossing} {b : Vec2 ℝ} {es' : List (Crossing × Vec2 ℝ)} :
    ∀ {es : List (Crossing × Vec2 ℝ)} {T : UInt32}, Turns m σ v T Q (es ++ (e, b) :: es') → Turns m σ v e.dst Q es'
  | [], _, h => h.2.2.2
  | (_, _) :: _, _, h => drop (T := T) h.2.2.2

theorem simple {Q : UInt32} : ∀ (n : Nat) {es : List (Crossing × Vec2 ℝ)} {T : UInt32}, es.length ≤ n →
    Turns m σ v T Q es → ∃ es', Turns m σ v T Q es' ∧ (T :: es'.map (·.1.dst)).Nodup ∧ es' ⊆ es ∧ es'.tail ⊆ es.tail := by
  intro n
  induction n with
  | zero =>
    intro es T hn h
    obtain rfl := List.length_eq_zero_iff.1 (Nat.le_zero.1 hn)
    exact ⟨[], h, by simp, by simp, by simp⟩
  | succ n ih =>
    intro es T hn h
    by_cases hT : T ∈ es.map (·.1.dst)
    · obtain ⟨⟨e, b⟩, heb, hd⟩ := List.mem_map.1 hT
      obtain ⟨l1, l2, rfl⟩ := List.append_of_mem heb
      have h2 := h.drop (T := T)
      simp only at hd
      rw [hd] at h2
      obtain ⟨es', h3, h4, h5, h6⟩ := ih (by simp only [List.length_append, List.length_cons] at hn; omega) h2
      have hsub : l2 ⊆ (l1 ++ (e, b) :: l2).tail := by
        cases l1 with
        | nil => simp
        | cons x l1 =>
          intro y hy
          simp only [List.cons_append, List.tail_cons, List.mem_append, List.mem_cons]
          exact .inr (.inr hy)
      refine ⟨es', h3, h4, fun y hy => ?_, fun y hy => hsub (h5 (List.mem_of_mem_tail hy))⟩
      exact List.mem_of_mem_tail (hsub (h5 hy))
    · cases es with
      | nil => exact ⟨[], h, by simp, by simp, by simp⟩
      | cons eb es =>
        obtain ⟨e, b⟩ := eb
        obtain ⟨h1, h2, h3, h4⟩ := h
        obtain ⟨es', k1, k2, k3, -⟩ := ih (by simp only [List.length_cons] at hn; omega) h4
        refine ⟨(e, b) :: es', ⟨h1, h2, h3, k1⟩, ?_, List.cons_subset_cons _ k3, k3⟩
        simp only [List.map_cons]
        refine List.nodup_cons.2 ⟨?_, k2⟩
        intro hmem
        apply hT
        simp only [List.map_cons, List.mem_cons] at hmem ⊢
        refine hmem.imp id (fun h => ?_)
        obtain ⟨y, hy, hy'⟩ := List.mem_map.1 h
        exact List.mem_map.2 ⟨y, k3 hy, hy'⟩

theorem route (hc : Conforming m) {Q : UInt32} : ∀ {es : List (Crossing × Vec2 ℝ)} {T : UInt32}, Turns m σ v T Q es →
    InPolygon m T v → Route m T v Q v (es.map (fun x => (x.1, v)))
  | [], _, h, hv => by cases h; exact .nil hv hv
  | (e, b) :: es, _, ⟨h1, h2, h3, h4⟩, hv => by
    subst h1
    obtain ⟨A, B, hat, hb⟩ := h3.between (Between.left _ _)
    exact .cons hv h2 hat hb (route hc h4 (h3.entered hc h2 (Between.left _ _)))

theorem len (goal p : Vec2 ℝ) (rs : List (Crossing × Vec2 ℝ)) : ∀ (es : List (Crossing × Vec2 ℝ)),
    routeLen v goal (es.map (fun x => (x.1, v)) ++ rs) = routeLen v goal rs
  | [] => rfl
  | _ :: es => by
    simp only [List.map_cons, List.cons_append, routeLen, dist2_self, zero_add]
    exact len goal p rs es

/-- The polygons on the way are linked at the vertex. -/
theorem link (hc : Conforming m) {Q : UInt32} : ∀ {es : List (Crossing × Vec2 ℝ)} {T : UInt32}, Turns m σ v T Q es →
    InPolygon m T v → ∀ x ∈ T :: es.map (·.1.dst), Straight m T v x v
  | [], _, _, hv => by
    intro x hx
    simp only [List.map_nil, List.mem_singleton] at hx
    subst hx
    exact .stay hv hv
  | (e, b) :: es, _, ⟨h1, h2, h3, h4⟩, hv => by
    intro x hx
    subst h1
    rcases List.mem_cons.1 hx with rfl | hx
    · exact .stay hv hv
    · obtain ⟨A, B, hat, hb⟩ := h3.between (Between.left _ _)
      exact .cross hv h2 hat hb (Between.left _ _)
        (link hc h4 (h3.entered hc h2 (Between.left _ _)) x (by simpa using hx))

end Turns

theorem ahead_turns (goal : Vec2 ℝ) (rs : List (Crossing × Vec2 ℝ)) : ∀ (es : List (Crossing × Vec2 ℝ)),
    ahead v goal (es.map (fun x => (x.1, v)) ++ rs) = ahead v goal rs
  | [] => rfl
  | _ :: es => by
    simp only [List.map_cons, List.cons_append, ahead, if_true]
    exact ahead_turns goal rs es

/-- The route does not touch the ends on the other side first. -/
def Fits (m : Mesh (Ext ℝ)) (σ : ℝ) (rs : List (Crossing × Vec2 ℝ)) : Prop :=
  (σ = 1 → ¬ LeftFirst m rs) ∧ (σ = -1 → ¬ RightFirst m rs)

theorem calm_turns (hc : Conforming m) (hσ : σ = 1 ∨ σ = -1) {goal : Vec2 ℝ} {Q : UInt32} {rs : List (Crossing × Vec2 ℝ)}
    (hcalm : Calm m goal rs) (hfit : Fits m σ rs)
    (hend : ∀ c z rs' A B, rs = (c, z) :: rs' → c.At m A B → A ≠ v ∧ B ≠ v) :
    ∀ {es : List (Crossing × Vec2 ℝ)} {T : UInt32}, Turns m σ v T Q es →
    (∀ x ∈ es.tail, 0 < σ * tri v (ahead v goal rs) x.2) → Calm m goal (es.map (fun x => (x.1, v)) ++ rs) := by
  intro es
  induction es with
  | nil => intro _ _ _; exact hcalm
  | cons eb es ih =>
    obtain ⟨e, b⟩ := eb
    intro T h htail
    obtain ⟨h1, h2, h3, h4⟩ := h
    simp only [List.map_cons, List.cons_append]
    refine ⟨?_, ih h4 (fun x hx => htail x (List.mem_of_mem_tail hx))⟩
    simp only [List.tail_cons] at htail
    intro A B hat
    have hAB := hc.at_ne h2 hat
    rcases hσ with rfl | rfl
    · have hat' : e.At m v b := by
        rcases h3 with ⟨-, h⟩ | ⟨h, -⟩
        · exact h
        · norm_num at h
      obtain ⟨rfl, rfl⟩ := hat'.unique hat
      refine ⟨fun _ _ => ?_, fun hB => absurd hB hAB⟩
      rw [ahead_turns]
      cases es with
      | nil => exact ⟨hfit.1 rfl, fun c z rs' D hrs hD => absurd rfl (hend c z rs' _ D hrs hD).1⟩
      | cons eb2 es =>
        obtain ⟨e2, b2⟩ := eb2
        obtain ⟨-, hv2, h32, -⟩ := h4
        have hat2 : e2.At m A b2 := by
          rcases h32 with ⟨-, h⟩ | ⟨h, -⟩
          · exact h
          · norm_num at h
        have hne2 := hc.at_ne hv2 hat2
        constructor
        · simp only [List.map_cons, List.cons_append, LeftFirst]
          rintro (⟨A', hA'⟩ | ⟨hn, -⟩)
          · exact hne2 (hat2.unique hA').2
          · exact hn ⟨_, hat2⟩
        · intro c z rs' D hrs hD
          simp only [List.map_cons, List.cons_append, List.cons.injEq, Prod.mk.injEq] at hrs
          rw [← hrs.1.1] at hD
          rw [(hat2.unique hD).2]
          have := htail (e2, b2) (List.mem_cons_self ..)
          linarith
    · have hat' : e.At m b v := by
        rcases h3 with ⟨h, -⟩ | ⟨-, h⟩
        · norm_num at h
        · exact h
      obtain ⟨rfl, rfl⟩ := hat'.unique hat
      refine ⟨fun hB => absurd hB.symm hAB, fun _ _ => ?_⟩
      rw [ahead_turns]
      cases es with
      | nil => exact ⟨hfit.2 rfl, fun c z rs' D hrs hD => absurd rfl (hend c z rs' D _ hrs hD).2⟩
      | cons eb2 es =>
        obtain ⟨e2, b2⟩ := eb2
        obtain ⟨-, hv2, h32, -⟩ := h4
        have hat2 : e2.At m b2 B := by
          rcases h32 with ⟨h, -⟩ | ⟨-, h⟩
          · norm_num at h
          · exact h
        constructor
        · simp only [List.map_cons, List.cons_append, RightFirst]
          rintro ⟨hn, -⟩
          exact hn ⟨_, hat2⟩
        · intro c z rs' D hrs hD
          simp only [List.map_cons, List.cons_append, List.cons.injEq, Prod.mk.injEq] at hrs
          rw [← hrs.1.1] at hD
          rw [(hat2.unique hD).1]
          have := htail (e2, b2) (List.mem_cons_self ..)
          linarith

/-- A polygon that is left at the end of an edge from `v` in the direction of the route. -/
theorem flat_fits (hc : Conforming m) {Q e : UInt32} {ps : List (Vec2 ℝ)} (hQ : Ring m Q ps) {b a : Vec2 ℝ}
    (cQ : Corner ps v σ b a) {goal : Vec2 ℝ} {rs : List (Crossing × Vec2 ℝ)} (hr : Route m Q v e goal rs)
    (hend : ∀ c z rs' A B, rs = (c, z) :: rs' → c.At m A B → A ≠ v ∧ B ≠ v)
    (hflat : ∀ c z rs', rs = (c, z) :: rs' → σ * tri v z a = 0) : Fits m (-σ) rs := by
  cases rs with
  | nil => exact ⟨fun _ h => h, fun _ h => h⟩
  | cons cz rs =>
  obtain ⟨c, z⟩ := cz
  obtain ⟨rfl, -, hv, ⟨C, D, hat, hz⟩, -⟩ := hr.uncons
  obtain ⟨hC, hD⟩ := hend c z rs C D rfl hat
  have hf := hflat c z rs rfl
  obtain ⟨ps', hr', hCD⟩ := hc.left hv hat
  obtain rfl := hQ.unique hr'
  have hconv := hc.ring_convex hQ
  have hzin : Inside ps z := (hconv.mem_inside hCD.mem.1).between (hconv.mem_inside hCD.mem.2) hz
  obtain ⟨u, u0, u1, hu⟩ := cQ.flip.on_first hzin (by rw [tri_swap']; linarith)
  have t1 : tri C D z = 0 := by
    obtain ⟨w, -, -, rfl⟩ := hz
    rw [tri_along]; simp
  have t2 := hconv.edge_pos hCD cQ.mem.1 hC.symm hD.symm
  have t3 := hconv.mem_inside cQ.mem.2.2 C D hCD
  rw [hu, tri_along] at t1
  have hu1 : u = 1 := by
    by_contra hne
    have := mul_pos (show 0 < 1 - u from lt_of_le_of_ne (by linarith) (fun h => hne (by linarith))) t2
    have := mul_nonneg u0 t3
    linarith
  rw [hu1, along_one] at hu
  subst hu
  rw [hu1] at t1
  have hor : z = C ∨ z = D := by
    by_contra hcon
    push Not at hcon
    have := hconv.edge_pos hCD cQ.mem.2.2 hcon.1 hcon.2
    linarith
  have hne := hconv.edge_ne hCD
  rcases cQ.cases with ⟨rfl, h1, h2⟩ | ⟨rfl, h1, h2⟩
  · have : z = D := by
      rcases hor with rfl | h
      · exact absurd (hconv.next_unique hCD h2) hD
      · exact h
    subst this
    refine ⟨fun h => by norm_num at h, fun _ h => ?_⟩
    exact h.1 ⟨C, hat⟩
  · have : z = C := by
      rcases hor with h | rfl
      · exact h
      · exact absurd (hconv.prev_unique hCD h2) hC
    subst this
    refine ⟨fun _ h => ?_, fun h => by norm_num at h⟩
    rcases h with ⟨A, hA⟩ | ⟨hn, -⟩
    · exact hne (hat.unique hA).2
    · exact hn ⟨D, hat⟩

/-! ### The surgery -/

theorem Straight.from_corner {P Q : UInt32} {p : Vec2 ℝ} (h : Straight m P v Q v) (hp : InPolygon m P p) :
    Straight m P p Q v := by
  cases h with
  | stay h1 h2 => exact .stay hp h2
  | cross h1 hv hat hb hpq hr =>
    obtain ⟨u, -, -, hu⟩ := hpq
    rw [along_self] at hu
    subst hu
    exact .cross hp hv hat hb (Between.right _ _) hr

theorem Calm.drop {goal y : Vec2 ℝ} {c : Crossing} {l2 : List (Crossing × Vec2 ℝ)} :
    ∀ {l1 : List (Crossing × Vec2 ℝ)}, Calm m goal (l1 ++ (c, y) :: l2) → Calm m goal l2
  | [], h => h.2
  | _ :: l1, h => Calm.drop (l1 := l1) h.2

variable {q : Query (Ext ℝ)} {start goal : Vec2 ℝ} {opt : ℝ}

/-- A route that passes by the vertices that are not flagged, from the point `p` of polygon `P`. -/
structure Smooth (q : Query (Ext ℝ)) (goal : Vec2 ℝ) (P : UInt32) (p : Vec2 ℝ) (rs : List (Crossing × Vec2 ℝ)) : Prop where
  route : Route q.mesh P p q.dst.2 goal rs
  calm : Calm q.mesh goal rs
  nodup : (P :: rs.map (·.1.dst)).Nodup

/-- The end of such a route, from another point. -/
theorem Smooth.drop {P : UInt32} {p p' y : Vec2 ℝ} {c : Crossing} {l1 l2 : List (Crossing × Vec2 ℝ)}
    (h : Smooth q goal P p (l1 ++ (c, y) :: l2)) (hp : InPolygon q.mesh c.dst p') : Smooth q goal c.dst p' l2 := by
  obtain ⟨h1, -⟩ := h.route.drop
  refine ⟨h1.from' hp, h.calm.drop, ?_⟩
  have := h.nodup
  simp only [List.map_append, List.map_cons] at this
  exact (List.nodup_append.1 (List.nodup_cons.1 this).2).2.1

theorem joinStep (hs : Setting q start goal) (hso : StraightOn q start goal opt) (hsur : Surrounded q.mesh v)
    (hfl : ¬ Flagged q.mesh v) (hvg : v ≠ goal) {P : UInt32} {p : Vec2 ℝ} (hPv : InPolygon q.mesh P v)
    (hpv : p ≠ v) {ws : List (Vec2 ℝ)} (hw : Walk q.mesh q.src.2 start P p ws) (hPp : InPolygon q.mesh P p)
    {Q : UInt32} {rs : List (Crossing × Vec2 ℝ)} (hsm : Smooth q goal Q v rs)
    (hcost : polyLen (start :: ws) + dist2 p v + routeLen v goal rs ≤ opt) (hpts : ∀ x ∈ rs, x.2 ≠ v)
    (hlink : Straight q.mesh P v Q v)
    (ih : ∀ {rs2 : List (Crossing × Vec2 ℝ)} {Q2 : UInt32}, rs2.length < rs.length → Smooth q goal Q2 v rs2 →
      polyLen (start :: ws) + dist2 p v + routeLen v goal rs2 ≤ opt → (∀ x ∈ rs2, x.2 ≠ v) →
      Straight q.mesh P v Q2 v →
      ∃ rs', Smooth q goal P p rs' ∧ routeLen p goal rs' ≤ dist2 p v + routeLen v goal rs2
        ∧ ∀ x ∈ rs', x.2 = v ∨ ∃ y ∈ rs2, y.2 = x.2) :
    ∃ rs', Smooth q goal P p rs' ∧ routeLen p goal rs' ≤ dist2 p v + routeLen v goal rs
      ∧ ∀ x ∈ rs', x.2 = v ∨ ∃ y ∈ rs, y.2 = x.2 := by
  have hc := hs.conforming
  -- a suffix of the route
  have shorter : ∀ (l1 l2 : List (Crossing × Vec2 ℝ)) (c : Crossing) (y : Vec2 ℝ), rs = l1 ++ (c, y) :: l2 →
      InPolygon q.mesh c.dst v → Straight q.mesh P v c.dst v →
      ∃ rs', Smooth q goal P p rs' ∧ routeLen p goal rs' ≤ dist2 p v + routeLen v goal rs
        ∧ ∀ x ∈ rs', x.2 = v ∨ ∃ y ∈ rs, y.2 = x.2 := by
    rintro l1 l2 c y rfl hin hst
    obtain ⟨-, d2⟩ := hsm.route.drop
    have d3 := routeLen_le v y goal l2
    obtain ⟨rs', r1, r2, r3⟩ := ih (rs2 := l2) (by simp only [List.length_append, List.length_cons]; omega)
      (hsm.drop hin) (by linarith) (fun x hx => hpts x (by simp [hx])) hst
    refine ⟨rs', r1, by linarith, fun x hx => (r3 x hx).imp id ?_⟩
    rintro ⟨z, hz, hz'⟩
    exact ⟨z, by simp [hz], hz'⟩
  -- the edge that is crossed first ends at the vertex
  by_cases hend : ∀ c z rs' A B, rs = (c, z) :: rs' → c.At q.mesh A B → A ≠ v ∧ B ≠ v
  swap
  · push Not at hend
    obtain ⟨c, z, rs', A, B, rfl, hat, hAB⟩ := hend
    obtain ⟨rfl, -, hv, -, -⟩ := hsm.route.uncons
    have hb : Between A B v := by
      by_cases hA : A = v
      · rw [hA]; exact Between.left _ _
      · rw [hAB hA]; exact Between.right _ _
    have hin := hc.entered hv hat hb
    exact shorter [] rs' c z rfl hin (hlink.snoc rfl hv hat hb hin)
  -- the direction of the route
  have hbet : Between p (ahead v goal rs) v := by
    rcases hso ws P p Q v rs hw (hlink.from_corner hPp) hsm.route hcost with h | h
    · exact absurd h hfl
    · exact h
  have hqv := ahead_neq hvg.symm rs
  have hhead : ∀ c z rs', rs = (c, z) :: rs' → ahead v goal rs = z := by
    rintro c z rs' rfl
    have := hpts (c, z) (by simp)
    simp only [ahead, if_neg this]
  have hQq : InPolygon q.mesh Q (ahead v goal rs) := by
    cases rs with
    | nil =>
      have := hsm.route.nil_eq
      simp only [ahead]
      rw [this]
      exact hs.dst_in
    | cons cz rs' =>
      obtain ⟨c, z⟩ := cz
      rw [hhead c z rs' rfl]
      obtain ⟨rfl, -, hv, ⟨A, B, hat, hb⟩, -⟩ := hsm.route.uncons
      exact hc.leaves hv hat hb
  generalize hf : ahead v goal rs = f at *
  obtain ⟨ps, hP, hp⟩ := hPp
  obtain ⟨ps0, hP0, hpv'⟩ := id hPv
  obtain rfl := hP.unique hP0
  obtain ⟨ps', hQ, hq⟩ := hQq
  obtain ⟨ps1, hQ1, hqv'⟩ := hsm.route.src_in
  obtain rfl := hQ.unique hQ1
  have vP := hsur.corner _ _ hP hpv'
  have vQ := hsur.corner _ _ hQ hqv'
  -- the side
  obtain ⟨σ, hσ, b', a', cQ, hqa, hfit⟩ : ∃ σ : ℝ, (σ = 1 ∨ σ = -1) ∧ ∃ b' a', Corner ps' v σ b' a'
      ∧ 0 < σ * tri v f a' ∧ Fits q.mesh σ rs := by
    obtain ⟨b, a, cQ⟩ := corner_exists (hc.ring_convex hQ) vQ (σ := 1) (.inl rfl)
    obtain ⟨k1, k2⟩ := cQ.cone hq
    rcases eq_or_lt_of_le k2 with h2 | h2
    · have hpos : 0 < 1 * tri v b f := lt_of_le_of_ne k1 (fun h => cQ.not_both hqv h2.symm h.symm)
      refine ⟨-1, .inr rfl, a, b, cQ.flip, by rw [tri_swap']; linarith, ?_⟩
      refine flat_fits hc hQ cQ hsm.route hend ?_
      intro c z rs' h
      rw [← hhead c z rs' h]
      exact h2.symm
    · rcases eq_or_lt_of_le k1 with h1 | h1
      · refine ⟨1, .inl rfl, b, a, cQ, h2, ?_⟩
        have := flat_fits hc hQ cQ.flip hsm.route hend (by
          intro c z rs' h
          rw [← hhead c z rs' h, tri_swap']
          linarith)
        rwa [neg_neg] at this
      · by_cases hL : LeftFirst q.mesh rs
        · exact ⟨-1, .inr rfl, a, b, cQ.flip, by rw [tri_swap']; linarith,
            fun h => by norm_num at h, fun _ h => not_both_first hL h⟩
        · exact ⟨1, .inl rfl, b, a, cQ, h2, fun _ => hL, fun h => by norm_num at h⟩
  obtain ⟨b, a, cP⟩ := corner_exists (hc.ring_convex hP) vP hσ
  obtain ⟨es0, ht0, hgood0⟩ := pass_spin hc hsur hP hQ cP cQ hp hq hqa hbet hpv hqv
  obtain ⟨es, ht, hnd, -, hsub⟩ := ht0.simple _ le_rfl
  have hgood : ∀ x ∈ es.tail, 0 < σ * tri v f x.2 := fun x hx => hgood0 x (hsub hx)
  by_cases hmeet : ∃ x ∈ P :: es.map (·.1.dst), x ∈ rs.map (·.1.dst)
  · obtain ⟨x, hx, hx'⟩ := hmeet
    obtain ⟨⟨c, y⟩, hcy, hcx⟩ := List.mem_map.1 hx'
    obtain ⟨l1, l2, hl⟩ := List.append_of_mem hcy
    have hst := ht.link hc hPv x hx
    simp only at hcx
    subst hcx
    exact shorter l1 l2 c y hl hst.dst_in hst
  · push Not at hmeet
    obtain ⟨r1, -⟩ := (ht.route hc hPv).append hsm.route
    refine ⟨es.map (fun x => (x.1, v)) ++ rs, ⟨r1.from' ⟨_, hP, hp⟩, ?_, ?_⟩, ?_, ?_⟩
    · exact calm_turns hc hσ hsm.calm hfit hend ht (by rw [hf]; exact hgood)
    · rw [List.map_append, List.map_map, ← List.cons_append]
      have : ((fun x : Crossing × Vec2 ℝ => x.1.dst) ∘ fun x : Crossing × Vec2 ℝ => (x.1, v)) = (·.1.dst) := rfl
      rw [this]
      refine List.nodup_append.2 ⟨hnd, (List.nodup_cons.1 hsm.nodup).2, ?_⟩
      intro x hx y hy hxy
      exact hmeet x hx (hxy ▸ hy)
    · have h1 := routeLen_le p v goal (es.map (fun x => (x.1, v)) ++ rs)
      rwa [Turns.len goal p] at h1
    · intro x hx
      rcases List.mem_append.1 hx with hx | hx
      · obtain ⟨y, -, rfl⟩ := List.mem_map.1 hx
        exact .inl rfl
      · exact .inr ⟨x, hx, rfl⟩

theorem join (hs : Setting q start goal) (hso : StraightOn q start goal opt) (hsur : Surrounded q.mesh v)
    (hfl : ¬ Flagged q.mesh v) (hvg : v ≠ goal) {P : UInt32} {p : Vec2 ℝ} (hPv : InPolygon q.mesh P v)
    (hpv : p ≠ v) {ws : List (Vec2 ℝ)} (hw : Walk q.mesh q.src.2 start P p ws) (hPp : InPolygon q.mesh P p) :
    ∀ (n : Nat) {Q : UInt32} {rs : List (Crossing × Vec2 ℝ)}, rs.length ≤ n → Smooth q goal Q v rs →
      polyLen (start :: ws) + dist2 p v + routeLen v goal rs ≤ opt → (∀ x ∈ rs, x.2 ≠ v) →
      Straight q.mesh P v Q v →
      ∃ rs', Smooth q goal P p rs' ∧ routeLen p goal rs' ≤ dist2 p v + routeLen v goal rs
        ∧ ∀ x ∈ rs', x.2 = v ∨ ∃ y ∈ rs, y.2 = x.2 := by
  have hc := hs.conforming
  intro n
  induction n with
  | zero =>
    intro Q rs hn hsm hcost hpts hlink
    obtain rfl := List.length_eq_zero_iff.1 (Nat.le_zero.1 hn)
    exact joinStep hs hso hsur hfl hvg hPv hpv hw hPp hsm hcost hpts hlink (fun h => by simp at h)
  | succ n ih =>
    intro Q rs hn hsm hcost hpts hlink
    refine joinStep hs hso hsur hfl hvg hPv hpv hw hPp hsm hcost hpts hlink ?_
    intro rs2 Q2 hlt
    exact ih (by omega)

/-- The beginning of a route as a walk. -/
theorem Route.split (hc : Conforming m) {e : UInt32} {q y : Vec2 ℝ} {c : Crossing} {l2 : List (Crossing × Vec2 ℝ)} :
    ∀ {l1 : List (Crossing × Vec2 ℝ)} {s : UInt32} {p : Vec2 ℝ}, Route m s p e q (l1 ++ (c, y) :: l2) →
    ∃ ws, Walk m s p c.dst y ws ∧ polyLen (p :: ws) + routeLen y q l2 = routeLen p q (l1 ++ (c, y) :: l2) := by
  intro l1
  induction l1 with
  | nil =>
    intro s p h
    obtain ⟨rfl, hin, hv, ⟨A, B, hat, hb⟩, hr⟩ := h.uncons
    exact ⟨[y], .cons (.cross hin hv hat hb (Between.right _ _) (.stay hr.src_in hr.src_in)) (.nil hr.src_in),
      by simp [polyLen, routeLen]⟩
  | cons cz l1 ih =>
    obtain ⟨c', z⟩ := cz
    intro s p h
    obtain ⟨rfl, hin, hv, ⟨A, B, hat, hb⟩, hr⟩ := h.uncons
    obtain ⟨ws, w1, w2⟩ := ih hr
    refine ⟨z :: ws, .cons (.cross hin hv hat hb (Between.right _ _) (.stay hr.src_in hr.src_in)) w1, ?_⟩
    simp only [polyLen, List.cons_append, routeLen]
    linarith

theorem last_visit {v : Vec2 ℝ} : ∀ {rs : List (Crossing × Vec2 ℝ)}, (∃ x ∈ rs, x.2 = v) →
    ∃ l1 c l2, rs = l1 ++ (c, v) :: l2 ∧ ∀ x ∈ l2, x.2 ≠ v := by
  intro rs
  induction rs with
  | nil => rintro ⟨x, hx, -⟩; simp at hx
  | cons cz rs ih =>
    intro h
    by_cases h' : ∃ x ∈ rs, x.2 = v
    · obtain ⟨l1, c, l2, rfl, h2⟩ := ih h'
      exact ⟨cz :: l1, c, l2, rfl, h2⟩
    · obtain ⟨x, hx, hxv⟩ := h
      rcases List.mem_cons.1 hx with rfl | hx
      · obtain ⟨c, y⟩ := x
        simp only at hxv
        subst hxv
        push Not at h'
        exact ⟨[], c, rs, rfl, h'⟩
      · exact absurd ⟨x, hx, hxv⟩ h'

theorem calm_fix (hs : Setting q start goal) (hl : Least q start goal opt) : ∀ (n : Nat)
    {rs : List (Crossing × Vec2 ℝ)} {P : UInt32} {p : Vec2 ℝ} {ws : List (Vec2 ℝ)}, rs.length ≤ n →
    Walk q.mesh q.src.2 start P p ws → Route q.mesh P p q.dst.2 goal rs →
    polyLen (start :: ws) + routeLen p goal rs ≤ opt → (Flagged q.mesh p ∨ ∀ x ∈ rs, x.2 ≠ p) →
    ∃ R, Smooth q goal P p R ∧ routeLen p goal R ≤ routeLen p goal rs ∧ ∀ x ∈ R, ∃ y ∈ rs, y.2 = x.2 := by
  have hc := hs.conforming
  have hso := hs.straightOn hl
  intro n
  induction n with
  | zero =>
    intro rs P p ws hn hw hr hcost hp
    obtain rfl := List.length_eq_zero_iff.1 (Nat.le_zero.1 hn)
    exact ⟨[], ⟨hr, trivial, by simp⟩, le_rfl, by simp⟩
  | succ n ih =>
    intro rs P p ws hn hw hr hcost hp
    cases rs with
    | nil => exact ⟨[], ⟨hr, trivial, by simp⟩, le_rfl, by simp⟩
    | cons cy rest =>
    obtain ⟨c, y⟩ := cy
    obtain ⟨rfl, hin, hv, ⟨A, B, hat, hb⟩, hrest⟩ := hr.uncons
    obtain ⟨w1, w2⟩ := hw.append (Walk.cons (.cross hin hv hat hb (Between.right _ _)
      (.stay hrest.src_in hrest.src_in)) (.nil hrest.src_in))
    simp only [polyLen, add_zero] at w2
    have hcost' : polyLen (start :: ws) + (dist2 p y + routeLen y goal rest) ≤ opt := hcost
    by_cases hfl : Flagged q.mesh y
    · obtain ⟨R, s1, s2, s3⟩ := ih (by simp only [List.length_cons] at hn; omega) w1 hrest
        (by rw [w2]; linarith) (.inl hfl)
      by_cases hP : c.src ∈ R.map (·.1.dst)
      · obtain ⟨⟨c', z⟩, hcz, hd⟩ := List.mem_map.1 hP
        obtain ⟨l1, l2, rfl⟩ := List.append_of_mem hcz
        simp only at hd
        have := s1.drop (p' := p) (by rw [hd]; exact hin)
        rw [hd] at this
        refine ⟨l2, this, ?_, ?_⟩
        · obtain ⟨-, d2⟩ := s1.route.drop
          have d3 := routeLen_le p z goal l2
          have d4 := dist2_triangle p y z
          simp only [routeLen]
          linarith
        · intro x hx
          obtain ⟨y', hy, hy'⟩ := s3 x (by simp [hx])
          exact ⟨y', by simp [hy], hy'⟩
      · refine ⟨(c, y) :: R, ⟨.cons hin hv hat hb s1.route, ⟨fun A' B' _ => ⟨?_, ?_⟩, s1.calm⟩, ?_⟩, ?_, ?_⟩
        · intro _ h; exact absurd hfl h
        · intro _ h; exact absurd hfl h
        · rw [List.map_cons]
          refine List.nodup_cons.2 ⟨?_, s1.nodup⟩
          intro hmem
          rcases List.mem_cons.1 hmem with h | h
          · obtain ⟨_, _, _, _, -, -, -, -, -, -, -, hne⟩ := hv
            exact hne h.symm
          · exact hP h
        · simp only [routeLen]; linarith
        · intro x hx
          rcases List.mem_cons.1 hx with rfl | hx
          · exact ⟨_, by simp, rfl⟩
          · obtain ⟨y', hy, hy'⟩ := s3 x hx
            exact ⟨y', by simp [hy], hy'⟩
    · obtain ⟨hsur, -, hyg⟩ := (hs.good hl w1 hrest (by rw [w2]; linarith)).resolve_left hfl
      have hpy : p ≠ y := by
        rintro rfl
        rcases hp with h | h
        · exact hfl h
        · exact h (c, p) (by simp) rfl
      obtain ⟨l1, c', l2, hl12, hlast⟩ := last_visit (v := y) ⟨(c, y), List.mem_cons_self .., rfl⟩
      rw [hl12] at hr hcost hn ⊢
      obtain ⟨hr2, d2⟩ := hr.drop
      obtain ⟨ws', w3, w4⟩ := hr.split hc
      obtain ⟨w5, w6⟩ := hw.append w3
      obtain ⟨R, s1, s2, s3⟩ := ih (by simp only [List.length_append, List.length_cons] at hn; omega) w5 hr2
        (by rw [w6]; linarith) (.inr hlast)
      have hPv := hc.leaves hv hat hb
      have hlink : Straight q.mesh c.src y c'.dst y := by
        refine hs.nav.noPinch y c.src c'.dst (ws ++ [y]) (ws ++ ws') (hw.append (.cons (.stay hin hPv) (.nil hPv))).1 w5 ?_ ?_
        · obtain ⟨ps, h1, h2⟩ := hPv
          exact .inl ⟨ps, h1, hsur.corner _ _ h1 h2⟩
        · obtain ⟨ps, h1, h2⟩ := hr2.src_in
          exact .inl ⟨ps, h1, hsur.corner _ _ h1 h2⟩
      obtain ⟨R', r1, r2, r3⟩ := join hs hso hsur hfl hyg hPv hpy hw hin _ le_rfl s1 (by linarith)
        (fun x hx => by obtain ⟨y', hy, hy'⟩ := s3 x hx; rw [← hy']; exact hlast _ hy) hlink
      refine ⟨R', r1, by linarith, ?_⟩
      intro x hx
      rcases r3 x hx with h | ⟨z, hz, hz'⟩
      · exact ⟨(c', y), by simp, h.symm⟩
      · obtain ⟨y', hy, hy'⟩ := s3 z hz
        exact ⟨y', by simp [hy], hy'.trans hz'⟩

/-- There is a shortest route that passes by all vertices that are not flagged, and the start is flagged. -/
theorem Setting.calm_route (hs : Setting q start goal) {ws₀ : List (Vec2 ℝ)}
    (hw : Walk q.mesh q.src.2 start q.dst.2 goal ws₀) :
    ∃ rs, Route q.mesh q.src.2 start q.dst.2 goal rs ∧ (q.src.2 :: rs.map (·.1.dst)).Nodup ∧ Calm q.mesh goal rs
      ∧ Flagged q.mesh start ∧ Least q start goal (routeLen start goal rs) := by
  obtain ⟨rs, hr, -, hle⟩ := exists_shortest hs.conforming hw
  have hl : Least q start goal (routeLen start goal rs) := hle
  have hfl : Flagged q.mesh start := by
    rcases hs.good hl (.nil hs.src_in) hr (by simp [polyLen]) with h | ⟨-, h, -⟩
    · exact h
    · exact absurd rfl h
  obtain ⟨R, s1, s2, -⟩ := calm_fix hs hl _ le_rfl (.nil hs.src_in) hr (by simp [polyLen]) (.inl hfl)
  exact ⟨R, s1.route, s1.nodup, s1.calm, hfl, fun ws h => s2.trans (hl ws h)⟩

end Polyanya
