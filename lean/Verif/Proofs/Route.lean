import Verif.Proofs.Shorten
import Verif.Proofs.Sees
import Mathlib.Data.Fintype.List
import Mathlib.Topology.Order.Compact
import Mathlib.Topology.MetricSpace.Lipschitz
/-
Routes: walks described by the edges that are crossed and the points where they are crossed. There is a shortest
one.
-/

namespace Polyanya

/-- A route from the point `p` of polygon `s` to the point `q` of polygon `e`, through the given crossings at the
given points. -/
inductive Route (m : Mesh (Ext ℝ)) : UInt32 → Vec2 ℝ → UInt32 → Vec2 ℝ → List (Crossing × Vec2 ℝ) → Prop where
  | nil {s : UInt32} {p q : Vec2 ℝ} : InPolygon m s p → InPolygon m s q → Route m s p s q []
  | cons {c : Crossing} {e : UInt32} {p y q A B : Vec2 ℝ} {rs : List (Crossing × Vec2 ℝ)} :
      InPolygon m c.src p → c.Valid m → c.At m A B → Between A B y → Route m c.dst y e q rs →
      Route m c.src p e q ((c, y) :: rs)

/-- The length of a route. -/
noncomputable def routeLen (p q : Vec2 ℝ) : List (Crossing × Vec2 ℝ) → ℝ
  | [] => dist2 p q
  | cy :: rs => dist2 p cy.2 + routeLen cy.2 q rs

variable {m : Mesh (Ext ℝ)}

theorem routeLen_ge (p q : Vec2 ℝ) (rs : List (Crossing × Vec2 ℝ)) : dist2 p q ≤ routeLen p q rs := by
  induction rs generalizing p with
  | nil => exact le_rfl
  | cons cy rs ih => exact (dist2_triangle p cy.2 q).trans (by simp only [routeLen]; linarith [ih cy.2])

theorem routeLen_le (p p' q : Vec2 ℝ) (rs : List (Crossing × Vec2 ℝ)) :
    routeLen p q rs ≤ dist2 p p' + routeLen p' q rs := by
  cases rs with
  | nil => exact dist2_triangle _ _ _
  | cons cy rs => simp only [routeLen]; linarith [dist2_triangle p p' cy.2]

namespace Route

theorem src_in {s e : UInt32} {p q : Vec2 ℝ} {rs : List (Crossing × Vec2 ℝ)} (h : Route m s p e q rs) :
    InPolygon m s p := by cases h <;> assumption

theorem dst_in {s e : UInt32} {p q : Vec2 ℝ} {rs : List (Crossing × Vec2 ℝ)} (h : Route m s p e q rs) :
    InPolygon m e q := by
  induction h with
  | nil _ h => exact h
  | cons _ _ _ _ _ ih => exact ih

/-- The same route from another point of the polygon. -/
theorem from' {s e : UInt32} {p p' q : Vec2 ℝ} {rs : List (Crossing × Vec2 ℝ)} (h : Route m s p e q rs)
    (hp : InPolygon m s p') : Route m s p' e q rs := by
  cases h with
  | nil _ h => exact .nil hp h
  | cons _ hv hat hb hr => exact .cons hp hv hat hb hr

theorem append {s s' e : UInt32} {p w q : Vec2 ℝ} {rs rs' : List (Crossing × Vec2 ℝ)} (h : Route m s p s' w rs)
    (h' : Route m s' w e q rs') :
    Route m s p e q (rs ++ rs') ∧ routeLen p q (rs ++ rs') ≤ routeLen p w rs + routeLen w q rs' := by
  induction h with
  | nil hp _ => exact ⟨h'.from' hp, routeLen_le _ _ _ _⟩
  | cons hp hv hat hb _ ih =>
    obtain ⟨h1, h2⟩ := ih h'
    refine ⟨.cons hp hv hat hb h1, ?_⟩
    simp only [List.cons_append, routeLen]
    linarith

/-- The end of a route. -/
theorem drop {s e : UInt32} {p q : Vec2 ℝ} {rs rs' : List (Crossing × Vec2 ℝ)} {c : Crossing} {y : Vec2 ℝ}
    (h : Route m s p e q (rs ++ (c, y) :: rs')) :
    Route m c.dst y e q rs' ∧ dist2 p y + routeLen y q rs' ≤ routeLen p q (rs ++ (c, y) :: rs') := by
  induction rs generalizing s p with
  | nil =>
    cases h with
    | cons _ _ _ _ h => exact ⟨h, le_rfl⟩
  | cons cy rs ih =>
    obtain ⟨c', y'⟩ := cy
    cases h with
    | cons _ _ _ _ h =>
      obtain ⟨h1, h2⟩ := ih h
      refine ⟨h1, ?_⟩
      simp only [List.cons_append, routeLen]
      linarith [dist2_triangle p y' y]

/-- Without visiting a polygon twice. -/
theorem simple {s e : UInt32} {p q : Vec2 ℝ} : ∀ (k : Nat) {s : UInt32} {p : Vec2 ℝ}
    {rs : List (Crossing × Vec2 ℝ)}, rs.length ≤ k → Route m s p e q rs →
    ∃ rs', Route m s p e q rs' ∧ routeLen p q rs' ≤ routeLen p q rs ∧ (s :: rs'.map (·.1.dst)).Nodup
      ∧ rs'.map (·.1.dst) ⊆ rs.map (·.1.dst) := by
  intro k
  induction k with
  | zero =>
    intro s p rs hk h
    obtain rfl := List.length_eq_zero_iff.1 (Nat.le_zero.1 hk)
    exact ⟨[], h, le_rfl, by simp, by simp⟩
  | succ k ih =>
    intro s p rs hk h
    by_cases hs : s ∈ rs.map (·.1.dst)
    · obtain ⟨⟨c, y⟩, hcy, hcs⟩ := List.mem_map.1 hs
      obtain ⟨rs1, rs2, rfl⟩ := List.append_of_mem hcy
      obtain ⟨h1, h2⟩ := h.drop
      simp only at hcs
      rw [hcs] at h1
      obtain ⟨rs', hr, hl, hn, hsub⟩ := ih (rs := rs2) (p := p)
        (by simp only [List.length_append, List.length_cons] at hk; omega) (h1.from' h.src_in)
      refine ⟨rs', hr, ?_, hn, ?_⟩
      · linarith [routeLen_le p y q rs2]
      · intro x hx
        simp only [List.map_append, List.map_cons, List.mem_append, List.mem_cons]
        exact .inr (.inr (hsub hx))
    · cases h with
      | nil hp hq => exact ⟨[], .nil hp hq, le_rfl, by simp, by simp⟩
      | @cons c _ _ y _ A B rs hp hv hat hb hr =>
        obtain ⟨rs', hr', hl, hn, hsub⟩ := ih (rs := rs) (by simp only [List.length_cons] at hk; omega) hr
        refine ⟨(c, y) :: rs', .cons hp hv hat hb hr', by simp only [routeLen]; linarith, ?_, ?_⟩
        · simp only [List.map_cons]
          refine List.nodup_cons.2 ⟨?_, hn⟩
          intro hmem
          apply hs
          simp only [List.map_cons, List.mem_cons] at hmem ⊢
          exact hmem.imp id (fun h => hsub h)
        · simp only [List.map_cons]
          exact List.cons_subset_cons _ hsub

end Route

/-! ### Routes and walks -/

theorem Straight.route {s e : UInt32} {p q : Vec2 ℝ} (h : Straight m s p e q) :
    ∃ rs, Route m s p e q rs ∧ routeLen p q rs ≤ dist2 p q := by
  induction h with
  | stay h1 h2 => exact ⟨[], .nil h1 h2, le_rfl⟩
  | @cross c e p y q A B hp hv hat hb hpq _ ih =>
    obtain ⟨rs, hr, hl⟩ := ih
    refine ⟨(c, y) :: rs, .cons hp hv hat hb hr, ?_⟩
    simp only [routeLen]
    linarith [dist2_between hpq]

theorem Walk.route {s e : UInt32} {p q : Vec2 ℝ} {ws : List (Vec2 ℝ)} (h : Walk m s p e q ws) :
    ∃ rs, Route m s p e q rs ∧ routeLen p q rs ≤ polyLen (p :: ws) := by
  induction h with
  | @nil s p h => exact ⟨[], .nil h h, by simp [routeLen, polyLen, dist2_self]⟩
  | cons hst _ ih =>
    obtain ⟨rs, hr, hl⟩ := ih
    obtain ⟨rs', hr', hl'⟩ := hst.route
    obtain ⟨h1, h2⟩ := hr'.append hr
    exact ⟨_, h1, by simp only [polyLen]; linarith⟩

theorem Route.walk (hc : Conforming m) {s e : UInt32} {p q : Vec2 ℝ} {rs : List (Crossing × Vec2 ℝ)}
    (h : Route m s p e q rs) :
    Walk m s p e q (rs.map (·.2) ++ [q]) ∧ polyLen (p :: (rs.map (·.2) ++ [q])) = routeLen p q rs := by
  induction h with
  | nil hp hq =>
    refine ⟨.cons (.stay hp hq) (.nil hq), ?_⟩
    simp [polyLen, routeLen]
  | @cons c e p y q A B rs hp hv hat hb hr ih =>
    refine ⟨.cons (.cross hp hv hat hb (Between.right _ _) ?_) ih.1, ?_⟩
    · have := hc.entered hv hat hb
      exact .stay this this
    · simp only [List.map_cons, List.cons_append, polyLen, routeLen]
      rw [ih.2]

theorem Walk.append {s s' e : UInt32} {p w q : Vec2 ℝ} {ws ws' : List (Vec2 ℝ)} (h : Walk m s p s' w ws)
    (h' : Walk m s' w e q ws') :
    Walk m s p e q (ws ++ ws') ∧ polyLen (p :: (ws ++ ws')) = polyLen (p :: ws) + polyLen (w :: ws') := by
  induction h with
  | nil _ => exact ⟨h', by simp [polyLen]⟩
  | cons hst _ ih =>
    obtain ⟨h1, h2⟩ := ih h'
    refine ⟨.cons hst h1, ?_⟩
    simp only [List.cons_append, polyLen]
    rw [h2]; ring

/-! ### A shortest route exists -/

theorem Crossing.At.unique {c : Crossing} {A B A' B' : Vec2 ℝ} (h : c.At m A B) (h' : c.At m A' B') :
    A' = A ∧ B' = B := by
  obtain ⟨l, hl, hA, hB⟩ := h
  obtain ⟨l', hl', hA', hB'⟩ := h'
  rw [hl] at hl'
  cases hl'
  exact ⟨hA'.unique hA, hB'.unique hB⟩

theorem dist2_along_along (A B : Vec2 ℝ) (t t' : ℝ) :
    dist2 (along A B t) (along A B t') = dist2 A B * |t - t'| := by
  have h : ((along A B t).x - (along A B t').x) ^ 2 + ((along A B t).y - (along A B t').y) ^ 2
      = ((A.x - B.x) ^ 2 + (A.y - B.y) ^ 2) * |t - t'| ^ 2 := by
    rw [sq_abs]; simp only [along]; ring
  unfold dist2
  rw [h, Real.sqrt_mul (by positivity), Real.sqrt_sq (abs_nonneg _)]

/-- A function that changes at most as fast as the distance. -/
def Slow (V : Vec2 ℝ → ℝ) : Prop := ∀ p p', V p ≤ dist2 p p' + V p'

theorem Slow.continuous {V : Vec2 ℝ → ℝ} (h : Slow V) (A B : Vec2 ℝ) :
    Continuous (fun t => V (along A B t)) := by
  have : LipschitzWith (dist2 A B).toNNReal (fun t => V (along A B t)) := by
    refine LipschitzWith.of_dist_le_mul (fun t t' => ?_)
    rw [Real.dist_eq, Real.dist_eq, abs_sub_le_iff, Real.coe_toNNReal _ (dist2_nonneg A B)]
    have h1 := h (along A B t) (along A B t')
    have h2 := h (along A B t') (along A B t)
    rw [dist2_comm, dist2_along_along] at h2
    rw [dist2_along_along] at h1
    constructor <;> linarith
  exact this.continuous

theorem slow_dist (q : Vec2 ℝ) : Slow (fun x => dist2 x q) := fun p p' => dist2_triangle p p' q

theorem slow_dist' (q : Vec2 ℝ) : Slow (fun x => dist2 q x) := fun p p' => by
  have := dist2_triangle q p' p
  rw [dist2_comm p' p] at this
  linarith

/-- Crossing `A B` at the best point. -/
theorem Slow.best {V : Vec2 ℝ → ℝ} (h : Slow V) (A B : Vec2 ℝ) :
    ∃ V', Slow V' ∧ ∀ p, (∃ y, Between A B y ∧ V' p = dist2 p y + V y) ∧
      ∀ y, Between A B y → V' p ≤ dist2 p y + V y := by
  have key : ∀ p, ∃ t, (0 ≤ t ∧ t ≤ 1) ∧ ∀ u, 0 ≤ u → u ≤ 1 →
      dist2 p (along A B t) + V (along A B t) ≤ dist2 p (along A B u) + V (along A B u) := by
    intro p
    have hcont : Continuous (fun t => dist2 p (along A B t) + V (along A B t)) :=
      ((slow_dist' p).continuous A B).add (h.continuous A B)
    obtain ⟨t, ht, hmin⟩ := (isCompact_Icc (a := (0 : ℝ)) (b := 1)).exists_isMinOn ⟨0, by simp⟩
      hcont.continuousOn
    exact ⟨t, ht, fun u u0 u1 => isMinOn_iff.1 hmin u ⟨u0, u1⟩⟩
  choose t ht hmin using key
  refine ⟨fun p => dist2 p (along A B (t p)) + V (along A B (t p)), ?_, ?_⟩
  · intro p p'
    have := hmin p (t p') (ht p').1 (ht p').2
    have := dist2_triangle p p' (along A B (t p'))
    linarith
  · intro p
    refine ⟨⟨_, ⟨t p, (ht p).1, (ht p).2, rfl⟩, rfl⟩, ?_⟩
    rintro _ ⟨u, u0, u1, rfl⟩
    exact hmin p u u0 u1

/-- The best way to cross the given edges. -/
theorem exists_min (hc : Conforming m) (e : UInt32) (q : Vec2 ℝ) (cs : List Crossing) :
    ∃ V, Slow V ∧ ∀ s p rs, Route m s p e q rs → rs.map (·.1) = cs →
      (∃ rs', Route m s p e q rs' ∧ rs'.map (·.1) = cs ∧ routeLen p q rs' = V p) ∧ V p ≤ routeLen p q rs := by
  induction cs with
  | nil =>
    refine ⟨fun x => dist2 x q, slow_dist q, ?_⟩
    intro s p rs h hm
    obtain rfl := List.map_eq_nil_iff.1 hm
    exact ⟨⟨[], h, rfl, rfl⟩, le_rfl⟩
  | cons c cs ih =>
    obtain ⟨V, hV, hmin⟩ := ih
    by_cases hat : ∃ A B, c.At m A B
    · obtain ⟨A, B, hat⟩ := hat
      obtain ⟨V', hV', hb⟩ := hV.best A B
      refine ⟨V', hV', ?_⟩
      intro s p rs h hm
      cases h with
      | nil => simp at hm
      | @cons c' _ _ y _ A' B' rs hp hv hat' hy hr =>
        simp only [List.map_cons, List.cons.injEq] at hm
        obtain ⟨rfl, hm⟩ := hm
        obtain ⟨rfl, rfl⟩ := hat.unique hat'
        obtain ⟨⟨z, hz, hVz⟩, hle⟩ := hb p
        obtain ⟨⟨rs', hr', hm', hl'⟩, -⟩ := hmin _ _ _ (hr.from' (hc.entered hv hat hz)) hm
        refine ⟨⟨(c', z) :: rs', .cons hp hv hat hz hr', by simp [hm'], ?_⟩, ?_⟩
        · simp only [routeLen]; rw [hl', hVz]
        · have := (hmin _ _ _ hr hm).2
          have := hle y hy
          simp only [routeLen]; linarith
    · refine ⟨fun _ => 0, fun p p' => by linarith [dist2_nonneg p p'], ?_⟩
      intro s p rs h hm
      cases h with
      | nil => simp at hm
      | cons hp hv hat' hy hr =>
        simp only [List.map_cons, List.cons.injEq] at hm
        obtain ⟨rfl, hm⟩ := hm
        exact absurd ⟨_, _, hat'⟩ hat

instance : Finite UInt32 :=
  Finite.of_injective UInt32.toFin (fun a b h => UInt32.toFin_inj.1 h)

instance : Finite Crossing :=
  Finite.of_injective (fun c : Crossing => (c.src, c.a, c.b, c.dst))
    (fun c c' h => by cases c; cases c'; simp_all)

/-- There is a shortest route, and it visits no polygon twice. -/
theorem exists_shortest (hc : Conforming m) {s e : UInt32} {p q : Vec2 ℝ} {ws₀ : List (Vec2 ℝ)}
    (h₀ : Walk m s p e q ws₀) :
    ∃ rs, Route m s p e q rs ∧ (s :: rs.map (·.1.dst)).Nodup ∧
      ∀ ws, Walk m s p e q ws → routeLen p q rs ≤ polyLen (p :: ws) := by
  classical
  have hfin : {cs : List Crossing | (∃ rs, Route m s p e q rs ∧ rs.map (·.1) = cs)
      ∧ (s :: cs.map (·.dst)).Nodup}.Finite := by
    have := Fintype.ofFinite Crossing
    have hf : Finite {cs : List Crossing // cs.Nodup} := inferInstance
    refine Set.Finite.subset (s := {cs : List Crossing | cs.Nodup}) hf ?_
    rintro cs ⟨-, hn⟩
    exact List.Nodup.of_map _ (List.nodup_cons.1 hn).2
  have hsome : ∀ ws, Walk m s p e q ws → ∃ rs, Route m s p e q rs ∧ routeLen p q rs ≤ polyLen (p :: ws)
      ∧ (s :: rs.map (·.1.dst)).Nodup := by
    intro ws h
    obtain ⟨rs, hr, hl⟩ := h.route
    obtain ⟨rs', hr', hl', hn, -⟩ := Route.simple (s := s) (p := p) _ le_rfl hr
    exact ⟨rs', hr', hl'.trans hl, hn⟩
  choose V hV hmin using exists_min hc e q
  obtain ⟨rs₀, hr₀, -, hn₀⟩ := hsome ws₀ h₀
  obtain ⟨cs, ⟨⟨rs, hr, hm⟩, hn⟩, hbest⟩ := hfin.exists_minimalFor (fun cs => V cs p) _
    ⟨rs₀.map (·.1), ⟨rs₀, hr₀, rfl⟩, by rw [List.map_map]; exact hn₀⟩
  obtain ⟨⟨rs', hr', hm', hl'⟩, -⟩ := hmin cs s p rs hr hm
  refine ⟨rs', hr', by rw [← hm', List.map_map] at hn; exact hn, ?_⟩
  intro ws h
  obtain ⟨rs1, hr1, hl1, hn1⟩ := hsome ws h
  have h2 := (hmin _ s p rs1 hr1 rfl).2
  have h3 : V cs p ≤ V (rs1.map (·.1)) p := by
    by_contra hcon
    push Not at hcon
    have := hbest (j := rs1.map (·.1)) ⟨⟨rs1, hr1, rfl⟩, by rw [List.map_map]; exact hn1⟩ hcon.le
    simp only at this
    linarith
  rw [hl']
  linarith

end Polyanya
