import Verif.Spec.Turning
import Verif.Spec.Shortest
import Verif.Proofs.SameRoot
import Verif.Proofs.LocateExt
/-
One cannot walk around a corner that is not enclosed by walkable area.
-/

set_option linter.unusedSectionVars false

namespace Polyanya

variable {F : Type} [Field F] [LinearOrder F] [Scalar F] [ExactField F] [IsStrictOrderedRing F]

/-- Edge number `i` of the ring goes from `A` to `B`. -/
def EdgeNo (ps : List (Vec2 F)) (i : Nat) (A B : Vec2 F) : Prop :=
  i < ps.length ∧ ps[i]? = some A ∧ ps[(i + 1) % ps.length]? = some B

/-- The corners that are not on an edge are to the left of it. -/
theorem StrictlyConvex.left_of {ps : List (Vec2 F)} (h : StrictlyConvex ps) {i k : Nat} {A B C : Vec2 F}
    (he : EdgeNo ps i A B) (hk : ps[k]? = some C) (h1 : k ≠ i) (h2 : k ≠ (i + 1) % ps.length) : 0 < tri A B C := by
  obtain ⟨hi, hA, hB⟩ := he
  have hkl := (List.getElem?_eq_some_iff.1 hk).1
  by_cases hl : i + 1 < ps.length
  · rw [Nat.mod_eq_of_lt hl] at hB h2
    rcases Nat.lt_or_gt_of_ne h1 with h3 | h3
    · have := h.2 k i (i + 1) C A B h3 (by omega) hk hA hB
      rwa [← tri_cyc] at this
    · exact h.2 i (i + 1) k A B C (by omega) (by omega) hA hB hk
  · have e : i + 1 = ps.length := by omega
    rw [e, Nat.mod_self] at hB h2
    have := h.2 0 k i B C A (by omega) (by omega) hB hk hA
    rw [← tri_cyc, ← tri_cyc] at this
    exact this

/-- A point that is on two edges is the corner between them. -/
theorem StrictlyConvex.on_two {ps : List (Vec2 F)} (h : StrictlyConvex ps) {i j : Nat} {A B C D r : Vec2 F}
    (hi : EdgeNo ps i A B) (hj : EdgeNo ps j C D) (hij : i ≠ j) (h1 : Between A B r) (h2 : Between C D r) :
    (j = (i + 1) % ps.length ∧ r = C) ∨ (i = (j + 1) % ps.length ∧ r = A) := by
  have h0 : tri A B r = 0 := by
    obtain ⟨u, -, -, rfl⟩ := h1
    rw [tri_along]; simp
  obtain ⟨u, u0, u1, rfl⟩ := h2
  rw [tri_along] at h0
  have hlen := h.1
  have hne : (j + 1) % ps.length ≠ (i + 1) % ps.length := by
    intro he
    have hi' := hi.1
    have hj' := hj.1
    rcases Nat.lt_or_ge (i + 1) ps.length with a | a <;> rcases Nat.lt_or_ge (j + 1) ps.length with b | b
    · rw [Nat.mod_eq_of_lt a, Nat.mod_eq_of_lt b] at he; omega
    · have : j + 1 = ps.length := by omega
      rw [this, Nat.mod_self, Nat.mod_eq_of_lt a] at he; omega
    · have : i + 1 = ps.length := by omega
      rw [this, Nat.mod_self, Nat.mod_eq_of_lt b] at he; omega
    · omega
  have hn2 : (j + 1) % ps.length = i → j ≠ (i + 1) % ps.length := by
    intro a b
    have hi' := hi.1
    have hj' := hj.1
    rcases Nat.lt_or_ge (i + 1) ps.length with c | c <;> rcases Nat.lt_or_ge (j + 1) ps.length with d | d
    · rw [Nat.mod_eq_of_lt c] at b; rw [Nat.mod_eq_of_lt d] at a; omega
    · have : j + 1 = ps.length := by omega
      rw [this, Nat.mod_self] at a; rw [Nat.mod_eq_of_lt c] at b; omega
    · have : i + 1 = ps.length := by omega
      rw [this, Nat.mod_self] at b; rw [Nat.mod_eq_of_lt d] at a; omega
    · omega
  have nonneg : ∀ (k : Nat) (X : Vec2 F), ps[k]? = some X → 0 ≤ tri A B X := by
    intro k X hX
    by_cases a : k = i
    · subst a
      have := hi.2.1.symm.trans hX
      cases this
      simp
    · by_cases b : k = (i + 1) % ps.length
      · subst b
        have := hi.2.2.symm.trans hX
        cases this
        simp
      · exact (h.left_of hi hX a b).le
  have nC := nonneg _ _ hj.2.1
  have nD := nonneg _ _ hj.2.2
  have m1 := mul_nonneg (show 0 ≤ 1 - u by linarith) nC
  have m2 := mul_nonneg u0 nD
  by_cases hCi : j = (i + 1) % ps.length
  · left
    refine ⟨hCi, ?_⟩
    have hD : 0 < tri A B D := h.left_of hi hj.2.2 (fun e => hn2 e hCi) hne
    have : u * tri A B D = 0 := by linarith
    rcases mul_eq_zero.1 this with rfl | e
    · exact along_zero _ _
    · rw [e] at hD; exact absurd hD (lt_irrefl _)
  · right
    have hC : 0 < tri A B C := h.left_of hi hj.2.1 (fun e => hij e.symm) hCi
    have hu : u = 1 := by
      have : (1 - u) * tri A B C = 0 := by linarith
      rcases mul_eq_zero.1 this with e | e
      · linarith
      · rw [e] at hC; exact absurd hC (lt_irrefl _)
    subst hu
    have hD0 : tri A B D = 0 := by linarith
    have : (j + 1) % ps.length = i := by
      by_contra hc
      have := h.left_of hi hj.2.2 hc hne
      rw [hD0] at this
      exact absurd this (lt_irrefl _)
    refine ⟨this.symm, ?_⟩
    have e := hj.2.2
    rw [this, hi.2.1] at e
    cases e
    exact along_one _ _

/-- No point is on three edges. -/
theorem StrictlyConvex.on_three {ps : List (Vec2 F)} (h : StrictlyConvex ps) {i j k : Nat} {A B C D E G r : Vec2 F}
    (hi : EdgeNo ps i A B) (hj : EdgeNo ps j C D) (hk : EdgeNo ps k E G) (hij : i ≠ j) (h1 : Between A B r)
    (h2 : Between C D r) (h3 : Between E G r) : k = i ∨ k = j := by
  by_contra hc
  rw [not_or] at hc
  have inj : ∀ (a b : Nat) (X : Vec2 F), ps[a]? = some X → ps[b]? = some X → a = b :=
    fun a b X ha hb => h.injective ha hb
  rcases h.on_two hi hj hij h1 h2 with ⟨a1, a2⟩ | ⟨a1, a2⟩ <;>
  rcases h.on_two hi hk (fun e => hc.1 e.symm) h1 h3 with ⟨b1, b2⟩ | ⟨b1, b2⟩
  · exact hc.2 (b1.trans a1.symm)
  · exact hij (inj _ _ _ hi.2.1 (b2 ▸ a2 ▸ hj.2.1))
  · exact hc.1 (inj _ _ _ hk.2.1 (b2 ▸ a2 ▸ hi.2.1))
  · rcases h.on_two hj hk (fun e => hc.2 e.symm) h2 h3 with ⟨c1, c2⟩ | ⟨c1, c2⟩
    · exact hc.1 (inj _ _ _ hk.2.1 (c2 ▸ a2 ▸ hi.2.1))
    · exact hij (inj _ _ _ (a2 ▸ hi.2.1) (c2 ▸ hj.2.1))

variable {m : Mesh (Ext F)} {r : Vec2 F}

/-- The edge of a crossing is an edge of the polygon that is left. -/
theorem Crossing.edge_src {c : Crossing} (hv : c.Valid m) {A B : Vec2 F} (hat : c.At m A B) {ps : List (Vec2 F)}
    (hr : Ring m c.src ps) : ∃ i, EdgeNo ps i A B ∧ ∃ l p, HasPolygon m c.src l p ∧ p.vertices[i]? = some c.a
      ∧ p.vertices[(i + 1) % p.vertices.length]? = some c.b := by
  obtain ⟨l, p, va, vb, hh, ⟨i, hi, ha, hb⟩, -⟩ := hv
  obtain ⟨l', hl', hA, hB⟩ := hat
  obtain ⟨l'', p', hh', hfor⟩ := hr
  have e1 := hh.1
  rw [hl'] at e1
  cases e1
  have e2 := hh'.1
  rw [hl'] at e2
  cases e2
  have e3 := hh'.2
  rw [hh.2] at e3
  cases e3
  have hlen := hfor.length_eq
  obtain ⟨A', hA', hA''⟩ := forall₂_getElem hfor ha
  obtain ⟨B', hB', hB''⟩ := forall₂_getElem hfor hb
  rw [hA''.unique hA] at hA'
  rw [hB''.unique hB, hlen] at hB'
  exact ⟨i, ⟨by omega, hA', hB'⟩, _, p, hh, ha, hb⟩

/-- Crossings from the same polygon over the edge with the same number lead to the same polygon. -/
theorem same_edge_same_dst (hu : ∀ c c' : Crossing, c.Valid m → c'.Valid m → c'.src = c.src → c'.a = c.a →
      c'.b = c.b → c'.dst = c.dst)
    (hc : Conforming m) {c c' : Crossing} (hv : c.Valid m) (hv' : c'.Valid m) (hs : c'.src = c.src)
    {A B : Vec2 F} (hat : c.At m A B) (hat' : c'.At m A B) : c'.dst = c.dst := by
  obtain ⟨l, p, va, vb, hh, -⟩ := id hv
  obtain ⟨ps, hr, hconv⟩ := hc.convex _ _ _ hh
  obtain ⟨i, hi, l1, p1, hh1, ha, hb⟩ := c.edge_src hv hat hr
  obtain ⟨j, hj, l2, p2, hh2, ha', hb'⟩ := c'.edge_src hv' hat' (hs ▸ hr)
  have hij := hconv.injective hi.2.1 hj.2.1
  subst hij
  rw [hs] at hh2
  have e1 := hh1.1
  rw [hh2.1] at e1
  cases e1
  have e2 := hh1.2
  rw [hh2.2] at e2
  cases e2
  rw [ha] at ha'
  rw [hb] at hb'
  exact hu c c' hv hv' hs (Option.some.inj ha').symm (Option.some.inj hb').symm

/-- A turn enters the polygon through one edge at `r` and leaves it through another. -/
structure Turn (m : Mesh (Ext F)) (r : Vec2 F) (c c' : Crossing) (ps : List (Vec2 F)) (i j : Nat)
    (A B C D : Vec2 F) : Prop where
  ring : Ring m c.dst ps
  conv : StrictlyConvex ps
  at1 : c.At m A B
  at2 : c'.At m C D
  edge1 : EdgeNo ps i B A
  edge2 : EdgeNo ps j C D
  ne : i ≠ j
  hit1 : Between B A r
  hit2 : Between C D r

theorem TurnsTo.turn (hc : Conforming m)
    (hback : ∀ c c' : Crossing, c.Valid m → c'.Valid m → c'.src = c.dst → ∀ A B, c.At m A B → c'.At m B A →
      c'.dst = c.src) {c c' : Crossing} (h : TurnsTo m r c c') :
    ∃ ps i j A B C D, Turn m r c c' ps i j A B C D := by
  obtain ⟨v, v', hd, hne, ⟨A, B, hat, hbt⟩, ⟨C, D, hat', hbt'⟩⟩ := h
  obtain ⟨l, p, va, vb, hh, -⟩ := id v'
  obtain ⟨ps, hr, hconv⟩ := hc.convex _ _ _ hh
  obtain ⟨ps', hr', i, hi⟩ := hc.shared c v A B hat
  rw [hd] at hr'
  obtain rfl := hr.unique hr'
  obtain ⟨j, hj, -⟩ := c'.edge_src v' hat' hr
  refine ⟨ps, i, j, A, B, C, D, by rw [hd]; exact hr, hconv, hat, hat', hi, hj, ?_, hbt.symm, hbt'⟩
  rintro rfl
  have e1 := hi.2.1
  have e2 := hi.2.2
  rw [hj.2.1] at e1
  rw [hj.2.2] at e2
  cases e1
  cases e2
  exact hne (hback c c' v v' hd.symm _ _ hat hat').symm

/-- One cannot turn at a point that is not a corner of a polygon. -/
theorem noCircle_of_inner (hc : Conforming m)
    (hback : ∀ c c' : Crossing, c.Valid m → c'.Valid m → c'.src = c.dst → ∀ A B, c.At m A B → c'.At m B A →
      c'.dst = c.src) (hr : ∀ id ps, Ring m id ps → r ∉ ps) : NoCircle m r := by
  intro c h
  obtain ⟨c', h', -⟩ := Relation.TransGen.head'_iff.1 h
  obtain ⟨ps, i, j, A, B, C, D, t⟩ := h'.turn hc hback
  refine hr _ _ t.ring ?_
  rcases t.conv.on_two t.edge1 t.edge2 t.ne t.hit1 t.hit2 with ⟨-, e⟩ | ⟨-, e⟩
  · rw [e]; exact List.mem_of_getElem? t.edge2.2.1
  · rw [e]; exact List.mem_of_getElem? t.edge1.2.1

/-- The crossing is part of a circle. -/
def InCircle (m : Mesh (Ext F)) (r : Vec2 F) (c : Crossing) : Prop := Relation.TransGen (TurnsTo m r) c c

theorem InCircle.next {c : Crossing} (h : InCircle m r c) : ∃ c', TurnsTo m r c c' ∧ InCircle m r c' := by
  obtain ⟨c', h1, h2⟩ := Relation.TransGen.head'_iff.1 h
  exact ⟨c', h1, .tail' h2 h1⟩

theorem InCircle.prev {c : Crossing} (h : InCircle m r c) : ∃ c', TurnsTo m r c' c ∧ InCircle m r c' := by
  obtain ⟨c', h1, h2⟩ := Relation.TransGen.tail'_iff.1 h
  exact ⟨c', h2, .head' h2 h1⟩

/-- One cannot walk around a corner where a wall ends, when all polygons at this corner are linked there. -/
theorem noCircle_of_wall (hc : Conforming m)
    (hu : ∀ c c' : Crossing, c.Valid m → c'.Valid m → c'.src = c.src → c'.a = c.a → c'.b = c.b → c'.dst = c.dst)
    (hback : ∀ c c' : Crossing, c.Valid m → c'.Valid m → c'.src = c.dst → ∀ A B, c.At m A B → c'.At m B A →
      c'.dst = c.src)
    (hlink : ∀ id id' ps ps', Ring m id ps → Ring m id' ps' → r ∈ ps → r ∈ ps' → Straight m id r id' r)
    {wid : UInt32} {X Y : Vec2 F} (hw : Wall m wid X Y) (hr : r = X ∨ r = Y) : NoCircle m r := by
  intro c h
  -- the polygons entered by the crossings of the circle are closed under crossings at `r`
  have closed : ∀ c d : Crossing, InCircle m r c → d.Valid m → d.src = c.dst → d.Hits m r →
      ∃ c', InCircle m r c' ∧ c'.dst = d.dst := by
    intro c d hcc hd hds ⟨E, G, hatd, hitd⟩
    obtain ⟨c', ht, hc'⟩ := hcc.next
    obtain ⟨c0, ht0, hc0⟩ := hcc.prev
    obtain ⟨ps, i, j, A, B, C, D, t⟩ := ht.turn hc hback
    obtain ⟨k, hk, -⟩ := d.edge_src hd hatd (hds ▸ t.ring)
    rcases t.conv.on_three t.edge1 t.edge2 hk t.ne t.hit1 t.hit2 hitd with rfl | rfl
    · have e1 := hk.2.1
      have e2 := hk.2.2
      rw [t.edge1.2.1] at e1
      rw [t.edge1.2.2] at e2
      cases e1
      cases e2
      refine ⟨c0, hc0, ?_⟩
      rw [ht0.2.2.1]
      exact (hback c d ht.1 hd hds _ _ t.at1 hatd).symm
    · have e1 := hk.2.1
      have e2 := hk.2.2
      rw [t.edge2.2.1] at e1
      rw [t.edge2.2.2] at e2
      cases e1
      cases e2
      refine ⟨c', hc', ?_⟩
      exact same_edge_same_dst hu hc hd ht.2.1 (by rw [hds, ht.2.2.1]) hatd t.at2
  have reach : ∀ id p id' q, Straight m id p id' q → p = r → q = r → (∃ c, InCircle m r c ∧ c.dst = id) →
      ∃ c, InCircle m r c ∧ c.dst = id' := by
    intro id p id' q hst
    induction hst with
    | stay _ _ => intro _ _ h; exact h
    | @cross d e p y q A B _ hd hat hAB hy _ ih =>
      rintro rfl rfl ⟨c, hcc, hcd⟩
      have hyr : y = q := by
        obtain ⟨u, -, -, rfl⟩ := hy
        simp only [along, Vec2.ext_iff']
        constructor <;> ring
      subst hyr
      obtain ⟨c', hc', e⟩ := closed c d hcc hd hcd.symm ⟨A, B, hat, hAB⟩
      exact ih rfl rfl ⟨c', hc', e⟩
  obtain ⟨⟨wps, hwr, hwc⟩, hw1, hw2⟩ := hw
  have hrw : r ∈ wps := by
    obtain ⟨w, hw, hX, hY⟩ := hwc
    rcases hr with rfl | rfl
    · exact List.mem_of_getElem? hX
    · exact List.mem_of_getElem? hY
  have hbw : Between X Y r := by
    rcases hr with rfl | rfl
    · exact ⟨0, le_rfl, zero_le_one, (along_zero _ _).symm⟩
    · exact ⟨1, zero_le_one, le_rfl, (along_one _ _).symm⟩
  obtain ⟨c', ht, -⟩ := InCircle.next h
  obtain ⟨ps, i, j, A, B, C, D, t⟩ := ht.turn hc hback
  have hrp : r ∈ ps := by
    rcases t.conv.on_two t.edge1 t.edge2 t.ne t.hit1 t.hit2 with ⟨-, e⟩ | ⟨-, e⟩
    · rw [e]; exact List.mem_of_getElem? t.edge2.2.1
    · rw [e]; exact List.mem_of_getElem? t.edge1.2.1
  obtain ⟨cw, hcw, hcwd⟩ := reach _ _ _ _ (hlink _ _ _ _ t.ring hwr hrp hrw) rfl rfl ⟨c, h, rfl⟩
  obtain ⟨cw', htw, -⟩ := hcw.next
  obtain ⟨ps', i', j', A', B', C', D', t'⟩ := htw.turn hc hback
  obtain rfl := hwr.unique (hcwd ▸ t'.ring)
  obtain ⟨w, hwe⟩ := hwc
  rcases t'.conv.on_three t'.edge1 t'.edge2 hwe t'.ne t'.hit1 t'.hit2 hbw with rfl | rfl
  · have e1 := hwe.2.1
    have e2 := hwe.2.2
    rw [t'.edge1.2.1] at e1
    rw [t'.edge1.2.2] at e2
    cases e1
    cases e2
    exact hw2 cw htw.1 hcwd t'.at1
  · have e1 := hwe.2.1
    have e2 := hwe.2.2
    rw [t'.edge2.2.1] at e1
    rw [t'.edge2.2.2] at e2
    cases e1
    cases e2
    exact hw1 cw' htw.2.1 (by rw [← htw.2.2.1, hcwd]) t'.at2

/-- On a navigable mesh one cannot walk around a point that is not enclosed by walkable area. -/
theorem noCircle_of_notEnclosed {m : Mesh (Ext ℝ)} {s e : UInt32} {start goal r : Vec2 ℝ} (hc : Conforming m)
    (hnav : Navigable m s start e goal) (hlink : LinkedAt m r) (hr : NotEnclosed m r) : NoCircle m r := by
  by_cases h : ∃ id ps, Ring m id ps ∧ r ∈ ps
  · obtain ⟨id, A, B, hw, hAB⟩ := hr h
    exact noCircle_of_wall hc hnav.unique hnav.back hlink hw hAB
  · exact noCircle_of_inner hc hnav.back (fun id ps h1 h2 => h ⟨id, ps, h1, h2⟩)

end Polyanya
