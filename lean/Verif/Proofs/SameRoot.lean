import Verif.Spec.Turning
import Verif.Proofs.Sees
import Mathlib.Order.WellFounded
import Mathlib.Data.Fintype.EquivFin
/-
Chains of search nodes with the same root are finite, when one cannot walk around the root.
-/

namespace Polyanya

variable {F : Type} [Field F] [LinearOrder F] [Scalar F] [ExactField F] [IsStrictOrderedRing F]

omit [Scalar F] [ExactField F] in
theorem Between.symm {a b x : Vec2 F} (h : Between a b x) : Between b a x := by
  obtain ⟨u, h0, h1, rfl⟩ := h
  refine ⟨1 - u, by linarith, by linarith, ?_⟩
  simp only [along, Vec2.mk.injEq]
  constructor <;> ring

omit [Scalar F] [ExactField F] in
theorem Fan.on_edge {ws : List (Vec2 F)} {A B C D x : Vec2 F} (h : Fan ws A B) (hCD : Consecutive ws C D)
    (hx : Inside ws x) (h0 : tri C D x = 0) : Between C D x := by
  obtain ⟨i, hi, hC, hD⟩ := hCD
  have hf := fan_of_consecutive h.convex hi hC hD
  refine (hf.on_base ((inside_rotate _).2 hx) ?_).symm
  rw [tri_swap, h0, neg_zero]

/-- A child with the same root: either both edges are seen from a root on the edge of the parent, or the root is
strictly on this side of the edge of the parent, and what is seen of the edge of the child is seen through the
interval of the parent. -/
theorem same_root_step {q : Query (Ext F)} {start goal : Vec2 F} (hc : Conforming q.mesh)
    (hm : NoNearMiss q.mesh start goal) {src : UInt32} {node n : SearchNode (Ext F)}
    {r a b A B : Vec2 F} {s t : F} (hg : NodeGeo q.mesh src start node r a b A B s t)
    (hv : node.crossing.Valid q.mesh) (hprev : node.previousPolygonLayer = layerOf node.polygonFrom)
    (hch : ChildNode q node n) {a' b' C D : Vec2 F} {s' t' : F}
    (hg' : NodeGeo q.mesh src start n r a' b' C D s' t') :
    (Between A B r ∧ (Between C D r ∨ 0 < tri C D r)) ∨
    (0 < tri A B r ∧ ¬ Between C D r ∧ (∀ x, Between a' b' x → ∃ y, Between a b y ∧ Between r x y)
      ∧ ∀ u, 0 < u → u < 1 → tri A B (along C D u) < 0) := by
  obtain ⟨layer, succs, su, vs, ve, root, hnd, hl, he, hs, h0, h1, hmax, hb, hgo, hfrom, hr, htiny, hA⟩
    := hch
  obtain ⟨f1, f2, f3, f4, f5, f6⟩ := added_fields hA
  obtain ⟨ps, k0, hring, hconv, hcons, hfan⟩ := hc.fan hv hg.at_
  obtain ⟨prev, hpl, hvA, hvB⟩ := hg.at_
  have hpl' : q.mesh.layers[node.previousPolygonLayer.toNat]? = some prev := by
    rw [hprev, layerOf_toNat]; exact hpl
  have hap : ∀ v ∈ ps, sqDist v B < 1 / 1000 → v = B := fun v hv =>
    hm.apart v B (hring.isVertex hv) (hring.isVertex hcons.mem.1)
  obtain ⟨l, p, k, hp, hps, hview, hall⟩ := edgesBetween_view he hpl' hvB hg.root hg.interval hring hconv
    hcons hap (fun j hf => hg.view hm hring hf)
  obtain ⟨j, C', D', hC, hD, hCv, hDv, i1, i2, u1, u2, good⟩ := hall su hs
  rw [layerOf_toNat] at hl
  have hll : l = layer := by
    have := hp.1.symm.trans hl
    exact Option.some.inj this
  subst hll
  -- the edge of the child
  obtain ⟨l', hl', hC1, hD1⟩ := hg'.at_
  simp only [SearchNode.crossing, f1, f4] at hl' hC1 hD1
  have hll' : l' = l := Option.some.inj (hl'.symm.trans hl)
  subst hll'
  obtain rfl : C' = C := hCv.unique hC1
  obtain rfl : D' = D := hDv.unique hD1
  have hin1 : n.interval = (i1.fin, i2.fin) := by rw [f3, good.interval]
  have hii := hg'.interval.symm.trans hin1
  simp only [Prod.mk.injEq] at hii
  obtain rfl := Vec2.fin_injective hii.1
  obtain rfl := Vec2.fin_injective hii.2
  have hCD : Consecutive (ps.rotate k) C' D' := consecutive_of_succ hC hD
  have hu : u1 < u2 := by
    refine lt_of_le_of_ne good.u12 ?_
    rintro rfl
    rw [good.interval, Bool.eq_false_iff, Ne, fin_distanceSquared, ext_tol10, ext_lt] at htiny
    apply htiny
    rw [good.e1, good.e2, sqDist]
    norm_num
  have hmid : along a' b' (1 / 2) = along C' D' (u1 + 1 / 2 * (u2 - u1)) := by
    rw [good.e1, good.e2, along_along]
  have hmidneg : tri A B (along a' b' (1 / 2)) < 0 := by
    rw [hmid]
    exact hview.fan.edge_inner hC hD (by linarith [good.u0]) (by linarith [good.u3])
  have around : Between A B r → Between C' D' r ∨ 0 < tri C' D' r := by
    intro hbr
    rcases hg'.hr.eq_or_lt with h | h
    · exact .inl (hview.fan.on_edge hCD (hview.fan.inside_base hbr) h.symm)
    · exact .inr h
  have hrr : root = r.fin := by rw [← f6, hg'.root]
  -- the bends
  have turn : root = a.fin ∨ root = b.fin → Between A B r := by
    intro h
    rcases h with h | h
    · have : r = a := Vec2.fin_injective (hrr.symm.trans h)
      rw [this, hg.ha]
      exact ⟨s, hg.s0, by linarith [hg.st, hg.t1], rfl⟩
    · have : r = b := Vec2.fin_injective (hrr.symm.trans h)
      rw [this, hg.hb]
      exact ⟨t, by linarith [hg.st, hg.s0], hg.t1, rfl⟩
  unfold successorRoot at hr
  cases hty : su.ty with
  | rightNonObservable =>
    left
    rw [hty] at hr
    simp only at hr
    split at hr
    · simp at hr
    simp only [bind_eq_ok, idx_eq_ok] at hr
    obtain ⟨prev', hpv, v, hvv, hr⟩ := hr
    split at hr
    swap
    · simp at hr
    simp only [Except.ok.injEq, Option.some.injEq] at hr
    have hbr := turn (.inl (by rw [← hr, hg.interval]))
    exact ⟨hbr, around hbr⟩
  | leftNonObservable =>
    left
    rw [hty] at hr
    simp only at hr
    split at hr
    · simp at hr
    simp only [bind_eq_ok, idx_eq_ok] at hr
    obtain ⟨prev', hpv, v, hvv, hr⟩ := hr
    split at hr
    swap
    · simp at hr
    simp only [Except.ok.injEq, Option.some.injEq] at hr
    have hbr := turn (.inr (by rw [← hr, hg.interval]))
    exact ⟨hbr, around hbr⟩
  | observable =>
    obtain ⟨o1, o2, o3, o4, o5, o6⟩ := good.observable hty
    have hbetween : ∀ x, Between a' b' x → 0 ≤ tri r a x ∧ tri r b x ≤ 0 := by
      rintro x ⟨u, hu0, hu1, rfl⟩
      rw [tri_along, tri_along]
      have h1 := mul_nonneg (show 0 ≤ 1 - u by linarith) o1
      have h2 := mul_nonneg hu0 o2
      have h3 := mul_nonpos_of_nonneg_of_nonpos (show 0 ≤ 1 - u by linarith) o3
      have h4 := mul_nonpos_of_nonneg_of_nonpos hu0 o4
      constructor <;> linarith
    have hin' : ∀ x, Between a' b' x → Inside (ps.rotate k) x := by
      rintro x ⟨u, hu0, hu1, rfl⟩
      rw [good.e1, good.e2, along_along]
      have h1 := mul_nonneg hu0 (show 0 ≤ u2 - u1 by linarith)
      have h2 := mul_le_of_le_one_left (show 0 ≤ u2 - u1 by linarith) hu1
      exact (hview.fan.inside hC).between (hview.fan.inside hD)
        ⟨_, by linarith [good.u0], by linarith [good.u3], rfl⟩
    rcases hg.hr.eq_or_lt with hz | hpos
    · -- the root is on the line of the edge
      left
      have hbr : Between A B r := by
        have hAB : A ≠ B := by
          rintro rfl
          simp [tri] at hmidneg
        obtain ⟨κ, hκ⟩ := on_line hAB hz.symm
        obtain ⟨rfl, rfl⟩ := hg.flat hz.symm
        have ha : a = A := by rw [hg.ha, along_zero]
        have hb' : b = B := by rw [hg.hb, along_one]
        obtain ⟨m1, m2⟩ := hbetween _ (⟨1 / 2, by norm_num, by norm_num, rfl⟩ :
          Between a' b' (along a' b' (1 / 2)))
        rw [ha] at m1
        rw [hb'] at m2
        have e1 : tri r A (along a' b' (1 / 2)) = -κ * tri A B (along a' b' (1 / 2)) := by
          rw [hκ]; generalize along a' b' (1 / 2) = x
          simp only [tri, along]; ring
        have e2 : tri r B (along a' b' (1 / 2)) = (1 - κ) * tri A B (along a' b' (1 / 2)) := by
          rw [hκ]; generalize along a' b' (1 / 2) = x
          simp only [tri, along]; ring
        rw [e1] at m1
        rw [e2] at m2
        refine ⟨κ, ?_, ?_, hκ⟩
        · by_contra hneg
          have := mul_neg_of_pos_of_neg (show 0 < -κ by linarith) hmidneg
          linarith
        · by_contra hneg
          have := mul_pos_of_neg_of_neg (show 1 - κ < 0 by linarith) hmidneg
          linarith
      exact ⟨hbr, around hbr⟩
    · right
      refine ⟨hpos, ?_, ?_, ?_⟩
      · intro hbr
        have := hview.fan.base_nonpos ((hview.fan.inside hC).between (hview.fan.inside hD) hbr)
        linarith
      · intro x hx
        exact hview.sees hg.flat (hin' x hx) (hbetween x hx).1 (hbetween x hx).2
      · intro u h0 h1
        exact hview.fan.edge_inner hC hD h0 h1

/-- The root of a node is the start or a point where a path may bend. -/
theorem gen_root {q : Query (Ext F)} {start goal : Vec2 F} (hc : Conforming q.mesh)
    (hm : NoNearMiss q.mesh start goal) (hd : q.dst.2 ≠ u32Max) (hsrc : q.src.1 = start.fin)
    (hin : InPolygon q.mesh q.src.2 start) {n : SearchNode (Ext F)} (h : Gen q n) :
    n.root = start.fin ∨ ∃ r, n.root = r.fin ∧ BendPoint q.mesh q.blocked r := by
  induction h with
  | setup hs =>
    obtain ⟨layer, poly, edges, edge, vs, ve, hl, hp, he, hmem, h0, h1, hb, hgo, hA⟩ := hs
    obtain ⟨f1, f2, f3, f4, f5, f6⟩ := added_fields hA
    exact .inl (by rw [f6, hsrc])
  | @child node n hn hch ih =>
    obtain ⟨r, a, b, A, B, s, t, hg⟩ := gen_geo hc hm hd hsrc hin hn
    obtain ⟨cs, hinv⟩ := gen_inv hd hn
    obtain ⟨layer, succs, su, vs, ve, root, hnd, hl, he, hs, h0, h1, hmax, hb, hgo, hfrom, hr, htiny, hA⟩
      := hch
    obtain ⟨f1, f2, f3, f4, f5, f6⟩ := added_fields hA
    obtain ⟨prev, hpl, ⟨vA, hvA, hvA'⟩, ⟨vB, hvB, hvB'⟩⟩ := hg.at_
    have hpl' : q.mesh.layers[node.previousPolygonLayer.toNat]? = some prev := by
      rw [hinv.prev, layerOf_toNat]; exact hpl
    unfold successorRoot at hr
    cases hty : su.ty with
    | rightNonObservable =>
      rw [hty] at hr
      simp only at hr
      split at hr
      · simp at hr
      simp only [bind_eq_ok, idx_eq_ok] at hr
      obtain ⟨prev', hpv, v, hvv, hr⟩ := hr
      have : prev' = prev := Option.some.inj (hpv.symm.trans hpl')
      subst this
      have : v = vA := Option.some.inj (hvv.symm.trans hvA)
      subst this
      split at hr
      swap
      · simp at hr
      rename_i hcond
      simp only [Bool.and_eq_true] at hcond
      simp only [Except.ok.injEq, Option.some.injEq] at hr
      have haA : a = A := by
        have hd := hcond.2
        rw [hvA', hg.interval, fin_distanceSquared, ext_tol10, ext_lt] at hd
        refine hm.ends r A B a A hg.eye hg.sightA (.inl rfl) ?_
        have : sqDist a A = sqDist A a := by simp only [sqDist]; ring
        rw [this]; linarith
      refine .inr ⟨a, by rw [f6, ← hr, hg.interval], prev', List.mem_of_getElem? hpl, v,
        List.mem_of_getElem? hvA, by rw [hvA', haA], mayBend_of_canTurnAt hcond.1⟩
    | observable =>
      rw [hty] at hr
      simp only [Except.ok.injEq, Option.some.injEq] at hr
      rw [f6, ← hr]
      exact ih
    | leftNonObservable =>
      rw [hty] at hr
      simp only at hr
      split at hr
      · simp at hr
      simp only [bind_eq_ok, idx_eq_ok] at hr
      obtain ⟨prev', hpv, v, hvv, hr⟩ := hr
      have : prev' = prev := Option.some.inj (hpv.symm.trans hpl')
      subst this
      have : v = vB := Option.some.inj (hvv.symm.trans hvB)
      subst this
      split at hr
      swap
      · simp at hr
      rename_i hcond
      simp only [Bool.and_eq_true] at hcond
      simp only [Except.ok.injEq, Option.some.injEq] at hr
      have hbB : b = B := by
        have hd := hcond.2
        rw [hvB', hg.interval, fin_distanceSquared, ext_tol10, ext_lt] at hd
        refine hm.ends r A B b B hg.eye hg.sightB (.inr rfl) ?_
        have : sqDist b B = sqDist B b := by simp only [sqDist]; ring
        rw [this]; linarith
      refine .inr ⟨b, by rw [f6, ← hr, hg.interval], prev', List.mem_of_getElem? hpl, v,
        List.mem_of_getElem? hvB, by rw [hvB', hbB], mayBend_of_canTurnAt hcond.1⟩

/-- A child with the same root. -/
def SameRoot (q : Query (Ext F)) (n' n : SearchNode (Ext F)) : Prop :=
  Gen q n ∧ ChildNode q n n' ∧ n'.root = n.root

instance : Finite Crossing := by
  have : Function.Injective (fun c : Crossing => (c.src, c.dst, c.a, c.b)) := by
    rintro ⟨a, b, c, d⟩ ⟨a', b', c', d'⟩ h
    simpa using h
  have h32 : Finite UInt32 := Finite.of_injective UInt32.toFin (fun a b h => UInt32.toFin_inj.1 h)
  exact Finite.of_injective _ this

/-- Chains of nodes with the same root are finite. -/
theorem sameRoot_wf {q : Query (Ext F)} {start goal : Vec2 F} (hc : Conforming q.mesh)
    (hm : NoNearMiss q.mesh start goal) (hd : q.dst.2 ≠ u32Max) (hsrc : q.src.1 = start.fin)
    (hin : InPolygon q.mesh q.src.2 start) (hstart : NoCircle q.mesh start)
    (hbend : ∀ r, BendPoint q.mesh q.blocked r → NoCircle q.mesh r) : WellFounded (SameRoot q) := by
  rw [wellFounded_iff_isEmpty_descending_chain]
  refine ⟨?_⟩
  rintro ⟨f, hf⟩
  have hgen : ∀ k, Gen q (f k) := fun k => (hf k).1
  have hchild : ∀ k, ChildNode q (f k) (f (k + 1)) := fun k => (hf k).2.1
  obtain ⟨r, hr⟩ : ∃ r : Vec2 F, (f 0).root = r.fin := by
    obtain ⟨r, a, b, A, B, s, t, hg⟩ := gen_geo hc hm hd hsrc hin (hgen 0)
    exact ⟨r, hg.root⟩
  have hroot : ∀ k, (f k).root = r.fin := by
    intro k
    induction k with
    | zero => exact hr
    | succ k ih => rw [(hf k).2.2, ih]
  have hnc : NoCircle q.mesh r := by
    rcases gen_root hc hm hd hsrc hin (hgen 0) with h | ⟨r', h, hb⟩
    · obtain rfl := Vec2.fin_injective (hr.symm.trans h)
      exact hstart
    · obtain rfl := Vec2.fin_injective (hr.symm.trans h)
      exact hbend r hb
  have hgeo : ∀ k, ∃ a b A B s t, NodeGeo q.mesh q.src.2 start (f k) r a b A B s t := by
    intro k
    obtain ⟨r', a, b, A, B, s, t, hg⟩ := gen_geo hc hm hd hsrc hin (hgen k)
    obtain rfl := Vec2.fin_injective ((hroot k).symm.trans hg.root)
    exact ⟨a, b, A, B, s, t, hg⟩
  choose a b A B s t hg using hgeo
  have hval : ∀ k, (f k).crossing.Valid q.mesh ∧ (f k).previousPolygonLayer = layerOf (f k).polygonFrom := by
    intro k
    obtain ⟨cs, hinv⟩ := gen_inv hd (hgen k)
    exact ⟨hinv.valid, hinv.prev⟩
  have step := fun k => same_root_step hc hm (hg k) (hval k).1 (hval k).2 (hchild k) (hg (k + 1))
  obtain ⟨i, j, hij, heq⟩ : ∃ i j, i < j ∧ (f i).crossing = (f j).crossing := by
    obtain ⟨i, j, hne, he⟩ := Finite.exists_ne_map_eq_of_infinite (fun k => (f k).crossing)
    rcases lt_or_gt_of_ne hne with h | h
    · exact ⟨i, j, h, he⟩
    · exact ⟨j, i, h, he.symm⟩
  obtain ⟨eA, eB⟩ : A j = A i ∧ B j = B i := by
    obtain ⟨l, hl, h1, h2⟩ := (hg i).at_
    obtain ⟨l', hl', h1', h2'⟩ := (hg j).at_
    rw [← heq] at hl' h1' h2'
    have : l' = l := Option.some.inj (hl'.symm.trans hl)
    subst this
    exact ⟨h1'.unique h1, h2'.unique h2⟩
  by_cases hbi : Between (A i) (B i) r
  · -- walking around the root
    have back : ∀ d, d ≤ j → Between (A (j - d)) (B (j - d)) r := by
      intro d
      induction d with
      | zero => intro _; rw [Nat.sub_zero, eA, eB]; exact hbi
      | succ d ih =>
        intro hd'
        have h := ih (by omega)
        have e : j - d = j - (d + 1) + 1 := by omega
        rw [e] at h
        rcases step (j - (d + 1)) with ⟨h1, -⟩ | ⟨-, h1, -⟩
        · exact h1
        · exact absurd h h1
    have all : ∀ k, k ≤ j → Between (A k) (B k) r := by
      intro k hk
      have := back (j - k) (by omega)
      rwa [Nat.sub_sub_self hk] at this
    have turns : ∀ k, k + 1 ≤ j → TurnsTo q.mesh r (f k).crossing (f (k + 1)).crossing := by
      intro k hk
      refine ⟨(hval k).1, (hval (k + 1)).1, ?_, ?_, ⟨_, _, (hg k).at_, all k (by omega)⟩,
        ⟨_, _, (hg (k + 1)).at_, all (k + 1) hk⟩⟩
      · obtain ⟨layer, succs, su, vs, ve, root, -, -, -, -, -, -, -, -, -, -, -, -, hA⟩ := hchild k
        obtain ⟨f1, -⟩ := added_fields hA
        simp only [SearchNode.crossing, f1]
      · obtain ⟨layer, succs, su, vs, ve, root, -, -, -, -, -, -, -, -, -, hfrom, -, -, hA⟩ := hchild k
        obtain ⟨f1, f2, -⟩ := added_fields hA
        simp only [SearchNode.crossing, f2]
        exact hfrom
    have chain : ∀ d, i + (d + 1) ≤ j →
        Relation.TransGen (TurnsTo q.mesh r) (f i).crossing (f (i + (d + 1))).crossing := by
      intro d
      induction d with
      | zero => intro h; exact .single (turns i h)
      | succ d ih => intro h; exact .tail (ih (by omega)) (turns (i + (d + 1)) h)
    have := chain (j - i - 1) (by omega)
    have e : i + (j - i - 1 + 1) = j := by omega
    rw [e, ← heq] at this
    exact hnc _ this
  · -- going away from the root
    have hpos : 0 < tri (A i) (B i) r := by
      rcases step i with ⟨h, -⟩ | ⟨h, -⟩
      · exact absurd h hbi
      · exact h
    have away : ∀ d, (∀ x, Between (a (i + d)) (b (i + d)) x → tri (A i) (B i) x ≤ 0)
        ∧ ¬ Between (A (i + d)) (B (i + d)) r := by
      intro d
      induction d with
      | zero =>
        refine ⟨?_, hbi⟩
        rintro x ⟨u, -, -, rfl⟩
        simp only [Nat.add_zero]
        rw [(hg i).ha, (hg i).hb, along_along, tri_along]
        simp
      | succ d ih =>
        rcases step (i + d) with ⟨h, -⟩ | ⟨-, h1, h2, -⟩
        · exact absurd h ih.2
        · refine ⟨?_, h1⟩
          intro x hx
          obtain ⟨y, hy, κ, k0, k1, rfl⟩ := h2 x hx
          have := ih.1 _ hy
          rw [tri_along] at this
          have h3 := mul_nonneg (show 0 ≤ 1 - κ by linarith) hpos.le
          by_contra hneg
          push Not at hneg
          have h4 := mul_nonneg k0 hneg.le
          rcases k0.eq_or_lt with h5 | h5
          · subst h5
            linarith
          · have := mul_pos h5 hneg
            linarith
    obtain ⟨d, rfl⟩ : ∃ d, j = i + d + 1 := ⟨j - i - 1, by omega⟩
    rcases step (i + d) with ⟨h, -⟩ | ⟨-, -, h2, h3⟩
    · exact absurd h (away d).2
    · have gj := hg (i + d + 1)
      have hx : Between (a (i + d + 1)) (b (i + d + 1)) (along (a (i + d + 1)) (b (i + d + 1)) (1 / 2)) :=
        ⟨1 / 2, by norm_num, by norm_num, rfl⟩
      have emid : along (a (i + d + 1)) (b (i + d + 1)) (1 / 2) = along (A (i + d + 1)) (B (i + d + 1))
          (s (i + d + 1) + 1 / 2 * (t (i + d + 1) - s (i + d + 1))) := by
        rw [gj.ha, gj.hb, along_along]
      have hzero : tri (A i) (B i) (along (a (i + d + 1)) (b (i + d + 1)) (1 / 2)) = 0 := by
        rw [emid, eA, eB, tri_along]; simp
      have hneg : tri (A (i + d)) (B (i + d)) (along (a (i + d + 1)) (b (i + d + 1)) (1 / 2)) < 0 := by
        rw [emid]
        exact h3 _ (by linarith [gj.s0, gj.st]) (by linarith [gj.t1, gj.st])
      obtain ⟨y, hy, κ, k0, k1, hyx⟩ := h2 _ hx
      have hy0 : tri (A (i + d)) (B (i + d)) y = 0 := by
        obtain ⟨u, -, -, rfl⟩ := hy
        rw [(hg (i + d)).ha, (hg (i + d)).hb, along_along, tri_along]
        simp
      have hκ : κ < 1 := by
        refine lt_of_le_of_ne k1 ?_
        rintro rfl
        rw [along_one] at hyx
        rw [← hyx] at hneg
        exact hneg.ne hy0
      have := (away d).1 y hy
      rw [hyx, tri_along, hzero, mul_zero, add_zero] at this
      have := mul_pos (show 0 < 1 - κ by linarith) hpos
      linarith

end Polyanya
