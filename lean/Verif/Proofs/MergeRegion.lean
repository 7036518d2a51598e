import Verif.Proofs.MergeArea
import Verif.Proofs.Convex
import Verif.Spec.Region
/-
The region covered by two convex polygons that are joined along an edge into a convex polygon (C63).
-/

namespace Polyanya

/-! ### Plane geometry -/

/-- If `x` is on the left of all edges of a convex polygon, then it is on the left of every line that has no corner
on its right. -/
theorem inside_left {ps : List (Vec2 ℝ)} (hp : ConvexOutline ps) (hne : ps ≠ []) {x : Vec2 ℝ}
    (hx : ∀ a b, Consecutive ps a b → 0 < tri a b x) {c d : Vec2 ℝ} (hcd : c ≠ d) (h : ∀ v ∈ ps, 0 ≤ tri c d v) :
    0 < tri c d x := by
  -- the corner with the least value
  obtain ⟨v, hv, hmin⟩ : ∃ v ∈ ps, ∀ w ∈ ps, tri c d v ≤ tri c d w := by
    have hfin : (ps.toFinset : Finset (Vec2 ℝ)).Nonempty := by
      cases ps with
      | nil => exact absurd rfl hne
      | cons a ps => exact ⟨a, by simp⟩
    obtain ⟨v, hv, hm⟩ := Finset.exists_min_image ps.toFinset (fun v => tri c d v) hfin
    exact ⟨v, by simpa using hv, fun w hw => hm w (by simpa using hw)⟩
  obtain ⟨i, hi, hiv⟩ := List.mem_iff_getElem.1 hv
  have hn : 0 < ps.length := by omega
  -- its neighbours
  obtain ⟨w, hw⟩ : ∃ w, Consecutive ps v w := by
    have hlt : (i + 1) % ps.length < ps.length := Nat.mod_lt _ hn
    exact ⟨_, i, hi, by rw [List.getElem?_eq_getElem hi, hiv], List.getElem?_eq_getElem hlt⟩
  obtain ⟨u, hu⟩ : ∃ u, Consecutive ps u v := by
    have hlt : (i + (ps.length - 1)) % ps.length < ps.length := Nat.mod_lt _ hn
    refine ⟨_, (i + (ps.length - 1)) % ps.length, hlt, List.getElem?_eq_getElem hlt, ?_⟩
    have : ((i + (ps.length - 1)) % ps.length + 1) % ps.length = i := by
      rw [Nat.mod_add_mod, show i + (ps.length - 1) + 1 = i + ps.length by omega, Nat.add_mod_right,
        Nat.mod_eq_of_lt hi]
    rw [this, List.getElem?_eq_getElem hi, hiv]
  have hmem : ∀ {a b}, Consecutive ps a b → a ∈ ps ∧ b ∈ ps := by
    rintro a b ⟨k, _, h1, h2⟩
    exact ⟨List.mem_of_getElem? h1, List.mem_of_getElem? h2⟩
  have f0 := h v hv
  have fw := hmin w (hmem hw).2
  have fu := hmin u (hmem hu).1
  have xw := hx v w hw
  have xu := hx u v hu
  have hD := hp.left v w hw u (hmem hu).1
  have hE : ∀ y z : Vec2 ℝ, tri v y z ≠ 0 → ¬ (tri c d y - tri c d v = 0 ∧ tri c d z - tri c d v = 0) := by
    rintro y z hyz ⟨e1, e2⟩
    apply hcd
    have hx1 : (d.x - c.x) * tri v y z = 0 := by
      unfold tri at *
      linear_combination (y.x - v.x) * e2 - (z.x - v.x) * e1
    have hy1 : (d.y - c.y) * tri v y z = 0 := by
      unfold tri at *
      linear_combination (y.y - v.y) * e2 - (z.y - v.y) * e1
    have ex : d.x - c.x = 0 := (mul_eq_zero.1 hx1).resolve_right hyz
    have ey : d.y - c.y = 0 := (mul_eq_zero.1 hy1).resolve_right hyz
    cases c; cases d
    simp only [Vec2.mk.injEq] at *
    exact ⟨by linarith, by linarith⟩
  have hPl : (tri c d x - tri c d v) * tri v w u =
      (tri c d w - tri c d v) * tri u v x + (tri c d u - tri c d v) * tri v w x := by
    unfold tri; ring
  rcases hD.lt_or_eq with hD | hD
  · by_contra hneg
    push Not at hneg
    have h1 : (tri c d x - tri c d v) * tri v w u ≤ 0 := mul_nonpos_of_nonpos_of_nonneg (by linarith) hD.le
    have h2 : 0 ≤ (tri c d w - tri c d v) * tri u v x := mul_nonneg (by linarith) xu.le
    have h3 : 0 ≤ (tri c d u - tri c d v) * tri v w x := mul_nonneg (by linarith) xw.le
    have h4 : (tri c d w - tri c d v) * tri u v x = 0 := by linarith
    have h5 : (tri c d u - tri c d v) * tri v w x = 0 := by linarith
    exact hE w u hD.ne' ⟨(mul_eq_zero.1 h4).resolve_right xu.ne', (mul_eq_zero.1 h5).resolve_right xw.ne'⟩
  · rw [← hD, mul_zero] at hPl
    have h2 : 0 ≤ (tri c d w - tri c d v) * tri u v x := mul_nonneg (by linarith) xu.le
    have h3 : 0 ≤ (tri c d u - tri c d v) * tri v w x := mul_nonneg (by linarith) xw.le
    have h4 : (tri c d w - tri c d v) * tri u v x = 0 := by linarith
    have ew := (mul_eq_zero.1 h4).resolve_right xu.ne'
    obtain ⟨z, hz, hzp⟩ := hp.proper v w hw
    have fz := hmin z hz
    have hPl2 : (tri c d x - tri c d v) * tri v w z =
        (tri c d z - tri c d v) * tri v w x + (tri c d w - tri c d v) * tri v x z := by
      unfold tri; ring
    rw [ew, zero_mul, add_zero] at hPl2
    have hz0 : 0 < tri c d z - tri c d v := by
      rcases (sub_nonneg.2 fz).lt_or_eq with h | h
      · exact h
      · exact absurd ⟨ew, h.symm⟩ (hE w z hzp.ne')
    have : 0 < (tri c d x - tri c d v) * tri v w z := by rw [hPl2]; exact mul_pos hz0 xw
    have := (pos_iff_pos_of_mul_pos this).2 hzp
    linarith

/-- A point on the line through `a` and `b`. -/
theorem mr_on_line {a b x : Vec2 ℝ} (hab : a ≠ b) (h : tri a b x = 0) : ∃ t, x = along a b t := by
  by_cases hx : b.x - a.x = 0
  · have hy : b.y - a.y ≠ 0 := by
      intro hy
      apply hab
      cases a; cases b
      simp only [Vec2.mk.injEq] at *
      exact ⟨by linarith, by linarith⟩
    refine ⟨(x.y - a.y) / (b.y - a.y), ?_⟩
    cases x with | mk x y =>
    simp only [along, Vec2.mk.injEq]
    refine ⟨?_, ?_⟩
    · unfold tri at h
      simp only [hx, zero_mul, zero_sub, neg_eq_zero] at h
      have := (mul_eq_zero.1 h).resolve_left hy
      rw [hx]; linarith
    · field_simp; ring
  · refine ⟨(x.x - a.x) / (b.x - a.x), ?_⟩
    cases x with | mk x y =>
    simp only [along, Vec2.mk.injEq]
    unfold tri at h
    simp only at h
    refine ⟨by field_simp; ring, ?_⟩
    field_simp
    linarith

/-- Two convex polygons `P` (with the edge from `a` to `b`) and `Q` (with the edge from `b` to `a`) that are joined
into the convex polygon `R`. -/
structure JoinedUp (P Q R : List (Vec2 ℝ)) (a b : Vec2 ℝ) : Prop where
  edgeP : Consecutive P a b
  edgeQ : Consecutive Q b a
  subP : ∀ v ∈ P, v ∈ R
  subQ : ∀ v ∈ Q, v ∈ R
  fromPQ : ∀ c d, Consecutive R c d → Consecutive P c d ∨ Consecutive Q c d
  toP : ∀ c d, Consecutive P c d → (c, d) = (a, b) ∨ Consecutive R c d
  toQ : ∀ c d, Consecutive Q c d → (c, d) = (b, a) ∨ Consecutive R c d

theorem mr_consecutive_mem {ps : List (Vec2 ℝ)} {a b : Vec2 ℝ} (h : Consecutive ps a b) : a ∈ ps ∧ b ∈ ps := by
  obtain ⟨k, _, h1, h2⟩ := h
  exact ⟨List.mem_of_getElem? h1, List.mem_of_getElem? h2⟩

theorem mr_next {ps : List (Vec2 ℝ)} {v : Vec2 ℝ} (hv : v ∈ ps) : ∃ w, Consecutive ps v w := by
  obtain ⟨i, hi, hiv⟩ := List.mem_iff_getElem.1 hv
  have hlt : (i + 1) % ps.length < ps.length := Nat.mod_lt _ (by omega)
  exact ⟨_, i, hi, by rw [List.getElem?_eq_getElem hi, hiv], List.getElem?_eq_getElem hlt⟩

theorem mr_prev {ps : List (Vec2 ℝ)} {v : Vec2 ℝ} (hv : v ∈ ps) : ∃ u, Consecutive ps u v := by
  obtain ⟨i, hi, hiv⟩ := List.mem_iff_getElem.1 hv
  have hlt : (i + (ps.length - 1)) % ps.length < ps.length := Nat.mod_lt _ (by omega)
  refine ⟨_, (i + (ps.length - 1)) % ps.length, hlt, List.getElem?_eq_getElem hlt, ?_⟩
  have : ((i + (ps.length - 1)) % ps.length + 1) % ps.length = i := by
    rw [Nat.mod_add_mod, show i + (ps.length - 1) + 1 = i + ps.length by omega, Nat.add_mod_right,
      Nat.mod_eq_of_lt hi]
  rw [this, List.getElem?_eq_getElem hi, hiv]

theorem ConvexOutline.ne {ps : List (Vec2 ℝ)} (hp : ConvexOutline ps) {a b : Vec2 ℝ} (h : Consecutive ps a b) :
    a ≠ b := by
  rintro rfl
  obtain ⟨c, -, hc⟩ := hp.proper a a h
  simp at hc

theorem JoinedUp.symm {P Q R : List (Vec2 ℝ)} {a b : Vec2 ℝ} (h : JoinedUp P Q R a b) : JoinedUp Q P R b a :=
  ⟨h.edgeQ, h.edgeP, h.subQ, h.subP, fun c d hcd => (h.fromPQ c d hcd).symm, h.toQ, h.toP⟩

/-- The shared edge is in the union. -/
theorem JoinedUp.shared {P Q R : List (Vec2 ℝ)} {a b x : Vec2 ℝ} (h : JoinedUp P Q R a b) (hP : ConvexOutline P)
    (hQ : ConvexOutline Q) (hR : ConvexOutline R) (hx : Between a b x) : Encloses R x := by
  obtain ⟨u, u0, u1, rfl⟩ := hx
  have haR := h.subP a (mr_consecutive_mem h.edgeP).1
  have hbR := h.subP b (mr_consecutive_mem h.edgeP).2
  rcases u0.lt_or_eq with u0 | rfl
  · rcases u1.lt_or_eq with u1 | rfl
    · left
      intro c d hcd
      rw [tri_along]
      have fa := hR.left c d hcd a haR
      have fb := hR.left c d hcd b hbR
      by_contra hneg
      have e1 : 0 ≤ (1 - u) * tri c d a := mul_nonneg (by linarith) fa
      have e2 : 0 ≤ u * tri c d b := mul_nonneg u0.le fb
      have z1 : tri c d a = 0 := by
        have : (1 - u) * tri c d a = 0 := by linarith
        exact (mul_eq_zero.1 this).resolve_left (by linarith)
      have z2 : tri c d b = 0 := by
        have : u * tri c d b = 0 := by linarith
        exact (mul_eq_zero.1 this).resolve_left u0.ne'
      obtain ⟨y, hy, hyp⟩ := hP.proper a b h.edgeP
      obtain ⟨q, hq, hqp⟩ := hQ.proper b a h.edgeQ
      have fy := hR.left c d hcd y (h.subP y hy)
      have fq := hR.left c d hcd q (h.subQ q hq)
      have hPl : tri c d y * tri b a q + tri c d q * tri a b y = 0 := by
        have : tri c d y * tri b a q + tri c d q * tri a b y =
            (tri c d a - tri c d b) * tri a y q + tri c d a * (tri b a q + tri a b y) := by
          unfold tri; ring
        rw [this, z1, z2]; ring
      have hpos : 0 < tri b a q := hqp
      have g1 : 0 ≤ tri c d y * tri b a q := mul_nonneg fy hpos.le
      have g2 : 0 ≤ tri c d q * tri a b y := mul_nonneg fq hyp.le
      have g3 : tri c d y = 0 := (mul_eq_zero.1 (by linarith : tri c d y * tri b a q = 0)).resolve_right hpos.ne'
      apply hR.ne hcd
      have hx1 : (d.x - c.x) * tri a b y = 0 := by
        unfold tri at *
        linear_combination (b.x - a.x) * (g3 - z1) - (y.x - a.x) * (z2 - z1)
      have hy1 : (d.y - c.y) * tri a b y = 0 := by
        unfold tri at *
        linear_combination (b.y - a.y) * (g3 - z1) - (y.y - a.y) * (z2 - z1)
      have ex : d.x - c.x = 0 := (mul_eq_zero.1 hx1).resolve_right hyp.ne'
      have ey : d.y - c.y = 0 := (mul_eq_zero.1 hy1).resolve_right hyp.ne'
      cases c; cases d
      simp only [Vec2.mk.injEq] at *
      exact ⟨by linarith, by linarith⟩
    · obtain ⟨w, hw⟩ := mr_next hbR
      rw [along_one]
      exact .inr ⟨b, w, hw, Between.left _ _⟩
  · obtain ⟨w, hw⟩ := mr_next haR
    rw [along_zero]
    exact .inr ⟨a, w, hw, Between.left _ _⟩

/-- The first polygon is in the union. -/
theorem JoinedUp.sub {P Q R : List (Vec2 ℝ)} {a b x : Vec2 ℝ} (h : JoinedUp P Q R a b) (hP : ConvexOutline P)
    (hQ : ConvexOutline Q) (hR : ConvexOutline R) (hx : Encloses P x) : Encloses R x := by
  rcases hx with hx | ⟨c, d, hcd, hx⟩
  · left
    intro c d hcd
    refine inside_left hP ?_ hx (hR.ne hcd) fun v hv => hR.left c d hcd v (h.subP v hv)
    rintro rfl
    exact absurd (mr_consecutive_mem h.edgeP).1 (by simp)
  · rcases h.toP c d hcd with he | he
    · cases he
      exact h.shared hP hQ hR hx
    · exact .inr ⟨c, d, he, hx⟩

/-- Joining two convex polygons into a convex polygon gives exactly their union. -/
theorem JoinedUp.region {P Q R : List (Vec2 ℝ)} {a b : Vec2 ℝ} (h : JoinedUp P Q R a b) (hP : ConvexOutline P)
    (hQ : ConvexOutline Q) (hR : ConvexOutline R) (x : Vec2 ℝ) : Encloses R x ↔ Encloses P x ∨ Encloses Q x := by
  constructor
  · rintro (hx | ⟨c, d, hcd, hx⟩)
    · rcases lt_trichotomy (tri a b x) 0 with hs | hs | hs
      · right; left
        intro c d hcd
        rcases h.toQ c d hcd with he | he
        · cases he
          rw [tri_swap]; linarith
        · exact hx c d he
      · left; right
        refine ⟨a, b, h.edgeP, ?_⟩
        have hab := hP.ne h.edgeP
        obtain ⟨t, rfl⟩ := mr_on_line hab hs
        obtain ⟨w, hw⟩ := mr_next (mr_consecutive_mem h.edgeP).2
        obtain ⟨z, hz⟩ := mr_prev (mr_consecutive_mem h.edgeP).1
        have hw' : Consecutive R b w := by
          rcases h.toP b w hw with he | he
          · exact absurd (congrArg Prod.fst he).symm hab
          · exact he
        have hz' : Consecutive R z a := by
          rcases h.toP z a hz with he | he
          · exact absurd (congrArg Prod.snd he) hab
          · exact he
        have e1 := hx b w hw'
        have e2 := hx z a hz'
        rw [tri_along] at e1 e2
        simp only [tri_left, tri_right, mul_zero, add_zero, zero_add] at e1 e2
        have k1 := hP.left b w hw a (mr_consecutive_mem h.edgeP).1
        have k2 := hP.left z a hz b (mr_consecutive_mem h.edgeP).2
        refine ⟨t, ?_, ?_, rfl⟩
        · by_contra hc
          exact absurd e2 (not_lt.2 (mul_nonpos_of_nonpos_of_nonneg (by linarith) k2))
        · by_contra hc
          exact absurd e1 (not_lt.2 (mul_nonpos_of_nonpos_of_nonneg (by linarith) k1))
      · left; left
        intro c d hcd
        rcases h.toP c d hcd with he | he
        · cases he; exact hs
        · exact hx c d he
    · rcases h.fromPQ c d hcd with he | he
      · exact .inl (.inr ⟨c, d, he, hx⟩)
      · exact .inr (.inr ⟨c, d, he, hx⟩)
  · rintro (hx | hx)
    · exact h.sub hP hQ hR hx
    · exact h.symm.sub hQ hP hR hx

/-! ### The merging loop -/

variable {K : Type} [Scalar K]

theorem consecutive_map {pos : UInt32 → Vec2 ℝ} {vs : List UInt32} {A B : Vec2 ℝ} :
    Consecutive (vs.map pos) A B ↔ ∃ a b, IsEdge vs a b ∧ pos a = A ∧ pos b = B := by
  unfold Consecutive IsEdge
  simp only [List.length_map, List.getElem?_map, Option.map_eq_some_iff]
  constructor
  · rintro ⟨i, hi, ⟨a, h1, rfl⟩, b, h2, rfl⟩
    exact ⟨a, b, ⟨i, hi, h1, h2⟩, rfl, rfl⟩
  · rintro ⟨a, b, ⟨i, hi, h1, h2⟩, rfl, rfl⟩
    exact ⟨i, hi, ⟨a, h1, rfl⟩, b, h2, rfl⟩

theorem join_joined {pos : UInt32 → Vec2 ℝ} {Y X : List UInt32} {a b : UInt32} (hY : Y.Nodup) (hX : X.Nodup)
    (hY3 : 3 ≤ Y.length) (hX3 : 3 ≤ X.length) (hab : a ≠ b) (hYe : IsEdge Y a b) (hXe : IsEdge X b a) :
    JoinedUp (Y.map pos) (X.map pos) ((joinVertices Y X (a, b)).map pos) (pos a) (pos b) := by
  obtain ⟨je, jv, w, w', hJ, -, -⟩ := join_spec hY hX hab hYe hXe
  have hmemJ : ∀ v, v ∈ Y ∨ v ∈ X → v ∈ joinVertices Y X (a, b) := by
    intro v h
    have h1 := jv.mem_iff (a := v)
    simp only [List.mem_append] at h1
    rcases h1.2 h with h | h
    · exact h
    · simp only [List.mem_cons, List.not_mem_nil, or_false] at h
      rcases h with rfl | rfl <;> simp [hJ]
  have hedge : ∀ c d, IsEdge (joinVertices Y X (a, b)) c d ∨ (c, d) = (a, b) ∨ (c, d) = (b, a) ↔
      IsEdge Y c d ∨ IsEdge X c d := by
    intro c d
    have h1 := je.mem_iff (a := (c, d))
    simp only [List.mem_append, mem_cycEdges, List.mem_cons, List.not_mem_nil, or_false] at h1
    exact h1
  refine ⟨consecutive_map.2 ⟨a, b, hYe, rfl, rfl⟩, consecutive_map.2 ⟨b, a, hXe, rfl, rfl⟩, ?_, ?_, ?_, ?_, ?_⟩
  · intro v hv
    obtain ⟨u, hu, rfl⟩ := List.mem_map.1 hv
    exact List.mem_map_of_mem (hmemJ u (.inl hu))
  · intro v hv
    obtain ⟨u, hu, rfl⟩ := List.mem_map.1 hv
    exact List.mem_map_of_mem (hmemJ u (.inr hu))
  · intro c d hcd
    obtain ⟨u, v, huv, rfl, rfl⟩ := consecutive_map.1 hcd
    rcases (hedge u v).1 (.inl huv) with h | h
    · exact .inl (consecutive_map.2 ⟨u, v, h, rfl, rfl⟩)
    · exact .inr (consecutive_map.2 ⟨u, v, h, rfl, rfl⟩)
  · intro c d hcd
    obtain ⟨u, v, huv, rfl, rfl⟩ := consecutive_map.1 hcd
    rcases (hedge u v).2 (.inl huv) with h | h | h
    · exact .inr (consecutive_map.2 ⟨u, v, h, rfl, rfl⟩)
    · cases h; exact .inl rfl
    · cases h; exact absurd huv (isEdge_asymm hY hY3 hYe)
  · intro c d hcd
    obtain ⟨u, v, huv, rfl, rfl⟩ := consecutive_map.1 hcd
    rcases (hedge u v).2 (.inr huv) with h | h | h
    · exact .inr (consecutive_map.2 ⟨u, v, h, rfl, rfl⟩)
    · cases h; exact absurd huv (isEdge_asymm hX hX3 hXe)
    · cases h; exact .inl rfl

theorem coordsOf_place {l : Layer K} (val : K → ℝ) {vs : List UInt32} {cs : List (Vec2 K)}
    (h : l.coordsOf vs = .ok cs) : cs.map (Vec2.valued val) = vs.map (l.place val) := by
  unfold Layer.coordsOf at h
  rw [mapM_ok_iff] at h
  induction h with
  | nil => rfl
  | @cons v c vs cs h1 h2 ih =>
    rw [List.map_cons, List.map_cons, ih]
    congr 1
    rw [bind_eq_ok] at h1
    obtain ⟨vx, hvx, hc⟩ := h1
    cases hc
    unfold Layer.place
    rw [idx_eq_ok.1 hvx]

/-- Polygon `p` is convex and covers what the polygons of class `r` cover. -/
structure RPoly (val : K → ℝ) (l : Layer K) (par : List Nat) (r : Nat) (p : Polygon) : Prop where
  convex : ConvexOutline (l.outline val p)
  region : ∀ x, Encloses (l.outline val p) x ↔ ∃ q, InClass l par r q ∧ Encloses (l.outline val q) x

def RInv (val : K → ℝ) (l : Layer K) (st : MergeState) : Prop :=
  ∀ r p, Root st.parent r r → st.polygons[r]? = some p → RPoly val l st.parent r p

theorem RInv.init {val : K → ℝ} {l : Layer K} (hc : ∀ p ∈ l.polygons, ConvexOutline (l.outline val p)) :
    RInv val l { polygons := l.polygons, parent := ufNew l.polygons.length } := by
  intro r p hr hp
  have hp' : l.polygons[r]? = some p := hp
  refine ⟨hc p (List.mem_of_getElem? hp'), fun x => ⟨fun h => ⟨p, ⟨r, hr, hp'⟩, h⟩, ?_⟩⟩
  rintro ⟨q, ⟨m, hm, hq⟩, h⟩
  have := hm.unique (ufNew_root (by simpa [ufNew] using hm.lt))
  subst this
  rw [hp'] at hq
  cases hq
  exact h

theorem MStep.region {val : K → ℝ} {geo : Geo K} {l : Layer K} (hg : geo.AcceptsConvexOnly val)
    (hcon : l.Consistent) (hc : l.Conforming) {i : Nat} {todo : List Nat} {st st' : MergeState}
    (hs : MStep geo l i st st') (h : MInv l (i :: todo) st) (hR : RInv val l st) : RInv val l st' := by
  cases hs with
  | skip => exact hR
  | @merge a b Y X o start stop cs par' hi hp hYe hstart hstop ho1 ho2 hoM hoi ho hX hcs hconv hl hr =>
    obtain ⟨hoi', hab, hYn, hXn, hXe⟩ := merge_facts hcon hc h hi hp hYe hstart hstop ho1 ho2 hoM hoi ho hX
    have hin : i < st.polygons.length := (List.getElem?_eq_some_iff.1 hp).1
    have hroots := join_roots h.base.ok hl hr
    have hcls_i : ∀ q, InClass l par' i q ↔ InClass l st.parent i q ∨ InClass l st.parent o.toNat q := by
      intro q
      constructor
      · rintro ⟨m, hm, hq⟩
        obtain ⟨s, hs, hse⟩ := (hroots m i).1 hm
        split at hse
        · subst_vars; exact .inr ⟨m, hs, hq⟩
        · subst_vars; exact .inl ⟨m, hs, hq⟩
      · rintro (⟨m, hm, hq⟩ | ⟨m, hm, hq⟩)
        · exact ⟨m, (hroots m i).2 ⟨i, hm, by simp [Ne.symm hoi']⟩, hq⟩
        · exact ⟨m, (hroots m i).2 ⟨_, hm, by simp⟩, hq⟩
    have hroot_r : ∀ r, r ≠ i → Root par' r r → ∀ m, Root par' m r ↔ Root st.parent m r := by
      intro r hri hrr m
      rw [hroots]
      constructor
      · rintro ⟨s, hs, hse⟩
        split at hse
        · exact absurd hse hri
        · subst hse; exact hs
      · intro hm
        refine ⟨r, hm, ?_⟩
        split
        · rename_i hro
          subst hro
          obtain ⟨s, hs, hse⟩ := (hroots _ _).1 hrr
          split at hse
          · exact hse
          · rename_i hne
            exact absurd (hs.unique ho) hne
        · rfl
    intro r p hrr hrp
    simp only [set_get? hin] at hrp
    by_cases hri : r = i
    · subst hri
      rw [if_pos rfl] at hrp
      cases hrp
      have hconvJ : ConvexOutline ((joinVertices Y.vertices X.vertices (a, b)).map (l.place val)) := by
        rw [← coordsOf_place val hcs]
        exact (hg cs hconv).2
      have mY := h.poly r Y hi hp
      have mX := h.poly o.toNat X ho hX
      have rY := hR r Y hi hp
      have rX := hR o.toNat X ho hX
      refine ⟨hconvJ, fun x => ?_⟩
      have := (join_joined (pos := l.place val) hYn hXn mY.three mX.three hab hYe hXe).region rY.convex rX.convex hconvJ x
      refine this.trans ?_
      rw [show Encloses (Y.vertices.map (l.place val)) x ↔ _ from rY.region x,
        show Encloses (X.vertices.map (l.place val)) x ↔ _ from rX.region x]
      simp only [hcls_i]
      constructor
      · rintro (⟨q, hq, hx⟩ | ⟨q, hq, hx⟩)
        · exact ⟨q, .inl hq, hx⟩
        · exact ⟨q, .inr hq, hx⟩
      · rintro ⟨q, hq | hq, hx⟩
        · exact .inl ⟨q, hq, hx⟩
        · exact .inr ⟨q, hq, hx⟩
    · rw [if_neg hri] at hrp
      have hold := hR r p ((hroot_r r hri hrr r).1 hrr) hrp
      have hcls : ∀ q, InClass l par' r q ↔ InClass l st.parent r q := by
        intro q
        unfold InClass
        simp only [hroot_r r hri hrr]
      exact ⟨hold.convex, fun x => by simp only [hcls]; exact hold.region x⟩

theorem mergeLoop_region {val : K → ℝ} {geo : Geo K} {l : Layer K} (hg : geo.AcceptsConvexOnly val)
    (hcon : l.Consistent) (hc : l.Conforming) (hv : ∀ p ∈ l.polygons, ConvexOutline (l.outline val p))
    {order : List Nat} {st : MergeState} (ho : l.mergeOrder geo = .ok order)
    (h : order.foldlM (l.mergeOne geo) { polygons := l.polygons, parent := ufNew l.polygons.length } = .ok st) :
    RInv val l st :=
  (foldlM_todo (fun todo s => MInv l todo s ∧ RInv val l s)
    ((mergeOrder_perm ho).nodup_iff.2 List.nodup_range) ⟨MInv.init hc _, RInv.init hv⟩
    (fun s a t s' hnot hinv hs => ⟨(mergeOne_step hs).inv (fun cs h => (hg cs h).1) hcon hc hnot hinv.1,
      (mergeOne_step hs).region hg hcon hc hinv.1 hinv.2⟩) h).2

end Polyanya
