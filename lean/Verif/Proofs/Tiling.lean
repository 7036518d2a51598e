import Verif.Proofs.MergeRegion
import Verif.Props.MergeRegion
/-
Proper tilings are conforming, and merging keeps them (C63).
-/

namespace Polyanya

/-- Two polygons on the same side of a common edge overlap. -/
theorem overlap_of_left {ps qs : List (Vec2 ℝ)} (hp : ConvexOutline ps) (hq : ConvexOutline qs) {a b c : Vec2 ℝ}
    (hab : Consecutive ps a b) (ha : a ∈ qs) (hb : b ∈ qs) (hc : c ∈ qs) (hpos : 0 < tri a b c) :
    ∃ x, StrictlyEncloses ps x ∧ StrictlyEncloses qs x := by
  -- points on the segment from the middle of the edge to `c`
  have hbound : ∀ es : List (Vec2 ℝ × Vec2 ℝ), (∀ e ∈ es, Consecutive ps e.1 e.2) →
      ∃ T, 0 < T ∧ T ≤ 1 / 2 ∧ ∀ t, 0 < t → t ≤ T → ∀ e ∈ es, 0 < tri e.1 e.2 (along (along a b (1 / 2)) c t) := by
    intro es
    induction es with
    | nil => intro _; exact ⟨1 / 2, by norm_num, le_refl _, by simp⟩
    | cons e es ih =>
      intro he
      obtain ⟨T, T0, T1, hT⟩ := ih fun e' h => he e' (List.mem_cons_of_mem _ h)
      have hcons := he e List.mem_cons_self
      have fa := hp.left _ _ hcons a (mr_consecutive_mem hab).1
      have fb := hp.left _ _ hcons b (mr_consecutive_mem hab).2
      have key : ∃ S, 0 < S ∧ ∀ t, 0 < t → t ≤ S → 0 < tri e.1 e.2 (along (along a b (1 / 2)) c t) := by
        rcases (add_nonneg fa fb).lt_or_eq with hs | hs
        · set s := tri e.1 e.2 a + tri e.1 e.2 b with hs'
          refine ⟨s / (2 * (s + 2 * |tri e.1 e.2 c|)), ?_, ?_⟩
          · have := abs_nonneg (tri e.1 e.2 c)
            positivity
          · intro t t0 t1
            have h0 := abs_nonneg (tri e.1 e.2 c)
            have h1 := neg_abs_le (tri e.1 e.2 c)
            rw [le_div_iff₀ (by positivity)] at t1
            have e1 : tri e.1 e.2 (along (along a b (1 / 2)) c t) =
                (1 - t) * (s / 2) + t * tri e.1 e.2 c := by
              rw [tri_along, tri_along, hs']; ring
            rw [e1]
            nlinarith
        · -- the edge is on the line through `a` and `b`
          have za : tri e.1 e.2 a = 0 := by linarith
          have zb : tri e.1 e.2 b = 0 := by linarith
          have hne := hp.ne hab
          have hne' := hp.ne hcons
          obtain ⟨d, hd, hdp⟩ := hp.proper a b hab
          obtain ⟨d', hd', hdp'⟩ := hp.proper _ _ hcons
          have fd := hp.left _ _ hcons d hd
          have id1 : ∀ y, tri e.1 e.2 y * tri a b d = tri e.1 e.2 d * tri a b y := by
            intro y
            have : tri e.1 e.2 y * tri a b d - tri e.1 e.2 d * tri a b y =
              tri e.1 e.2 a * (tri a b d - tri a b y) + (tri e.1 e.2 b - tri e.1 e.2 a) * tri a y d := by
              unfold tri; ring
            rw [za, zb] at this
            linarith
          have fd' : 0 < tri e.1 e.2 d := by
            rcases fd.lt_or_eq with h | h
            · exact h
            · have := id1 d'
              rw [← h, zero_mul] at this
              have := mul_pos hdp' hdp
              linarith
          refine ⟨1, one_pos, fun t t0 _ => ?_⟩
          rw [tri_along, tri_along, za, zb]
          have h2 : 0 < tri e.1 e.2 c := by
            have h3 := id1 c
            have : 0 < tri e.1 e.2 c * tri a b d := by rw [h3]; exact mul_pos fd' hpos
            exact (pos_iff_pos_of_mul_pos this).2 hdp
          have := mul_pos t0 h2
          linarith
      obtain ⟨S, S0, hS⟩ := key
      refine ⟨min S T, lt_min S0 T0, (min_le_right _ _).trans T1, ?_⟩
      intro t t0 t1 e' he'
      rcases List.mem_cons.1 he' with rfl | he'
      · exact hS t t0 (t1.trans (min_le_left _ _))
      · exact hT t t0 (t1.trans (min_le_right _ _)) e' he'
  -- all edges of `ps`
  have hfin : ∃ es : List (Vec2 ℝ × Vec2 ℝ), ∀ u v, Consecutive ps u v ↔ (u, v) ∈ es := by
    classical
    refine ⟨ps.zip (ps.rotate 1), fun u v => ?_⟩
    rw [List.mem_iff_getElem?]
    constructor
    · rintro ⟨i, hi, h1, h2⟩
      exact ⟨i, List.getElem?_zip_eq_some.2 ⟨h1, by rw [List.getElem?_rotate hi]; exact h2⟩⟩
    · rintro ⟨i, hi⟩
      obtain ⟨h1, h2⟩ := List.getElem?_zip_eq_some.1 hi
      have hlt : i < ps.length := (List.getElem?_eq_some_iff.1 h1).1
      rw [List.getElem?_rotate hlt] at h2
      exact ⟨i, hlt, h1, h2⟩
  obtain ⟨es, hes⟩ := hfin
  obtain ⟨T, T0, T1, hT⟩ := hbound es fun e he => (hes e.1 e.2).2 he
  refine ⟨along (along a b (1 / 2)) c T, fun u v huv => hT T T0 le_rfl (u, v) ((hes u v).1 huv), ?_⟩
  intro u v huv
  have fa := hq.left u v huv a ha
  have fb := hq.left u v huv b hb
  have fc := hq.left u v huv c hc
  rw [tri_along, tri_along]
  by_contra hneg
  have e1 : 0 ≤ (1 - T) * ((1 - 1 / 2) * tri u v a + 1 / 2 * tri u v b) := mul_nonneg (by linarith) (by linarith)
  have e2 : 0 ≤ T * tri u v c := mul_nonneg T0.le fc
  have zc : tri u v c = 0 := (mul_eq_zero.1 (by linarith : T * tri u v c = 0)).resolve_left T0.ne'
  have zs : (1 - 1 / 2) * tri u v a + 1 / 2 * tri u v b = 0 :=
    (mul_eq_zero.1 (by linarith : (1 - T) * ((1 - 1 / 2) * tri u v a + 1 / 2 * tri u v b) = 0)).resolve_left
      (by linarith)
  have za : tri u v a = 0 := by linarith
  have zb : tri u v b = 0 := by linarith
  apply hq.ne huv
  have hx1 : (v.x - u.x) * tri a b c = 0 := by
    unfold tri at *
    linear_combination (b.x - a.x) * (zc - za) - (c.x - a.x) * (zb - za)
  have hy1 : (v.y - u.y) * tri a b c = 0 := by
    unfold tri at *
    linear_combination (b.y - a.y) * (zc - za) - (c.y - a.y) * (zb - za)
  have ex : v.x - u.x = 0 := (mul_eq_zero.1 hx1).resolve_right hpos.ne'
  have ey : v.y - u.y = 0 := (mul_eq_zero.1 hy1).resolve_right hpos.ne'
  cases u; cases v
  simp only [Vec2.mk.injEq] at *
  exact ⟨by linarith, by linarith⟩

/-- If the corners of a convex polygon are on the right of the line from its corner `a` to its corner `b`, then it has
an edge from `b` towards `a`. -/
theorem edge_back {qs : List (Vec2 ℝ)} (hq : ConvexOutline qs) {a b : Vec2 ℝ} (hab : a ≠ b) (ha : a ∈ qs)
    (hb : b ∈ qs) (hr : ∀ c ∈ qs, tri a b c ≤ 0) :
    ∃ n, Consecutive qs b n ∧ (Between a b n ∨ Between b n a) := by
  obtain ⟨n, hn⟩ := mr_next hb
  refine ⟨n, hn, ?_⟩
  have h1 := hq.left b n hn a ha
  have h2 := hr n (mr_consecutive_mem hn).2
  have h3 : tri b n a = tri a b n := by unfold tri; ring
  have h0 : tri a b n = 0 := by linarith
  obtain ⟨t, rfl⟩ := mr_on_line hab h0
  have hne := hq.ne hn
  by_cases ht : t ≤ 1
  · by_cases ht0 : 0 ≤ t
    · exact .inl ⟨t, ht0, ht, rfl⟩
    · right
      refine ⟨1 / (1 - t), by apply div_nonneg <;> linarith, by rw [div_le_one (by linarith)]; linarith, ?_⟩
      have h1t : (1 - t) ≠ 0 := by linarith
      cases a with | mk ax ay =>
      cases b with | mk bx bY =>
      simp only [along, Vec2.mk.injEq]
      constructor <;> field_simp <;> ring
  · exfalso
    obtain ⟨c, hc, hcp⟩ := hq.proper b _ hn
    have := hr c hc
    have e : tri b (along a b t) c = (t - 1) * tri a b c := by unfold tri along; ring
    rw [e] at hcp
    have : (t - 1) * tri a b c ≤ 0 := mul_nonpos_of_nonneg_of_nonpos (by linarith) this
    linarith

/-- A point near `x` that is on none of the lines. -/
theorem exists_off_lines (x : Vec2 ℝ) : ∀ (bad keep : List (Vec2 ℝ × Vec2 ℝ)), (∀ e ∈ bad, e.1 ≠ e.2) →
    (∀ e ∈ keep, 0 < tri e.1 e.2 x) →
    ∃ y, (∀ e ∈ bad, tri e.1 e.2 y ≠ 0) ∧ ∀ e ∈ keep, 0 < tri e.1 e.2 y := by
  intro bad
  induction bad generalizing x with
  | nil => intro keep _ h; exact ⟨x, by simp, h⟩
  | cons e bad ih =>
    intro keep hb hk
    -- first leave the line of `e`
    obtain ⟨z, hz0, hz⟩ : ∃ z, tri e.1 e.2 z ≠ 0 ∧ ∀ e ∈ keep, 0 < tri e.1 e.2 z := by
      have hne := hb e List.mem_cons_self
      by_cases h0 : tri e.1 e.2 x = 0
      · -- a direction off the line
        obtain ⟨w, hw⟩ : ∃ w, tri e.1 e.2 w ≠ 0 := by
          by_contra hall
          push Not at hall
          apply hne
          have a1 := hall ⟨e.1.x + 1, e.1.y⟩
          have a2 := hall ⟨e.1.x, e.1.y + 1⟩
          unfold tri at a1 a2
          simp only at a1 a2
          have e1 : e.2.y = e.1.y := by linarith
          have e2 : e.2.x = e.1.x := by linarith
          rcases e with ⟨⟨_, _⟩, ⟨_, _⟩⟩
          simp only [Vec2.mk.injEq] at *
          exact ⟨e2.symm, e1.symm⟩
        have hsmall : ∀ ks : List (Vec2 ℝ × Vec2 ℝ), (∀ k ∈ ks, 0 < tri k.1 k.2 x) →
            ∃ T, 0 < T ∧ T ≤ 1 / 2 ∧ ∀ t, 0 < t → t ≤ T → ∀ k ∈ ks, 0 < tri k.1 k.2 (along x w t) := by
          intro ks
          induction ks with
          | nil => intro _; exact ⟨1 / 2, by norm_num, le_refl _, by simp⟩
          | cons k ks ihk =>
            intro hks
            obtain ⟨T, T0, T1, hT⟩ := ihk fun k' h => hks k' (List.mem_cons_of_mem _ h)
            have hs := hks k List.mem_cons_self
            set s := tri k.1 k.2 x
            have h0 := abs_nonneg (tri k.1 k.2 w)
            refine ⟨min (s / (2 * (s + |tri k.1 k.2 w|))) T, lt_min (by positivity) T0, (min_le_right _ _).trans T1, ?_⟩
            intro t t0 t1 k' hk'
            rcases List.mem_cons.1 hk' with rfl | hk'
            · have t2 := t1.trans (min_le_left _ _)
              rw [le_div_iff₀ (by positivity)] at t2
              have h1 := neg_abs_le (tri k'.1 k'.2 w)
              rw [tri_along]
              change 0 < (1 - t) * s + _
              nlinarith
            · exact hT t t0 (t1.trans (min_le_right _ _)) k' hk'
        obtain ⟨T, T0, -, hT⟩ := hsmall keep hk
        refine ⟨along x w T, ?_, fun k hk' => hT T T0 le_rfl k hk'⟩
        rw [tri_along, h0, mul_zero, zero_add]
        exact mul_ne_zero T0.ne' hw
      · exact ⟨x, h0, hk⟩
    -- then the others, staying on the same side of the line of `e`
    rcases hz0.lt_or_gt with hz0 | hz0
    · obtain ⟨y, hy1, hy2⟩ := ih z ((e.2, e.1) :: keep) (fun e' h => hb e' (List.mem_cons_of_mem _ h)) (by
        intro k hk'
        rcases List.mem_cons.1 hk' with rfl | hk'
        · have : tri e.2 e.1 z = - tri e.1 e.2 z := by unfold tri; ring
          simp only [this]; linarith
        · exact hz k hk')
      refine ⟨y, ?_, fun k hk' => hy2 k (List.mem_cons_of_mem _ hk')⟩
      intro k hk'
      rcases List.mem_cons.1 hk' with rfl | hk'
      · have h1 := hy2 _ List.mem_cons_self
        have : tri k.2 k.1 y = - tri k.1 k.2 y := by unfold tri; ring
        simp only [this] at h1
        intro h; rw [h] at h1; simp at h1
      · exact hy1 k hk'
    · obtain ⟨y, hy1, hy2⟩ := ih z (e :: keep) (fun e' h => hb e' (List.mem_cons_of_mem _ h)) (by
        intro k hk'
        rcases List.mem_cons.1 hk' with rfl | hk'
        · exact hz0
        · exact hz k hk')
      refine ⟨y, ?_, fun k hk' => hy2 k (List.mem_cons_of_mem _ hk')⟩
      intro k hk'
      rcases List.mem_cons.1 hk' with rfl | hk'
      · exact (hy2 _ List.mem_cons_self).ne'
      · exact hy1 k hk'

theorem outlineEdges_exist (ps : List (Vec2 ℝ)) :
    ∃ es : List (Vec2 ℝ × Vec2 ℝ), ∀ u v, Consecutive ps u v ↔ (u, v) ∈ es := by
  refine ⟨ps.zip (ps.rotate 1), fun u v => ?_⟩
  rw [List.mem_iff_getElem?]
  constructor
  · rintro ⟨i, hi, h1, h2⟩
    exact ⟨i, List.getElem?_zip_eq_some.2 ⟨h1, by rw [List.getElem?_rotate hi]; exact h2⟩⟩
  · rintro ⟨i, hi⟩
    obtain ⟨h1, h2⟩ := List.getElem?_zip_eq_some.1 hi
    have hlt : i < ps.length := (List.getElem?_eq_some_iff.1 h1).1
    rw [List.getElem?_rotate hlt] at h2
    exact ⟨i, hlt, h1, h2⟩

/-- A point in the interior of two polygons can be moved to be on no edge of a list of polygons. -/
theorem exists_generic {ps qs : List (Vec2 ℝ)} {x : Vec2 ℝ} (hp : StrictlyEncloses ps x) (hq : StrictlyEncloses qs x)
    (rs : List (List (Vec2 ℝ))) (hr : ∀ r ∈ rs, ConvexOutline r) :
    ∃ y, StrictlyEncloses ps y ∧ StrictlyEncloses qs y ∧ ∀ r ∈ rs, Encloses r y → StrictlyEncloses r y := by
  have hall : ∃ bad : List (Vec2 ℝ × Vec2 ℝ), (∀ e ∈ bad, e.1 ≠ e.2) ∧
      ∀ r ∈ rs, ∀ u v, Consecutive r u v → (u, v) ∈ bad := by
    induction rs with
    | nil => exact ⟨[], by simp, by simp⟩
    | cons r rs ih =>
      obtain ⟨bad, h1, h2⟩ := ih fun r' h => hr r' (List.mem_cons_of_mem _ h)
      obtain ⟨es, hes⟩ := outlineEdges_exist r
      refine ⟨es ++ bad, ?_, ?_⟩
      · intro e he
        rcases List.mem_append.1 he with he | he
        · exact (hr r List.mem_cons_self).ne ((hes e.1 e.2).2 he)
        · exact h1 e he
      · intro r' hr' u v huv
        rcases List.mem_cons.1 hr' with rfl | hr'
        · exact List.mem_append_left _ ((hes u v).1 huv)
        · exact List.mem_append_right _ (h2 r' hr' u v huv)
  obtain ⟨bad, hb, hbad⟩ := hall
  obtain ⟨ep, hep⟩ := outlineEdges_exist ps
  obtain ⟨eq, heq⟩ := outlineEdges_exist qs
  obtain ⟨y, hy1, hy2⟩ := exists_off_lines x bad (ep ++ eq) hb (by
    intro e he
    rcases List.mem_append.1 he with he | he
    · exact hp _ _ ((hep e.1 e.2).2 he)
    · exact hq _ _ ((heq e.1 e.2).2 he))
  refine ⟨y, fun u v h => hy2 (u, v) (List.mem_append_left _ ((hep u v).1 h)),
    fun u v h => hy2 (u, v) (List.mem_append_right _ ((heq u v).1 h)), ?_⟩
  rintro r hrs (h | ⟨a, b, hab, hbet⟩)
  · exact h
  · exfalso
    obtain ⟨u, -, -, rfl⟩ := hbet
    apply hy1 (a, b) (hbad r hrs a b hab)
    rw [tri_along, tri_left, tri_right]; ring

variable {K : Type} [Scalar K]

theorem Layer.Tiling.conforming {val : K → ℝ} {l : Layer K} (h : l.Tiling val) : l.Conforming := by
  have hmemE : ∀ {vs : List UInt32} {a b}, IsEdge vs a b → a ∈ vs ∧ b ∈ vs := by
    rintro vs a b ⟨i, _, h1, h2⟩
    exact ⟨List.mem_of_getElem? h1, List.mem_of_getElem? h2⟩
  have hcon : ∀ {p : Polygon} {a b}, IsEdge p.vertices a b →
      Consecutive (l.outline val p) (l.place val a) (l.place val b) := fun he => consecutive_map.2 ⟨_, _, he, rfl, rfl⟩
  refine ⟨h.nodup, ?_, ?_⟩
  · intro p hp
    obtain ⟨v, hv⟩ := List.exists_mem_of_ne_nil _ (h.nonempty p hp)
    obtain ⟨B, hB⟩ := mr_next (ps := l.outline val p) (List.mem_map_of_mem hv)
    obtain ⟨a, b, he, ha, hb⟩ := consecutive_map.1 hB
    have hcc := hcon he
    obtain ⟨C, hC, hpos⟩ := (h.convex p hp).proper _ _ hcc
    obtain ⟨c, hc, rfl⟩ := List.mem_map.1 hC
    have hab : a ≠ b := by rintro rfl; exact (h.convex p hp).ne hcc rfl
    have hca : c ≠ a := by rintro rfl; simp at hpos
    have hcb : c ≠ b := by rintro rfl; simp at hpos
    have hsub : [a, b, c] ⊆ p.vertices := by
      intro z hz
      simp only [List.mem_cons, List.not_mem_nil, or_false] at hz
      rcases hz with rfl | rfl | rfl
      · exact (hmemE he).1
      · exact (hmemE he).2
      · exact hc
    have hnd : [a, b, c].Nodup := by
      simp [hab, Ne.symm hca, Ne.symm hcb]
    exact (hnd.subperm hsub).length_le
  · intro k k' p q a b hk hk' hne he ha hb
    have hp := List.mem_of_getElem? hk
    have hq := List.mem_of_getElem? hk'
    have hab : l.place val a ≠ l.place val b := (h.convex p hp).ne (hcon he)
    have hr : ∀ c ∈ l.outline val q, tri (l.place val a) (l.place val b) c ≤ 0 := by
      intro c hc
      by_contra hpos
      obtain ⟨x, hx1, hx2⟩ := overlap_of_left (h.convex p hp) (h.convex q hq) (hcon he)
        (List.mem_map_of_mem ha) (List.mem_map_of_mem hb) hc (not_le.1 hpos)
      exact h.disjoint k k' p q x hk hk' hne hx1 hx2
    obtain ⟨N, hN, hbet⟩ := edge_back (h.convex q hq) hab (List.mem_map_of_mem ha) (List.mem_map_of_mem hb) hr
    obtain ⟨b', n, hbn, hb', rfl⟩ := consecutive_map.1 hN
    have := h.distinct q hq q hq b' (hmemE hbn).1 b hb hb'
    subst this
    have hbne : b' ≠ n := by
      rintro rfl
      exact (h.convex q hq).ne hN rfl
    rcases hbet with hbet | hbet
    · rcases h.clear p hp q hq a b' he n (hmemE hbn).2 hbet with rfl | rfl
      · exact hbn
      · exact absurd rfl hbne
    · rcases h.clear q hq q hq b' n hbn a ha hbet with rfl | rfl
      · exact absurd rfl hab
      · exact hbn

theorem Layer.Tiling.merge {val : K → ℝ} {geo : Geo K} (hg : geo.AcceptsConvexOnly val) {l l' : Layer K} {b : Bool}
    (h : l.Tiling val) (hm : l.mergePolygons geo = .ok (l', b)) : l'.Tiling val := by
  have hc := h.conforming
  obtain ⟨_, -, -, hvlen, hvs, -⟩ := C25_references geo l l' b h.consistent.sized hm
  have hpl : l'.place val = l.place val := place_congr val hvlen fun i v v' h1 h2 => (hvs i v v' h1 h2).1
  obtain ⟨hcon', hn', f, -, -, hun, -⟩ := C25_consistent geo (fun cs h => (hg cs h).1) l l' b h.consistent hc hm
  obtain ⟨g, -, hreg⟩ := C63_polygons val geo hg l l' b h.consistent hc h.convex hm
  have hvert : ∀ p' ∈ l'.polygons, ∀ v ∈ p'.vertices, ∃ q ∈ l.polygons, v ∈ q.vertices := by
    intro p' hp' v hv
    obtain ⟨j, hj⟩ := List.mem_iff_getElem?.1 hp'
    obtain ⟨q, ⟨m, -, hq⟩, hvq⟩ := ((hun j p' hj).vertices v).1 hv
    exact ⟨q, List.mem_of_getElem? hq, hvq⟩
  refine ⟨hcon', fun p hp => (hn' p hp).1, ?_, ?_, ?_, ?_, ?_⟩
  · intro p hp hnil
    have := (hn' p hp).2
    rw [hnil] at this
    simp at this
  · intro p' hp'
    obtain ⟨j, hj⟩ := List.mem_iff_getElem?.1 hp'
    exact (hreg j p' hj).1
  · intro k k' p' q' x hk hk' hne hx1 hx2
    obtain ⟨y, hy1, hy2, hy⟩ := exists_generic hx1 hx2 (l.polygons.map (l.outline val)) (by
      intro r hr
      obtain ⟨p, hp, rfl⟩ := List.mem_map.1 hr
      exact h.convex p hp)
    obtain ⟨m, p, hmk, hp, hyp⟩ := ((hreg k p' hk).2 y).1 (.inl hy1)
    obtain ⟨m', q, hmk', hq, hyq⟩ := ((hreg k' q' hk').2 y).1 (.inl hy2)
    refine h.disjoint m m' p q y hp hq (fun e => hne ?_)
      (hy _ (List.mem_map_of_mem (List.mem_of_getElem? hp)) hyp)
      (hy _ (List.mem_map_of_mem (List.mem_of_getElem? hq)) hyq)
    rw [← hmk, ← hmk', e]
  · intro p' hp' q' hq' v hv w hw
    rw [hpl]
    obtain ⟨p, hp, hvp⟩ := hvert p' hp' v hv
    obtain ⟨q, hq, hwq⟩ := hvert q' hq' w hw
    exact h.distinct p hp q hq v hvp w hwq
  · intro p' hp' q' hq' a b he v hv
    rw [hpl]
    obtain ⟨q, hq, hvq⟩ := hvert q' hq' v hv
    obtain ⟨j, hj⟩ := List.mem_iff_getElem?.1 hp'
    obtain ⟨⟨p, ⟨m, -, hp⟩, hep⟩, -⟩ := ((hun j p' hj).edges a b).1 he
    exact h.clear p (List.mem_of_getElem? hp) q hq a b hep v hvq

end Polyanya
