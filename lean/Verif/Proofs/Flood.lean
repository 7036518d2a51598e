import Verif.Spec.Islands
import Verif.Proofs.Safe
/-
The flood fill of `bake_islands_detection`.
-/

namespace Polyanya

variable {K : Type} [Scalar K]

omit [Scalar K] in
theorem SharesVertex.symm {l : Layer K} {a b : Nat} (h : SharesVertex l a b) : SharesVertex l b a := by
  obtain ⟨pa, pb, v, h1, h2, h3, h4⟩ := h
  exact ⟨pb, pa, v, h2, h1, h4, h3⟩

omit [Scalar K] in
theorem Connected.symm {l : Layer K} {a b : Nat} (h : Connected l a b) : Connected l b a := by
  unfold Connected at *
  induction h with
  | refl => exact .refl
  | tail _ hbc ih => exact .head hbc.symm ih

omit [Scalar K] in
theorem Connected.lt {l : Layer K} {a b : Nat} (h : Connected l a b) (ha : a < l.polygons.length) :
    b < l.polygons.length := by
  unfold Connected at h
  induction h with
  | refl => exact ha
  | tail _ hbc _ =>
    obtain ⟨_, _, _, _, h2, _, _⟩ := hbc
    exact lt_of_getElem? h2

/-- The neighbours computed for polygon number `k`. -/
def Layer.nbOf (l : Layer K) (k : Nat) : List Nat :=
  match l.polygons[k]? with
  | some p => match l.neighbours p with
    | .ok nb => nb
    | .error _ => []
  | none => []

omit [Scalar K] in
theorem neighbours_ok {l : Layer K} (hc : l.Consistent) {k : Nat} (hk : k < l.polygons.length) :
    l.neighbours l.polygons[k] = .ok (l.nbOf k) ∧
    ∀ b, b ∈ l.nbOf k ↔ SharesVertex l k b := by
  have hkp := List.getElem?_eq_getElem hk
  set p := l.polygons[k] with hp
  have hvs : ∃ vs, p.vertices.mapM (fun v => idx l.vertices v.toNat) = .ok vs := by
    refine (safe_mapM _ (fun v hv => ?_)).ex
    obtain ⟨vx, hvx, -⟩ := hc.polygonVertex k p hkp v hv
    exact safe_idx (lt_of_getElem? hvx)
  obtain ⟨vs, hvs⟩ := hvs
  have hnb : l.neighbours p = .ok (((vs.flatMap (·.polygons)).filter (· != u32Max)).map UInt32.toNat) := by
    unfold Layer.neighbours
    rw [hvs]
    rfl
  have hof : l.nbOf k = ((vs.flatMap (·.polygons)).filter (· != u32Max)).map UInt32.toNat := by
    unfold Layer.nbOf
    rw [hkp]
    simp only [hnb]
  refine ⟨by rw [hnb, hof], fun b => ?_⟩
  rw [hof]
  rw [mapM_ok_iff] at hvs
  simp only [List.mem_map, List.mem_filter, List.mem_flatMap, bne_iff_ne, ne_eq]
  constructor
  · rintro ⟨id, ⟨⟨vx, hvx, hid⟩, hne⟩, rfl⟩
    obtain ⟨i, hi⟩ := List.mem_iff_getElem?.1 hvx
    have hlen := hvs.length_eq
    have hi' := lt_of_getElem? hi
    have h1 := (List.forall₂_iff_get.1 hvs).2 i (by omega) hi'
    rw [idx_eq_ok] at h1
    have hvx' : vs.get ⟨i, hi'⟩ = vx := by
      have := List.getElem?_eq_getElem hi'
      rw [hi] at this; simpa using this.symm
    rw [hvx'] at h1
    obtain ⟨pb, hpb, hv⟩ := hc.vertexPolygon _ vx h1 id hid hne
    exact ⟨p, pb, _, hkp, hpb, List.get_mem .., hv⟩
  · rintro ⟨pa, pb, v, hpa, hpb, hva, hvb⟩
    rw [hkp] at hpa
    obtain rfl := Option.some.inj hpa
    obtain ⟨vx, hvx, hmem⟩ := hc.polygonVertex b pb hpb v hvb
    have hb := lt_of_getElem? hpb
    have hs := hc.sized
    have hbn : (UInt32.ofNat b).toNat = b := UInt32.toNat_ofNat_of_lt' (show b < 4294967296 by omega)
    refine ⟨UInt32.ofNat b, ⟨⟨vx, ?_, hmem⟩, ?_⟩, hbn⟩
    · obtain ⟨i, hi⟩ := List.mem_iff_getElem?.1 hva
      have hi' := lt_of_getElem? hi
      have hlen := hvs.length_eq
      have h1 := (List.forall₂_iff_get.1 hvs).2 i hi' (by omega)
      rw [idx_eq_ok] at h1
      have hv' : p.vertices.get ⟨i, hi'⟩ = v := by
        have := List.getElem?_eq_getElem hi'
        rw [hi] at this; simpa using this.symm
      rw [hv', hvx] at h1
      rw [Option.some.inj h1]
      exact List.get_mem ..
    · intro h
      have := congrArg UInt32.toNat h
      rw [hbn] at this
      have hm : u32Max.toNat = 4294967295 := rfl
      omega

/-- Number of pushes still possible: the neighbour counts of the polygons without label. -/
def weight (c : Nat → Nat) : Nat → List (Option Nat) → Nat
  | _, [] => 0
  | i, none :: isl => c i + weight c (i + 1) isl
  | i, some _ :: isl => weight c (i + 1) isl

theorem weight_set (c : Nat → Nat) : ∀ (isl : List (Option Nat)) (i j r : Nat), isl[j]? = some none →
    weight c i (isl.set j (some r)) + c (i + j) = weight c i isl
  | [], _, _, _, h => by simp at h
  | o :: isl, i, 0, r, h => by
    simp only [List.getElem?_cons_zero, Option.some.injEq] at h
    subst h
    simp [weight]; omega
  | o :: isl, i, j + 1, r, h => by
    have := weight_set c isl (i + 1) j r (by simpa using h)
    rw [show i + 1 + j = i + (j + 1) by omega] at this
    cases o with
    | none => simp [weight]; omega
    | some x => simpa [weight] using this

theorem weight_le (c : Nat → Nat) : ∀ (isl : List (Option Nat)) (i : Nat),
    weight c i isl ≤ ((List.range' i isl.length).map c).sum
  | [], _ => by simp [weight]
  | none :: isl, i => by
    have := weight_le c isl (i + 1)
    simp [weight, List.range'_succ]; omega
  | some _ :: isl, i => by
    have := weight_le c isl (i + 1)
    simp [weight, List.range'_succ]; omega

/-- Labelled with `r`. -/
def Lab (isl : List (Option Nat)) (k r : Nat) : Prop := isl[k]? = some (some r)

omit [Scalar K] in
/-- The inner loop. -/
theorem flood_spec {l : Layer K} (hc : l.Consistent) (root : Nat) : ∀ (fuel : Nat) (stack : List Nat)
    (isl : List (Option Nat)), isl.length = l.polygons.length → (∀ s ∈ stack, s < l.polygons.length) →
    stack.length + weight (fun k => (l.nbOf k).length) 0 isl < fuel →
    ∃ isl', l.flood root fuel stack isl = .ok isl' ∧ isl'.length = isl.length
      ∧ (∀ k r, Lab isl k r → Lab isl' k r)
      ∧ (∀ k, isl[k]? = some none → isl'[k]? = some none ∨ (Lab isl' k root ∧ ∃ s ∈ stack, Connected l s k))
      ∧ (∀ s ∈ stack, ∃ r, Lab isl' s r)
      ∧ (∀ k, isl[k]? = some none → Lab isl' k root → ∀ b, SharesVertex l k b → ∃ r, Lab isl' b r) := by
  intro fuel
  induction fuel with
  | zero => intro stack isl _ _ h; omega
  | succ fuel ih =>
    intro stack isl hlen hs hfuel
    cases stack with
    | nil =>
      exact ⟨isl, rfl, rfl, fun _ _ h => h, fun k h => .inl h, by simp,
        fun k h1 h2 => by unfold Lab at h2; rw [h1] at h2; simp at h2⟩
    | cons next stack =>
      have hnext := hs next (List.mem_cons_self ..)
      have hlt : next < isl.length := by omega
      have hget := List.getElem?_eq_getElem hlt
      simp only [List.length_cons] at hfuel
      cases hlab : isl[next] with
      | some r =>
        rw [hlab] at hget
        obtain ⟨isl', h1, h2, h3, h4, h5, h6⟩ := ih stack isl hlen
          (fun s hs' => hs s (List.mem_cons_of_mem _ hs')) (by omega)
        refine ⟨isl', ?_, h2, h3, ?_, ?_, h6⟩
        · unfold Layer.flood
          rw [show idx isl next = .ok (some r) from idx_eq_ok.2 hget, res_bind_ok, if_neg (by simp)]
          exact h1
        · intro k hk
          rcases h4 k hk with h | ⟨h, s, hs', hr⟩
          · exact .inl h
          · exact .inr ⟨h, s, List.mem_cons_of_mem _ hs', hr⟩
        · intro s hs'
          rcases List.mem_cons.1 hs' with rfl | hs'
          · exact ⟨r, h3 _ _ hget⟩
          · exact h5 s hs'
      | none =>
        rw [hlab] at hget
        obtain ⟨hnb, hadj⟩ := neighbours_ok hc hnext
        have hw := weight_set (fun k => (l.nbOf k).length) isl 0 next root hget
        simp only [Nat.zero_add] at hw
        obtain ⟨isl', h1, h2, h3, h4, h5, h6⟩ := ih ((l.nbOf next).reverse ++ stack)
          (isl.set next (some root)) (by simpa using hlen) (by
            intro s hs'
            rcases List.mem_append.1 hs' with hs' | hs'
            · rw [List.mem_reverse, hadj] at hs'
              obtain ⟨_, _, _, _, h2, _, _⟩ := hs'
              exact lt_of_getElem? h2
            · exact hs s (List.mem_cons_of_mem _ hs')) (by
            simp only [List.length_append, List.length_reverse]; omega)
        have hroot : Lab isl' next root := h3 _ _ (by unfold Lab; simp [hlt])
        refine ⟨isl', ?_, by simpa using h2, ?_, ?_, ?_, ?_⟩
        · unfold Layer.flood
          rw [show idx isl next = .ok none from idx_eq_ok.2 hget, res_bind_ok, if_pos rfl,
            show idx l.polygons next = .ok l.polygons[next] from
              idx_eq_ok.2 (List.getElem?_eq_getElem hnext), res_bind_ok]
          simp only
          rw [hnb, res_bind_ok]
          exact h1
        · intro k r hk
          by_cases hkn : next = k
          · subst hkn; unfold Lab at hk; rw [hget] at hk; simp at hk
          · exact h3 k r (by unfold Lab; rw [List.getElem?_set_ne hkn]; exact hk)
        · intro k hk
          by_cases hkn : next = k
          · subst hkn
            exact .inr ⟨hroot, next, List.mem_cons_self .., .refl⟩
          · rcases h4 k (by rw [List.getElem?_set_ne hkn]; exact hk) with h | ⟨h, s, hs', hr⟩
            · exact .inl h
            · refine .inr ⟨h, ?_⟩
              rcases List.mem_append.1 hs' with hs' | hs'
              · rw [List.mem_reverse, hadj] at hs'
                exact ⟨next, List.mem_cons_self .., .head hs' hr⟩
              · exact ⟨s, List.mem_cons_of_mem _ hs', hr⟩
        · intro s hs'
          rcases List.mem_cons.1 hs' with rfl | hs'
          · exact ⟨root, hroot⟩
          · exact h5 s (List.mem_append_right _ hs')
        · intro k hk hlk b hb
          by_cases hkn : next = k
          · subst hkn
            refine h5 b (List.mem_append_left _ ?_)
            rw [List.mem_reverse, hadj]
            exact hb
          · exact h6 k (by rw [List.getElem?_set_ne hkn]; exact hk) hlk b hb

omit [Scalar K] in
theorem floodFuel_enough (l : Layer K) (isl : List (Option Nat)) (h : isl.length = l.polygons.length) :
    [0].length + weight (fun k => (l.nbOf k).length) 0 isl < l.floodFuel := by
  have h1 := weight_le (fun k => (l.nbOf k).length) isl 0
  have h2 : (List.range' 0 isl.length).map (fun k => (l.nbOf k).length) =
      l.polygons.map (fun p => match l.neighbours p with | .ok nb => nb.length | .error _ => 0) := by
    apply List.ext_getElem?
    intro i
    rw [List.getElem?_map, List.getElem?_map, h, ← List.range_eq_range']
    by_cases hi : i < l.polygons.length
    · rw [List.getElem?_range hi, List.getElem?_eq_getElem hi]
      simp only [Option.map_some, Option.some.injEq]
      unfold Layer.nbOf
      rw [List.getElem?_eq_getElem hi]
      simp only
      cases l.neighbours l.polygons[i] <;> rfl
    · rw [List.getElem?_eq_none (by simpa using hi), List.getElem?_eq_none (by omega)]
      rfl
  rw [h2] at h1
  have h3 : l.floodFuel = (l.polygons.map
      (fun p => match l.neighbours p with | .ok nb => nb.length | .error _ => 0)).sum + 2 := rfl
  rw [h3]
  simp only [List.length_singleton]
  omega

/-- What holds between two rounds of the outer loop. -/
structure FloodInv (l : Layer K) (isl : List (Option Nat)) : Prop where
  len : isl.length = l.polygons.length
  least : ∀ k r, Lab isl k r → Connected l r k ∧ ∀ q, Connected l k q → r ≤ q
  closed : ∀ k r, Lab isl k r → ∀ b, SharesVertex l k b → ∃ r', Lab isl b r'

omit [Scalar K] in
theorem FloodInv.closed' {l : Layer K} {isl : List (Option Nat)} (h : FloodInv l isl) {k q : Nat}
    (hk : ∃ r, Lab isl k r) (hc : Connected l k q) : ∃ r, Lab isl q r := by
  unfold Connected at hc
  induction hc with
  | refl => exact hk
  | tail _ hbc ih =>
    obtain ⟨r, hr⟩ := ih
    exact h.closed _ r hr _ hbc

omit [Scalar K] in
theorem floodAll_spec {l : Layer K} (hc : l.Consistent) : ∀ (fuel : Nat) (isl : List (Option Nat)),
    FloodInv l isl → isl.count none < fuel →
    ∃ isl', l.floodAll fuel isl = .ok isl' ∧ FloodInv l isl' ∧ none ∉ isl' := by
  intro fuel
  induction fuel with
  | zero => intro isl _ h; omega
  | succ fuel ih =>
    intro isl hinv hfuel
    unfold Layer.floodAll
    split
    · rename_i hnone
      refine ⟨isl, rfl, hinv, fun hm => ?_⟩
      rw [List.findIdx?_eq_none_iff] at hnone
      have := hnone _ hm
      simp at this
    · rename_i root hroot
      rw [List.findIdx?_eq_some_iff_getElem] at hroot
      obtain ⟨hlt, hn, hfirst⟩ := hroot
      have hn : isl[root] = none := by simpa using hn
      have hget : isl[root]? = some none := by rw [List.getElem?_eq_getElem hlt, hn]
      have hrootlt : root < l.polygons.length := by rw [← hinv.len]; exact hlt
      obtain ⟨isl1, h1, h2, h3, h4, h5, h6⟩ := flood_spec hc root l.floodFuel [root] isl hinv.len
        (by simpa using hrootlt) (floodFuel_enough l isl hinv.len)
      rw [h1, res_bind_ok]
      -- everything connected to the root was unlabelled
      have hun : ∀ q, Connected l root q → isl[q]? = some none := by
        intro q hq
        have hqlt := hq.lt hrootlt
        rw [← hinv.len] at hqlt
        cases hlab : isl[q] with
        | none => rw [List.getElem?_eq_getElem hqlt, hlab]
        | some r =>
          obtain ⟨r', hr'⟩ := hinv.closed' ⟨r, by unfold Lab; rw [List.getElem?_eq_getElem hqlt, hlab]⟩
            hq.symm
          unfold Lab at hr'
          rw [hget] at hr'
          simp at hr'
      have hmin : ∀ q, Connected l root q → root ≤ q := by
        intro q hq
        by_contra hlt'
        have := hfirst q (by omega)
        have hq' := hun q hq
        rw [List.getElem?_eq_getElem (by omega)] at hq'
        simp only [Option.some.injEq] at hq'
        rw [hq'] at this
        simp at this
      have hroot1 : Lab isl1 root root := by
        obtain ⟨r, hr⟩ := h5 root (List.mem_singleton_self _)
        rcases h4 root hget with h | ⟨h, -⟩
        · unfold Lab at hr; rw [h] at hr; simp at hr
        · exact h
      have hcase : ∀ k r, Lab isl1 k r → Lab isl k r ∨ (isl[k]? = some none ∧ r = root ∧
          Connected l root k) := by
        intro k r hk
        have hklt := lt_of_getElem? hk
        rw [h2] at hklt
        cases hlab : isl[k] with
        | some r' =>
          have hl : Lab isl k r' := by unfold Lab; rw [List.getElem?_eq_getElem hklt, hlab]
          have := h3 k r' hl
          unfold Lab at this hk
          rw [this] at hk
          simp only [Option.some.injEq] at hk
          subst hk
          exact .inl hl
        | none =>
          have hnone : isl[k]? = some none := by rw [List.getElem?_eq_getElem hklt, hlab]
          rcases h4 k hnone with h | ⟨h, s, hs, hr⟩
          · unfold Lab at hk; rw [h] at hk; simp at hk
          · rw [List.mem_singleton.1 hs] at hr
            unfold Lab at h hk
            rw [h] at hk
            simp only [Option.some.injEq] at hk
            exact .inr ⟨hnone, hk.symm, hr⟩
      have hinv1 : FloodInv l isl1 := by
        refine ⟨by rw [h2, hinv.len], ?_, ?_⟩
        · intro k r hk
          rcases hcase k r hk with h | ⟨-, rfl, hr⟩
          · exact hinv.least k r h
          · exact ⟨hr, fun q hq => hmin q (Relation.ReflTransGen.trans hr hq)⟩
        · intro k r hk b hb
          rcases hcase k r hk with h | ⟨hn', rfl, hr⟩
          · obtain ⟨r', hr'⟩ := hinv.closed k r h b hb
            exact ⟨r', h3 b r' hr'⟩
          · exact h6 k hn' hk b hb
      refine ih isl1 hinv1 ?_
      -- at least the root got a label
      have hcount : isl1.count none < isl.count none := by
        have hsub : ∀ k : Nat, isl1[k]? = some none → isl[k]? = some none := by
          intro k hk
          have hklt := lt_of_getElem? hk
          rw [h2] at hklt
          cases hlab : isl[k] with
          | none => rw [List.getElem?_eq_getElem hklt, hlab]
          | some r =>
            have := h3 k r (by unfold Lab; rw [List.getElem?_eq_getElem hklt, hlab])
            unfold Lab at this
            rw [this] at hk
            simp at hk
        have general : ∀ (a b : List (Option Nat)) (j : Nat), b.length = a.length →
            (∀ k : Nat, b[k]? = some none → a[k]? = some none) → a[j]? = some none → b[j]? ≠ some none →
            b.count none < a.count none := by
          have weak : ∀ (a b : List (Option Nat)), b.length = a.length →
              (∀ k : Nat, b[k]? = some none → a[k]? = some none) → b.count none ≤ a.count none := by
            intro a
            induction a with
            | nil => intro b hl _; rw [List.length_nil] at hl; rw [List.length_eq_zero_iff.1 hl]; exact Nat.le_refl _
            | cons x a ih =>
              intro b hl hs
              cases b with
              | nil => simp
              | cons y b =>
                have h1 := ih b (by simpa using hl) (fun k hk => by simpa using hs (k + 1) (by simpa using hk))
                have h2 := hs 0
                simp only [List.getElem?_cons_zero, Option.some.injEq] at h2
                rw [List.count_cons, List.count_cons]
                by_cases hy : y = none
                · simp [hy, h2 hy]; exact h1
                · simp [hy]; omega
          intro a
          induction a with
          | nil => intro b j _ _ h; simp at h
          | cons x a ih =>
            intro b j hl hs hj hbj
            cases b with
            | nil => simp at hl
            | cons y b =>
              have hs' : ∀ k, b[k]? = some none → a[k]? = some none :=
                fun k hk => by simpa using hs (k + 1) (by simpa using hk)
              have hl' : b.length = a.length := by simpa using hl
              have h2 := hs 0
              simp only [List.getElem?_cons_zero, Option.some.injEq] at h2
              rw [List.count_cons, List.count_cons]
              cases j with
              | zero =>
                simp only [List.getElem?_cons_zero, Option.some.injEq, ne_eq] at hj hbj
                have := weak a b hl' hs'
                simp [hj, hbj]; omega
              | succ j =>
                have := ih b j hl' hs' (by simpa using hj) (by simpa using hbj)
                by_cases hy : y = none
                · simp [hy, h2 hy]; exact this
                · simp [hy]; omega
        refine general isl isl1 root h2 hsub hget ?_
        unfold Lab at hroot1
        rw [hroot1]
        simp
      omega

end Polyanya
