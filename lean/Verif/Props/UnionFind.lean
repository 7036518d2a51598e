import Verif.Proofs.UnionFind
/-
C27: the union-find structure used for merging.
-/

namespace Polyanya

/-- The operations on the structure that change it: `union` and the path compression of `find_and_update`. -/
inductive UfOp where
  | union (x y : Nat)
  | compress (x : Nat)

/-- The elements an operation uses are in range. -/
def UfOp.InRange (n : Nat) : UfOp → Prop
  | .union x y => x < n ∧ y < n
  | .compress x => x < n

/-- Running one operation on the parents (the code of `union` and `find_and_update`). -/
def UfOp.run (par : List Nat) : UfOp → Res (List Nat)
  | .union x y => ufUnion par x y
  | .compress x => do
    let r ← ufFindUpdate (ufFuel par) par x
    .ok r.2

/-- The pairs joined by a list of operations. -/
def Joined (ops : List UfOp) (x y : Nat) : Prop := UfOp.union x y ∈ ops

/-- C27. After any sequence of `union`s and path compressions on `n` elements, none of which faults, `find`
terminates on every element (no fault, and the fuel is not exhausted), and two elements have the same
representative exactly when the equivalence generated by the unions relates them. -/
theorem C27_union_find (n : Nat) (ops : List UfOp) (hin : ∀ o ∈ ops, o.InRange n) :
    ∃ par, ops.foldlM UfOp.run (ufNew n) = .ok par ∧
      ∀ x y, x < n → y < n → ∃ r s,
        ufFind par (ufFuel par) x = .ok r ∧ ufFind par (ufFuel par) y = .ok s ∧ r < n ∧
        (r = s ↔ Relation.EqvGen (Joined ops) x y) := by
  have key : ∃ par, ops.foldlM UfOp.run (ufNew n) = .ok par ∧ par.length = n ∧ UfOk par ∧
      ∀ x y r s, Root par x r → Root par y s → (r = s ↔ Relation.EqvGen (Joined ops) x y) := by
    induction ops using List.reverseRecOn with
    | nil =>
      refine ⟨ufNew n, rfl, by simp [ufNew], ufOk_new n, ?_⟩
      intro x y r s hx hy
      have h1 := hx.unique (ufNew_root (by simpa [ufNew] using hx.lt))
      have h2 := hy.unique (ufNew_root (by simpa [ufNew] using hy.lt))
      subst h1 h2
      constructor
      · rintro rfl; exact .refl _
      · intro h
        induction h with
        | rel a b h => simp [Joined] at h
        | refl => rfl
        | symm a b _ ih => exact (ih hy hx).symm
        | trans a b c h1 _ ih1 ih2 =>
          have hb : ∀ {a b}, Relation.EqvGen (Joined []) a b → a = b := by
            intro a b h
            induction h with
            | rel a b h => simp [Joined] at h
            | refl => rfl
            | symm a b _ ih => exact ih.symm
            | trans a b c _ _ ih1 ih2 => exact ih1.trans ih2
          have := hb h1
          subst this
          exact ih2 hx hy
    | append_singleton ops o ih =>
      obtain ⟨par, he, hl, hok, hr⟩ := ih (fun o ho => hin o (by simp [ho]))
      have hino := hin o (by simp)
      rw [List.foldlM_append, he, res_bind_ok]
      have mono : ∀ {a b}, Relation.EqvGen (Joined ops) a b →
          Relation.EqvGen (Joined (ops ++ [o])) a b := by
        intro a b h
        have : Joined ops ≤ Joined (ops ++ [o]) := by
          intro a b h
          simp only [Joined, List.mem_append] at h ⊢; exact .inl h
        exact Relation.EqvGen.mono this a b h
      cases o with
      | compress x =>
        obtain ⟨rx, hrx⟩ := hok x (by rw [hl]; exact hino)
        obtain ⟨par', he', hl', hr'⟩ := ufFindUpdate_root hrx
        refine ⟨par', by simp [UfOp.run, he'], by rw [hl', hl], ?_, ?_⟩
        · intro y hy
          obtain ⟨s, hs⟩ := hok y (by rw [← hl']; exact hy)
          exact ⟨s, (hr' _ _).2 hs⟩
        · intro a b r s ha hb
          rw [hr a b r s ((hr' _ _).1 ha) ((hr' _ _).1 hb)]
          constructor
          · exact mono
          · have : Joined (ops ++ [UfOp.compress x]) ≤ Joined ops := by
              intro a b h
              simpa [Joined] using h
            exact Relation.EqvGen.mono this a b
      | union x y =>
        obtain ⟨rx, hrx⟩ := hok x (by rw [hl]; exact hino.1)
        obtain ⟨ry, hry⟩ := hok y (by rw [hl]; exact hino.2)
        obtain ⟨par', he', hl', hr'⟩ := ufUnion_root hrx hry
        refine ⟨par', by simp [UfOp.run, he'], by rw [hl', hl],
          ufOk_union hok he' (by rw [hl]; exact hino.1) (by rw [hl]; exact hino.2), ?_⟩
        have hxy : Relation.EqvGen (Joined (ops ++ [UfOp.union x y])) x y :=
          .rel _ _ (by simp [Joined])
        -- the new class of an element
        have cls : ∀ a r, Root par' a r → ∃ r0, Root par a r0 ∧ r = if r0 = ry then rx else r0 := by
          intro a r ha
          obtain ⟨r0, h0⟩ := hok a (by rw [← hl']; exact ha.lt)
          exact ⟨r0, h0, ha.unique (hr' a r0 h0)⟩
        intro a b r s ha hb
        obtain ⟨ra, hra, rfl⟩ := cls a r ha
        obtain ⟨rb, hrb, rfl⟩ := cls b s hb
        constructor
        · intro h
          have toX : ∀ c, Root par c rx → Relation.EqvGen (Joined (ops ++ [UfOp.union x y])) c x :=
            fun c hc => mono ((hr c x rx rx hc hrx).1 rfl)
          have toY : ∀ c, Root par c ry → Relation.EqvGen (Joined (ops ++ [UfOp.union x y])) c x :=
            fun c hc => (mono ((hr c y ry ry hc hry).1 rfl)).trans _ _ _ hxy.symm
          by_cases h1 : ra = ry <;> by_cases h2 : rb = ry <;> simp only [h1, h2, if_true, if_false] at h
          · subst h1; subst h2; exact (toY a hra).trans _ _ _ ((toY b hrb).symm)
          · subst h1; subst h; exact (toY a hra).trans _ _ _ ((toX b hrb).symm)
          · subst h2; subst h; exact (toX a hra).trans _ _ _ ((toY b hrb).symm)
          · subst h; exact mono ((hr a b ra ra hra hrb).1 rfl)
        · intro h
          -- both sides have the same root after the union
          have step : ∀ {a b}, Relation.EqvGen (Joined (ops ++ [UfOp.union x y])) a b →
              a = b ∨ ∃ t, Root par' a t ∧ Root par' b t := by
            intro a b h
            induction h with
            | rel a b h =>
              simp only [Joined, List.mem_append, List.mem_singleton, UfOp.union.injEq] at h
              rcases h with h | ⟨rfl, rfl⟩
              · have ha := hin (.union a b) (by simp [h])
                obtain ⟨t, ht⟩ := hok a (by rw [hl]; exact ha.1)
                obtain ⟨u, hu⟩ := hok b (by rw [hl]; exact ha.2)
                have : t = u := (hr a b t u ht hu).2 (.rel _ _ h)
                subst this
                exact .inr ⟨_, hr' a t ht, hr' b t hu⟩
              · have h1 := hr' a rx hrx
                have h2 := hr' b ry hry
                refine .inr ⟨rx, ?_, by simpa using h2⟩
                split at h1 <;> exact h1
            | refl => exact .inl rfl
            | symm a b _ ih =>
              rcases ih with rfl | ⟨t, h1, h2⟩
              · exact .inl rfl
              · exact .inr ⟨t, h2, h1⟩
            | trans a b c _ _ ih1 ih2 =>
              rcases ih1 with rfl | ⟨t, h1, h2⟩
              · exact ih2
              · rcases ih2 with rfl | ⟨u, h3, h4⟩
                · exact .inr ⟨t, h1, h2⟩
                · have := h2.unique h3
                  subst this
                  exact .inr ⟨t, h1, h4⟩
          rcases step h with rfl | ⟨t, h1, h2⟩
          · exact ha.unique hb
          · rw [ha.unique h1, hb.unique h2]
  obtain ⟨par, he, hl, hok, hr⟩ := key
  refine ⟨par, he, ?_⟩
  intro x y hx hy
  obtain ⟨r, h1⟩ := hok x (by omega)
  obtain ⟨s, h2⟩ := hok y (by omega)
  exact ⟨r, s, ufFind_root h1, ufFind_root h2, by rw [← hl]; exact h1.root_lt, hr x y r s h1 h2⟩

/-- C27, path compression: on every structure reached by operations, `find_and_update` returns the
representative and no element's representative changes. -/
theorem C27_compression (n : Nat) (ops : List UfOp) (hin : ∀ o ∈ ops, o.InRange n) (par : List Nat)
    (hrun : ops.foldlM UfOp.run (ufNew n) = .ok par) (x : Nat) (hx : x < n) :
    ∃ r par', ufFind par (ufFuel par) x = .ok r ∧ ufFindUpdate (ufFuel par) par x = .ok (r, par') ∧
      ∀ y, y < n → ufFind par' (ufFuel par') y = ufFind par (ufFuel par) y := by
  obtain ⟨p, he, h⟩ := C27_union_find n ops hin
  rw [hrun] at he
  cases he
  obtain ⟨r, _, hr, _⟩ := h x x hx hx
  obtain ⟨par', h1, _, h3⟩ := ufFindUpdate_root (ufFind_ok hr)
  refine ⟨r, par', hr, h1, ?_⟩
  intro y hy
  obtain ⟨s, _, hs, _⟩ := h y y hy hy
  rw [hs]
  exact ufFind_root ((h3 _ _).2 (ufFind_ok hs))

/-- A non-trivial sequence of operations. -/
example : ∀ o ∈ [UfOp.union 0 1, .union 2 3, .union 1 3, .compress 3], o.InRange 5 := by
  simp [UfOp.InRange]

example : (match [UfOp.union 0 1, .union 2 3, .union 3 1, .compress 1].foldlM UfOp.run (ufNew 5) with
    | .ok par => par == [2, 2, 2, 2, 4] | .error _ => false) = true := by decide

end Polyanya
