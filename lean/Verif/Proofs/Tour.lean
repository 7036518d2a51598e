import Verif.Spec.Tour
import Verif.Props.Inside
/-
The entries of `path_with_layers` in exact arithmetic.
-/

namespace Polyanya

variable {F : Type} [Field F] [LinearOrder F] [Scalar F]

theorem Tour.trans {m : Mesh (Ext F)} {L L' L'' : UInt8} {s s' s'' : UInt32} {p q w : Vec2 F} {ws ws' : List (Vec2 F)}
    {es es' : List (Vec2 F × UInt8)} (h : Tour m L s p ws es L' s' q) (h' : Tour m L' s' q ws' es' L'' s'' w) :
    Tour m L s p (ws ++ ws') (es ++ es') L'' s'' w := by
  induction h' with
  | here _ => simpa using h
  | move _ h1 h2 ih => exact ih.move h1 h2
  | cross _ h1 h2 h3 ih => exact ih.cross h1 h2 h3
  | hop _ h1 h2 h3 h4 h5 ih => rw [← List.append_assoc]; exact ih.hop h1 h2 h3 h4 h5
  | stop _ h1 ih => rw [← List.append_assoc, ← List.append_assoc]; exact ih.stop h1

/-- Entries on the way from `r` to `x`. -/
inductive OnLeg (x : Vec2 F) : Vec2 F → List (Vec2 F × UInt8) → Prop where
  | nil {r : Vec2 F} : OnLeg x r []
  | cons {r y : Vec2 F} {L : UInt8} {es : List (Vec2 F × UInt8)} : Between r x y → OnLeg x y es → OnLeg x r ((y, L) :: es)

/-- The position of the last entry. -/
def lastPos (r : Vec2 F) (es : List (Vec2 F × UInt8)) : Vec2 F := (es.getLast?.map (·.1)).getD r

omit [LinearOrder F] [Scalar F] [Field F] in
theorem lastPos_nil (r : Vec2 F) : lastPos r [] = r := rfl

omit [LinearOrder F] [Scalar F] [Field F] in
theorem lastPos_append (r y : Vec2 F) (L : UInt8) (es : List (Vec2 F × UInt8)) : lastPos r (es ++ [(y, L)]) = y := by
  simp [lastPos]

omit [LinearOrder F] [Scalar F] [Field F] in
theorem lastPos_cons (r y : Vec2 F) (L : UInt8) (es : List (Vec2 F × UInt8)) : lastPos r ((y, L) :: es) = lastPos y es := by
  unfold lastPos
  cases es with
  | nil => rfl
  | cons e es => simp [List.getLast?_cons]

theorem OnLeg.snoc {x r y : Vec2 F} {L : UInt8} {es : List (Vec2 F × UInt8)} (h : OnLeg x r es)
    (hy : Between (lastPos r es) x y) : OnLeg x r (es ++ [(y, L)]) := by
  induction h with
  | nil => exact .cons hy .nil
  | cons h1 _ ih => exact .cons h1 (ih (by rwa [lastPos_cons] at hy))

theorem OnLeg.traces {x r : Vec2 F} {L : UInt8} {es es' : List (Vec2 F × UInt8)} {ws : List (Vec2 F)} (h : OnLeg x r es)
    (h' : Traces x ws es') : Traces r (x :: ws) (es ++ (x, L) :: es') := by
  induction h with
  | nil => exact .bend h'
  | cons h1 _ ih => exact .between h1 ih

theorem Traces.append {p : Vec2 F} {ws ws' : List (Vec2 F)} {es es' : List (Vec2 F × UInt8)} (h : Traces p ws es)
    (h' : Traces (ws.getLastD p) ws' es') : Traces p (ws ++ ws') (es ++ es') := by
  induction h with
  | nil => simpa using h'
  | @bend p w L ws es _ ih =>
    rw [List.getLastD_cons] at h'
    exact .bend (ih h')
  | @between p w y L ws es h1 _ ih => 
    rw [List.getLastD_cons] at h'
    exact .between h1 (ih (by rw [List.getLastD_cons]; exact h'))

/-! ### Resolution of the marks -/

/-- Marks that are not fixed. -/
def OpenMarks {K : Type} [Scalar K] (os : List (Vec2 K × Vec2 K × UInt8)) : Prop := ∀ o ∈ os, o.1.beq o.2.1 = false

section
variable {K : Type} [Scalar K]

theorem OpenMarks.find {os : List (Vec2 K × Vec2 K × UInt8)} (h : OpenMarks os) :
    os.find? (fun q => q.1.beq q.2.1) = none := by
  rw [List.find?_eq_none]
  intro o ho
  rw [h o ho]; simp

/-- Resolution up to a fixed mark. -/
theorem resolveLayers_fixed {os rest : List (Vec2 K × Vec2 K × UInt8)} (h : OpenMarks os) {w : Vec2 K}
    (hw : w.beq w = true) (L : UInt8) (last frm : Vec2 K) :
    resolveLayers last frm (os ++ (w, w, L) :: rest) =
      resolveLayers w frm os ++ (w, L) :: resolveLayers last w rest := by
  induction os generalizing frm with
  | nil => simp [resolveLayers, hw]
  | cons o os ih =>
    have ho := h o (by simp)
    have h' : OpenMarks os := fun o ho => h o (by simp [ho])
    have hf : ((os ++ (w, w, L) :: rest).find? (fun q => q.1.beq q.2.1)) = some (w, w, L) := by
      rw [List.find?_append, h'.find]; simp [hw]
    simp only [List.cons_append, resolveLayers, ho, hf, h'.find, Option.map_some, Option.map_none, Option.getD_some,
      Option.getD_none, Bool.false_eq_true, if_false]
    cases lineIntersectSegment (frm, w) (o.1, o.2.1) with
    | none => exact ih h' frm
    | some it => simp only [List.cons_append]; rw [ih h' it]

/-- Resolution of one more open mark. -/
theorem resolveLayers_snoc {os : List (Vec2 K × Vec2 K × UInt8)} (h : OpenMarks os) {o : Vec2 K × Vec2 K × UInt8}
    (ho : o.1.beq o.2.1 = false) (x frm : Vec2 K) :
    resolveLayers x frm (os ++ [o]) =
      resolveLayers x frm os ++ resolveLayers x (((resolveLayers x frm os).getLast?.map (·.1)).getD frm) [o] := by
  induction os generalizing frm with
  | nil => simp [resolveLayers]
  | cons a os ih =>
    have ha := h a (by simp)
    have h' : OpenMarks os := fun o ho => h o (by simp [ho])
    have hf : ((os ++ [o]).find? (fun q => q.1.beq q.2.1)) = none := by
      rw [List.find?_append, h'.find]; simp [ho]
    simp only [List.cons_append]
    rw [resolveLayers, resolveLayers]
    simp only [ha, hf, h'.find, Option.map_none, Option.getD_none, Bool.false_eq_true, if_false]
    cases lineIntersectSegment (frm, x) (a.1, a.2.1) with
    | none => exact ih h' frm
    | some it =>
      simp only [List.cons_append]
      rw [ih h' it]
      congr 3
      cases hr : resolveLayers x it os with
      | nil => rfl
      | cons e es => simp [List.getLast?_cons]

end

variable [ExactField F] [IsStrictOrderedRing F]

/-- A line through the point `y` of a segment hits it there, unless it is parallel to it. -/
theorem intersect_at {f x a b y : Vec2 F} (hy : Between a b y) (hl : tri f x y = 0) :
    lineIntersectSegment (f.fin, x.fin) (a.fin, b.fin) = if tri f x a = tri f x b then none else some y.fin := by
  split
  · rename_i h
    cases hL : lineIntersectSegment (f.fin, x.fin) (a.fin, b.fin) with
    | none => rfl
    | some z => exact absurd h ((fin_intersect f x a b z).1 hL).1
  · rename_i h
    obtain ⟨u, u0, u1, rfl⟩ := hy
    rw [tri_along] at hl
    rw [fin_intersect]
    refine ⟨h, u, by linarith, by linarith [show (0:F) ≤ 1 / 10000 by positivity], by
      linarith [show (0:F) ≤ 1 / 10000 by positivity], rfl⟩

/-- Two points each between `r` and the other are equal. -/
theorem Between.antisymm {r x y : Vec2 F} (h1 : Between r x y) (h2 : Between r y x) : x = y := by
  obtain ⟨u, u0, u1, rfl⟩ := h1
  obtain ⟨v, v0, v1, hv⟩ := h2
  have hx : x.x - r.x = (v * u) * (x.x - r.x) := by
    have := congrArg Vec2.x hv
    simp only [along] at this
    linear_combination this
  have hy : x.y - r.y = (v * u) * (x.y - r.y) := by
    have := congrArg Vec2.y hv
    simp only [along] at this
    linear_combination this
  by_cases h : v * u = 1
  · have hu : u = 1 := by nlinarith
    rw [hu, along_one]
  · have e1 : x.x - r.x = 0 := by
      have : (1 - v * u) * (x.x - r.x) = 0 := by linear_combination hx
      exact (mul_eq_zero.1 this).resolve_left (fun h' => h (by linarith))
    have e2 : x.y - r.y = 0 := by
      have : (1 - v * u) * (x.y - r.y) = 0 := by linear_combination hy
      exact (mul_eq_zero.1 this).resolve_left (fun h' => h (by linarith))
    rw [Vec2.ext_iff']
    simp only [along]
    constructor
    · rw [e1]; linarith
    · rw [e2]; linarith

/-- The rest of a line that begins between `r` and `x`. -/
theorem Between.line {r x y f : Vec2 F} (h : Between r y f) (h' : Between r x y) :
    Between f x y ∧ Between r x f ∧ tri f x y = 0 ∧ tri f x r = 0 := by
  obtain ⟨h1, h2⟩ := h.trans_left h'
  refine ⟨h2, h1, ?_, ?_⟩
  · obtain ⟨u, -, -, rfl⟩ := h2
    rw [tri_along]; simp
  · obtain ⟨u, -, -, rfl⟩ := h1
    simp only [tri, along]; ring

/-- If both ends of an edge are on the line from `f` to `x`, so are `f`... -/
theorem collinear_edge {f x r C D : Vec2 F} (hfx : f ≠ x) (hC : tri f x C = 0) (hD : tri f x D = 0) (hr : tri f x r = 0) :
    tri C D r = 0 ∧ tri C D x = 0 := by
  obtain ⟨c, rfl⟩ := on_line hfx hC
  obtain ⟨d, rfl⟩ := on_line hfx hD
  obtain ⟨k, rfl⟩ := on_line hfx hr
  constructor <;> (simp only [tri, along]; ring)

/-- One crossing more on the way from `r` towards `x`: from the point `y` of the polygon `c.src` to the point `y'` of the
crossed edge, which is entered in the interval from `a` to `b`. -/
theorem leg_step {m : Mesh (Ext F)} {L₀ L₁ : UInt8} {pr : UInt32} {r x y y' a b C D : Vec2 F} {s t : F}
    {es : List (Vec2 F × UInt8)} {c : Crossing} (hv : c.Valid m) (hat : c.At m C D)
    (ht : Tour m L₀ pr r [] es L₁ c.src y) (hann : y ≠ x → L₁.toNat = idLayer c.src) (hleg : OnLeg x r es)
    (hf : Between r y (lastPos r es)) (hyy : Between r y' y) (hy'x : Between r x y') (hin : InPolygon m c.src y')
    (hCD : Between C D y') (hab : Between a b y') (ha : a = along C D s) (hb : b = along C D t) (hst : s < t) (hne : a ≠ b)
    (hclear : ClearLeg m r x) :
    ∃ es' L', resolveLayers x.fin (lastPos r es).fin
        (if layerOf c.dst ≠ layerOf c.src then [(a.fin, b.fin, layerOf c.dst)] else []) = es'.map finEntry
      ∧ OnLeg x r (es ++ es') ∧ Between r y' (lastPos r (es ++ es'))
      ∧ Tour m L₀ pr r [] (es ++ es') L' c.dst y' ∧ (y' ≠ x → L'.toNat = idLayer c.dst) := by
  have hyx : y' ≠ x → y ≠ x := by
    rintro h rfl
    exact h (hy'x.antisymm hyy).symm
  -- the move
  have hmove : Tour m L₀ pr r [] es L₁ c.src y' := by
    by_cases h : y = x
    · have : y' = y := by
        subst h
        exact (hy'x.antisymm hyy).symm
      rw [this]; exact ht
    · exact ht.move (hann h) hin
  have hcross := hmove.cross hv hat hCD
  have hf' : Between r y' (lastPos r es) := (hf.trans_left hyy).1
  obtain ⟨h1, h2, h3, h4⟩ := hf'.line hy'x
  have hlid : layerOf c.dst ≠ layerOf c.src ↔ idLayer c.src ≠ idLayer c.dst := by
    rw [← layerOf_toNat, ← layerOf_toNat, Ne, Ne, not_iff_not, UInt8.toNat_inj]
    exact eq_comm
  by_cases hl : layerOf c.dst ≠ layerOf c.src
  · rw [if_pos hl]
    have hbeq : a.fin.beq b.fin = false := by
      rw [Bool.eq_false_iff]; intro h; exact hne ((fin_beq _ _).1 h)
    simp only [resolveLayers, hbeq, Bool.false_eq_true, if_false, List.find?_nil, Option.map_none, Option.getD_none]
    rw [intersect_at hab h3]
    by_cases hpar : tri (lastPos r es) x a = tri (lastPos r es) x b
    · rw [if_pos hpar]
      refine ⟨[], L₁, rfl, by simpa using hleg, by simpa using hf', by simpa using hcross, ?_⟩
      intro hne'
      exfalso
      have hfx : lastPos r es ≠ x := by
        intro h
        rw [h] at hf'
        exact hne' (hy'x.antisymm hf').symm
      rw [ha, hb, tri_along, tri_along] at hpar
      have e : tri (lastPos r es) x C = tri (lastPos r es) x D := by
        have : (t - s) * (tri (lastPos r es) x C - tri (lastPos r es) x D) = 0 := by linear_combination hpar
        have := (mul_eq_zero.1 this).resolve_left (by linarith)
        linarith
      obtain ⟨u, -, -, hu⟩ := hCD
      rw [hu, tri_along, ← e] at h3
      have h0 : tri (lastPos r es) x C = 0 := by linear_combination h3
      exact hclear c C D hv (hlid.1 hl) hat (collinear_edge hfx h0 (e ▸ h0) h4)
    · rw [if_neg hpar]
      refine ⟨[(y', layerOf c.dst)], layerOf c.dst, rfl, hleg.snoc h1, ?_, hmove.hop hv hat hCD (hlid.1 hl) (layerOf_toNat _),
        fun _ => layerOf_toNat _⟩
      rw [lastPos_append]; exact Between.right _ _
  · rw [if_neg hl]
    refine ⟨[], L₁, rfl, by simpa using hleg, by simpa using hf', by simpa using hcross, fun h => ?_⟩
    rw [hann (hyx h)]
    rw [hlid] at hl
    push_neg at hl
    exact hl

/-! ### Nodes -/

omit [Scalar F] [ExactField F] in
theorem along_ne_of_lt {A B : Vec2 F} (hAB : A ≠ B) {s t : F} (hst : s < t) : along A B s ≠ along A B t := by
  intro this
  simp only [along, Vec2.mk.injEq] at this
  have hts : 0 < t - s := by linarith
  apply hAB
  rw [Vec2.ext_iff']
  constructor
  · have : (t - s) * (B.x - A.x) = 0 := by linear_combination -this.1
    linarith [(mul_eq_zero.1 this).resolve_left hts.ne']
  · have : (t - s) * (B.y - A.y) = 0 := by linear_combination -this.2
    linarith [(mul_eq_zero.1 this).resolve_left hts.ne']

theorem Conforming.edge_ne {m : Mesh (Ext F)} (hc : Conforming m) {c : Crossing} (hv : c.Valid m) {A B : Vec2 F}
    (hat : c.At m A B) : A ≠ B := by
  obtain ⟨ps, k, hring, hconv, hcons, hfan⟩ := hc.fan hv hat
  rintro rfl
  have hlen := hfan.len
  have := hconv.rotate k |>.injective hfan.first hfan.last
  omega

/-- What is known of the entries of a node. -/
def TourInv (m : Mesh (Ext F)) (src : UInt32) (start : Vec2 F) (n : SearchNode (Ext F)) (r a b : Vec2 F) : Prop :=
  ∃ ws : List (Vec2 F), n.path = ws.map Vec2.fin ∧ ws.getLastD start = r ∧
    ((start :: ws).IsChain (ClearLeg m) → ∃ es₀ L₀ pr fixed opens,
      n.pathWithLayers = fixed ++ opens ∧ OpenMarks opens ∧
      (∀ rest last, resolveLayers last start.fin (fixed ++ rest) = es₀.map finEntry ++ resolveLayers last r.fin rest) ∧
      Traces start ws es₀ ∧ Tour m (layerOf src) src start ws es₀ L₀ pr r ∧
      ∀ y x, Between a b y → Between r x y → ClearLeg m r x → ∃ es L₁,
        resolveLayers x.fin r.fin opens = es.map finEntry ∧ OnLeg x r es ∧ Between r y (lastPos r es) ∧
        Tour m L₀ pr r [] es L₁ n.polygonTo y ∧ (y ≠ x → L₁.toNat = idLayer n.polygonTo))

omit [ExactField F] [IsStrictOrderedRing F] [LinearOrder F] [Field F] in
theorem map_finEntry_last (es : List (Vec2 F × UInt8)) (r : Vec2 F) :
    (((es.map finEntry).getLast?.map (·.1)).getD r.fin) = (lastPos r es).fin := by
  unfold lastPos
  rw [List.getLast?_map]
  cases es.getLast? <;> rfl

/-- A new mark at the end. -/
theorem resolve_more {m : Mesh (Ext F)} {L₀ L₁ : UInt8} {pr : UInt32} {r x y y' a b C D : Vec2 F} {s t : F}
    {es : List (Vec2 F × UInt8)} {c : Crossing} {opens : List (Vec2 (Ext F) × Vec2 (Ext F) × UInt8)} (ho : OpenMarks opens)
    (hres : resolveLayers x.fin r.fin opens = es.map finEntry) (hv : c.Valid m) (hat : c.At m C D)
    (ht : Tour m L₀ pr r [] es L₁ c.src y) (hann : y ≠ x → L₁.toNat = idLayer c.src) (hleg : OnLeg x r es)
    (hf : Between r y (lastPos r es)) (hyy : Between r y' y) (hy'x : Between r x y') (hin : InPolygon m c.src y')
    (hCD : Between C D y') (hab : Between a b y') (ha : a = along C D s) (hb : b = along C D t) (hst : s < t) (hne : a ≠ b)
    (hclear : ClearLeg m r x) :
    ∃ es' L', resolveLayers x.fin r.fin (opens ++
        (if layerOf c.dst ≠ layerOf c.src then [(a.fin, b.fin, layerOf c.dst)] else [])) = es'.map finEntry
      ∧ OnLeg x r es' ∧ Between r y' (lastPos r es')
      ∧ Tour m L₀ pr r [] es' L' c.dst y' ∧ (y' ≠ x → L'.toNat = idLayer c.dst) := by
  obtain ⟨es', L', h1, h2, h3, h4, h5⟩ := leg_step hv hat ht hann hleg hf hyy hy'x hin hCD hab ha hb hst hne hclear
  refine ⟨es ++ es', L', ?_, h2, h3, h4, h5⟩
  have hbeq : a.fin.beq b.fin = false := by
    rw [Bool.eq_false_iff]; intro h; exact hne ((fin_beq _ _).1 h)
  rw [List.map_append, ← h1]
  by_cases hl : layerOf c.dst ≠ layerOf c.src
  · rw [if_pos hl, resolveLayers_snoc ho hbeq, hres, map_finEntry_last]
  · rw [if_neg hl, List.append_nil, hres]; simp [resolveLayers]

/-- The marks of a new node. -/
theorem marks_of_added {q : Query (Ext F)} (hd : q.cfg.detailed = true) {root r a b : Vec2 F} {o : UInt32}
    {i j : UInt32} {node n : SearchNode (Ext F)} (h : Added q root.fin o (a.fin, i) (b.fin, j) node n)
    (hr : node.root = r.fin) :
    n.path = (if root = r then node.path else node.path ++ [root.fin]) ∧
    n.pathWithLayers = (if root = r then node.pathWithLayers
        else node.pathWithLayers ++ [(root.fin, root.fin, layerOf node.polygonTo)]) ++
      (if layerOf o ≠ layerOf node.polygonTo then [(a.fin, b.fin, layerOf o)] else []) := by
  obtain ⟨newF, hh, -, -, -, -, rfl⟩ := h
  simp only [mkNode, newPathWithLayers, hd, if_true, hr]
  by_cases e : root = r
  · subst e
    have := (fin_beq root root).2 rfl
    rw [if_pos this, if_pos rfl, if_pos rfl, if_pos this]
    refine ⟨rfl, ?_⟩
    by_cases hl : layerOf o ≠ layerOf node.polygonTo <;> simp [hl]
  · have : ¬ root.fin.beq r.fin = true := fun h => e ((fin_beq _ _).1 h)
    rw [if_neg this, if_neg e, if_neg e, if_neg this]
    refine ⟨rfl, ?_⟩
    by_cases hl : layerOf o ≠ layerOf node.polygonTo <;> simp [hl]

end Polyanya
