import Verif.Proofs.Shortcut
/-
The children of a node on a shortest route: one of them is on the route too, and the search keeps it.
-/

namespace Polyanya

/-! ### What expanding one successor adds -/

section
variable {K : Type} [Scalar K]

/-- The successor `su` of `node` makes the node `n`. -/
structure Makes (q : Query K) (node : SearchNode K) (su : Successor K) (n : SearchNode K) : Prop where
  ex : ∃ layer start stop root,
    q.mesh.layers[(layerOf node.polygonTo).toNat]? = some layer
    ∧ layer.vertices[su.edge.1.toNat]? = some start ∧ layer.vertices[su.edge.2.toNat]? = some stop
    ∧ otherSideOf start stop node.polygonTo ≠ u32Max
    ∧ q.blocked.contains (layerOf (otherSideOf start stop node.polygonTo)) = false
    ∧ (otherSideOf start stop node.polygonTo = q.dst.2 ∨
        Open q.mesh (otherSideOf start stop node.polygonTo))
    ∧ node.polygonFrom ≠ otherSideOf start stop node.polygonTo
    ∧ successorRoot q.mesh q.blocked node layer start stop su = .ok (some root)
    ∧ (su.interval.1.distanceSquared su.interval.2 <. tol10) = false
    ∧ Added q root (otherSideOf start stop node.polygonTo) (su.interval.1, su.edge.1)
        (su.interval.2, su.edge.2) node n

theorem Makes.child {q : Query K} {node n : SearchNode K} {su : Successor K} (h : Makes q node su n)
    (hd : node.polygonTo ≠ q.dst.2) {succs : List (Successor K)} (he : edgesBetween q.mesh node = .ok succs)
    (hs : su ∈ succs) : ChildNode q node n := by
  obtain ⟨layer, start, stop, root, h1, h2, h3, h4, h5, h6, h7, h8, h9, h10⟩ := h
  exact ⟨layer, succs, su, start, stop, root, hd, h1, he, hs, h2, h3, h4, h5, h6, h7, h8, h9, h10⟩

/-- Adding a node: it is added, unless a better way to its root is known. -/
theorem addNode_keeps {q : Query K} {inst inst' : Inst K} {root : Vec2 K} {otherSide : UInt32}
    {start stop : Vec2 K × UInt32} {node n : SearchNode K} (hg : inst.goal = q.dst.1)
    (hA : Added q root otherSide start stop node n)
    (h : inst.addNode q.cfg q.mesh root otherSide start stop node = .ok inst') :
    (∃ o, histGet inst.rootHistory n.root = some o ∧ (o <. n.distanceStartToRoot) = true)
      ∨ n ∈ inst'.nodeBuffer := by
  obtain ⟨newF, hh, h1, h2, h3, h4, rfl⟩ := hA
  unfold Inst.addNode at h
  rw [hg, h1, h2] at h
  simp only [res_bind_ok] at h
  rw [h3, h4] at h
  simp only [Bool.or_self, Bool.false_eq_true, if_false] at h
  split at h
  · rename_i o ho
    split at h
    · rename_i hlt
      exact .inl ⟨o, ho, hlt⟩
    · right
      simp only [Except.ok.injEq] at h
      subst h
      simp [mkNode]
  · right
    simp only [Except.ok.injEq] at h
    subst h
    simp [mkNode]

theorem expandOne_keeps {q : Query K} {inst inst' : Inst K} {node n : SearchNode K} {su : Successor K}
    (hi : InstOk q inst) (hm : Makes q node su n) (h : expandOne q.cfg q.mesh node inst su = .ok inst') :
    (∃ o, histGet inst.rootHistory n.root = some o ∧ (o <. n.distanceStartToRoot) = true)
      ∨ n ∈ inst'.nodeBuffer := by
  obtain ⟨layer, start, stop, root, hl, h0, h1, hmax, hb, hgo, hfrom, hr, htiny, hA⟩ := hm
  unfold expandOne at h
  rw [idx_eq_ok.2 hl] at h
  simp only [res_bind_ok] at h
  rw [idxUnchecked_eq_ok.2 h0, idxUnchecked_eq_ok.2 h1] at h
  simp only [res_bind_ok] at h
  rw [if_neg hmax, hi.blocked] at h
  simp only [hb, Bool.false_eq_true, if_false] at h
  rw [bind_eq_ok] at h
  obtain ⟨dead, hd, h⟩ := h
  have hdead : dead = false := by
    rw [hi.polygonTo] at hd
    rcases hgo with hgo | ⟨l, p, hl', hp', ho⟩
    · rw [if_neg (by rw [hgo]; simp)] at hd
      simpa using hd.symm
    · split at hd
      · rw [idx_eq_ok.2 hl'] at hd
        simp only [res_bind_ok] at hd
        rw [idx_eq_ok.2 hp'] at hd
        simp only [res_bind_ok, Except.ok.injEq] at hd
        rw [← hd, ho]
      · simpa using hd.symm
  subst hdead
  simp only [Bool.false_eq_true, if_false] at h
  rw [if_neg hfrom, hr] at h
  simp only [res_bind_ok, htiny, Bool.false_eq_true, if_false] at h
  exact addNode_keeps hi.goal hA h

/-- Nothing leaves the buffer while the successors are expanded. -/
theorem expandOne_buffer {q : Query K} {inst inst' : Inst K} {node : SearchNode K} {su : Successor K}
    (hg : inst.goal = q.dst.1) (h : expandOne q.cfg q.mesh node inst su = .ok inst') :
    inst.nodeBuffer ⊆ inst'.nodeBuffer ∧ inst'.queue = inst.queue := by
  have key : ∀ {root other start stop}, inst.addNode q.cfg q.mesh root other start stop node = .ok inst' →
      inst.nodeBuffer ⊆ inst'.nodeBuffer ∧ inst'.queue = inst.queue := by
    intro root other start stop h
    rcases addNode_cases hg h with rfl | ⟨n, hist, -, rfl⟩
    · exact ⟨fun _ h => h, rfl⟩
    · exact ⟨fun x hx => List.mem_append_left _ hx, rfl⟩
  have same : ∀ {i : Inst K}, (Except.ok inst : Res (Inst K)) = .ok i →
      inst.nodeBuffer ⊆ i.nodeBuffer ∧ i.queue = inst.queue := by
    intro i h
    cases h
    exact ⟨fun _ h => h, rfl⟩
  unfold expandOne at h
  simp only [bind_eq_ok, idx_eq_ok, idxUnchecked_eq_ok] at h
  obtain ⟨layer, hl, start, h0, stop, h1, h⟩ := h
  split at h
  · exact same h
  split at h
  · exact same h
  rw [bind_eq_ok] at h
  obtain ⟨dead, hd, h⟩ := h
  split at h
  · exact same h
  split at h
  · exact same h
  rw [bind_eq_ok] at h
  obtain ⟨root?, hr, h⟩ := h
  cases root? with
  | none => exact same h
  | some root =>
    simp only at h
    split at h
    · exact same h
    · exact key h

end

/-! ### Which end of an edge the route touches first -/

/-- The first end of an edge that the route touches is a left one. -/
def LeftFirst (m : Mesh (Ext ℝ)) : List (Crossing × Vec2 ℝ) → Prop
  | [] => False
  | (c, y) :: rs => (∃ A, c.At m A y) ∨ ((¬ ∃ B, c.At m y B) ∧ LeftFirst m rs)

/-- The first end of an edge that the route touches is a right one. -/
def RightFirst (m : Mesh (Ext ℝ)) : List (Crossing × Vec2 ℝ) → Prop
  | [] => False
  | (c, y) :: rs => (¬ ∃ A, c.At m A y) ∧ ((∃ B, c.At m y B) ∨ RightFirst m rs)

theorem not_both_first {m : Mesh (Ext ℝ)} : ∀ {rs : List (Crossing × Vec2 ℝ)}, LeftFirst m rs →
    RightFirst m rs → False
  | [], h, _ => h
  | (c, y) :: rs, h, h' => by
    rcases h with h | ⟨h1, h2⟩
    · exact h'.1 h
    · rcases h'.2 with h3 | h3
      · exact h1 h3
      · exact not_both_first h2 h3

/-! ### Passing by a vertex at which paths cannot turn -/

open Classical in
/-- The first point of the route that is not `y` (the goal is the last point). -/
noncomputable def ahead (y goal : Vec2 ℝ) : List (Crossing × Vec2 ℝ) → Vec2 ℝ
  | [] => goal
  | (_, z) :: rs => if z = y then ahead y goal rs else z

/-- When the edge `A B` is crossed at an end that is not flagged, the route goes on along `rs` on the side of the edge:
the next end that is touched is not on the other side, and the next edge from this end is not behind. -/
structure Passes (m : Mesh (Ext ℝ)) (goal A B y : Vec2 ℝ) (rs : List (Crossing × Vec2 ℝ)) : Prop where
  right : y = A → ¬ Flagged m y → ¬ LeftFirst m rs ∧ ∀ c z rs' D, rs = (c, z) :: rs' → c.At m y D →
    0 < tri y (ahead y goal rs) D
  left : y = B → ¬ Flagged m y → ¬ RightFirst m rs ∧ ∀ c z rs' C, rs = (c, z) :: rs' → c.At m C y →
    tri y (ahead y goal rs) C < 0

/-- The route passes by all vertices that are not flagged. -/
def Calm (m : Mesh (Ext ℝ)) (goal : Vec2 ℝ) : List (Crossing × Vec2 ℝ) → Prop
  | [] => True
  | (c, y) :: rs => (∀ A B, c.At m A B → Passes m goal A B y rs) ∧ Calm m goal rs

/-- Shortest walks go straight on at vertices that are not flagged. -/
def StraightOn (q : Query (Ext ℝ)) (start goal : Vec2 ℝ) (opt : ℝ) : Prop :=
  ∀ ws pr p id v rs, Walk q.mesh q.src.2 start pr p ws → Straight q.mesh pr p id v →
    Route q.mesh id v q.dst.2 goal rs → polyLen (start :: ws) + dist2 p v + routeLen v goal rs ≤ opt →
    Flagged q.mesh v ∨ Between p (ahead v goal rs) v

/-! ### The children -/

theorem along_ne {C D : Vec2 ℝ} (h : C ≠ D) {u v : ℝ} (huv : u ≠ v) : along C D u ≠ along C D v := by
  intro heq
  simp only [along, Vec2.mk.injEq] at heq
  apply h
  have huv' : u - v ≠ 0 := sub_ne_zero.2 huv
  rw [Vec2.ext_iff']
  constructor
  · have : (u - v) * (D.x - C.x) = 0 := by linear_combination heq.1
    linarith [(mul_eq_zero.1 this).resolve_left huv']
  · have : (u - v) * (D.y - C.y) = 0 := by linear_combination heq.2
    linarith [(mul_eq_zero.1 this).resolve_left huv']

theorem good_sights {m : Mesh (Ext ℝ)} {start : Vec2 ℝ} {src : UInt32} {node : SearchNode (Ext ℝ)}
    {r a b A B : Vec2 ℝ} {s t : ℝ} (hg : NodeGeo m src start node r a b A B s t) {C D : Vec2 ℝ}
    (hE : IsEdgeAt m C D) {e : UInt32 × UInt32} {su : Successor (Ext ℝ)} {i1 i2 : Vec2 ℝ} {u1 u2 : ℝ}
    (good : View.Good r a b C D e su i1 i2 u1 u2) :
    (su.ty = .observable → Sight m start r C D i1 ∧ Sight m start r C D i2) ∧
    (su.ty = .rightNonObservable → Sight m start a C D i1 ∧ Sight m start a C D i2) ∧
    (su.ty = .leftNonObservable → Sight m start b C D i1 ∧ Sight m start b C D i2) := by
  have line1 : tri C D i1 = 0 := by rw [good.e1, tri_along]; simp
  have line2 : tri C D i2 = 0 := by rw [good.e2, tri_along]; simp
  have hAB := hg.sightA.1.isVertex
  refine ⟨fun hty => ?_, fun hty => ?_, fun hty => ?_⟩
  · obtain ⟨-, -, -, -, o5, o6⟩ := good.observable hty
    constructor
    · rcases o5 with h | ⟨h2, h3, h4⟩
      · exact ⟨hE, .inl (by rw [good.e1, h, along_zero])⟩
      · exact hg.sightA.behind hE hAB (by intro h; linarith) h2 line1
    · rcases o6 with h | ⟨h2, h3, h4⟩
      · exact ⟨hE, .inr (.inl (by rw [good.e2, h, along_one]))⟩
      · exact hg.sightB.behind hE hAB h3 h2 line2
  · obtain ⟨rfl, hu2⟩ := good.right hty
    refine ⟨⟨hE, .inl (by rw [good.e1, along_zero])⟩, hE, ?_⟩
    rcases hu2 with h | ⟨h2, h3, h4⟩
    · right; left; rw [good.e2, h, along_one]
    · right; right
      refine ⟨r, hg.eye, ?_, ?_, line2⟩
      · rw [tri_swap r a C, tri_swap r a D]
        intro h; linarith
      · rw [tri_swap r a i2, h2, neg_zero]
  · obtain ⟨hu1, hu2⟩ := good.left hty
    have sight : ∀ i u, i = along C D u → (u = 0 ∨ u = 1 ∨ (tri r b i = 0 ∧ tri r b C ≠ tri r b D)) →
        Sight m start b C D i := by
      rintro i u rfl hcase
      refine ⟨hE, ?_⟩
      rcases hcase with h | h | ⟨h2, h3⟩
      · left; rw [h, along_zero]
      · right; left; rw [h, along_one]
      · right; right
        refine ⟨r, hg.eye, ?_, ?_, by rw [tri_along]; simp⟩
        · rw [tri_swap r b C, tri_swap r b D]
          intro h; exact h3 (neg_injective h)
        · rw [tri_swap r b, h2, neg_zero]
    constructor
    · refine sight _ _ good.e1 ?_
      rcases hu1 with h | h
      · exact .inl h
      · exact .inr (.inr ⟨h.1, h.2.1⟩)
    · refine sight _ _ good.e2 ?_
      rcases hu2 with h | h
      · exact .inr (.inl h)
      · exact .inr (.inr ⟨h.1, h.2.1⟩)

/-- The polygon on the other side of an edge. -/
theorem otherSide_valid {m : Mesh (Ext ℝ)}
    (hu : ∀ c c' : Crossing, c.Valid m → c'.Valid m → c'.src = c.src → c'.a = c.a → c'.b = c.b →
      c'.dst = c.dst) {c : Crossing} (hv : c.Valid m) {l : Layer (Ext ℝ)}
    (hl : m.layers[idLayer c.src]? = some l) {va vb : Vertex (Ext ℝ)} (ha : l.vertices[c.a.toNat]? = some va)
    (hb : l.vertices[c.b.toNat]? = some vb) : otherSideOf va vb c.src = c.dst := by
  obtain ⟨l', p, va', vb', hp, he, ha', hb', h1, h2, h3, h4⟩ := id hv
  have : l' = l := Option.some.inj (hp.1.symm.trans hl)
  subst this
  have : va' = va := Option.some.inj (ha'.symm.trans ha)
  subst this
  have : vb' = vb := Option.some.inj (hb'.symm.trans hb)
  subst this
  have hne : otherSideOf va' vb' c.src ≠ u32Max := by
    unfold otherSideOf
    cases hf : ((va'.polygons.filter (fun i => i ≠ u32Max && vb'.polygons.contains i)).find?
      (fun p => p ≠ c.src)) with
    | none =>
      exfalso
      rw [List.find?_eq_none] at hf
      have := hf c.dst (by
        simp only [List.mem_filter, Bool.and_eq_true, List.contains_iff_mem, decide_eq_true_eq]
        exact ⟨h1, h3, h2⟩)
      simp at this
      exact h4 this
    | some q =>
      have h1 := List.mem_of_find?_eq_some hf
      simp only [List.mem_filter, Bool.and_eq_true, List.contains_iff_mem, decide_eq_true_eq] at h1
      exact h1.2.1
  obtain ⟨g1, g2, g3⟩ := otherSideOf_mem hne
  exact hu c ⟨c.src, otherSideOf va' vb' c.src, c.a, c.b⟩ hv
    ⟨l', p, va', vb', hp, he, ha', hb', g1, g2, hne, g3⟩ rfl rfl rfl

/-- Where no value is inside the tolerance. -/
theorem Setting.clear {q : Query (Ext ℝ)} {start goal : Vec2 ℝ} (hs : Setting q start goal) {w C D i1 i2 : Vec2 ℝ}
    (hw : Eye q.mesh start w) (h1 : Sight q.mesh start w C D i1) (h2 : Sight q.mesh start w C D i2) :
    Clear i1 i2 w ∧ Clear i1 i2 goal := by
  constructor
  · by_cases h : |tri i1 i2 w| < 1 / 10000
    · exact .inl (hs.exact.flat w C D i1 i2 w hw h1 h2 (.inl rfl) h)
    · exact .inr (not_lt.1 h)
  · by_cases h : |tri i1 i2 goal| < 1 / 10000
    · exact .inl (hs.exact.flat w C D i1 i2 goal hw h1 h2 (.inr rfl) h)
    · exact .inr (not_lt.1 h)

namespace Known

variable {q : Query (Ext ℝ)} {start goal : Vec2 ℝ} {node : SearchNode (Ext ℝ)} {r a b A B : Vec2 ℝ}
  {s t g opt : ℝ}

/-- A successor with a root makes a node. -/
theorem makes (h : Known q start goal node r a b A B s t g) (hs : Setting q start goal)
    {succs : List (Successor (Ext ℝ))} (he : edgesBetween q.mesh node = .ok succs)
    (hd : node.polygonTo ≠ q.dst.2) {c : Crossing} (hsrc : c.src = node.polygonTo) (hv : c.Valid q.mesh)
    {C D : Vec2 ℝ} (hat : c.At q.mesh C D) (hgo : c.dst = q.dst.2 ∨ Open q.mesh c.dst)
    (hfrom : node.polygonFrom ≠ c.dst) {su : Successor (Ext ℝ)} (hsu : su ∈ succs)
    (hedge : su.edge = (c.a, c.b)) {i1 i2 : Vec2 ℝ} (hint : su.interval = (i1.fin, i2.fin))
    (hne : i1 ≠ i2) {w : Vec2 ℝ} (hw : Eye q.mesh start w) (h1 : Sight q.mesh start w C D i1)
    (h2 : Sight q.mesh start w C D i2)
    (hroot : ∀ layer vs ve, q.mesh.layers[(layerOf node.polygonTo).toNat]? = some layer →
      layer.vertices[c.a.toNat]? = some vs → layer.vertices[c.b.toNat]? = some ve →
      vs.coords + layer.offset = C.fin → ve.coords + layer.offset = D.fin →
      successorRoot q.mesh q.blocked node layer vs ve su = .ok (some w.fin)) :
    ∃ n s' t', Makes q node su n ∧ Known q start goal n w i1 i2 C D s' t' (g + dist2 r w)
      ∧ n.polygonFrom = node.polygonTo ∧ n.polygonTo = c.dst := by
  obtain ⟨layer, hl, ⟨vs, hvs, hvs'⟩, ⟨ve, hve, hve'⟩⟩ := id hat
  have hother : otherSideOf vs ve node.polygonTo = c.dst := by
    rw [← hsrc]; exact otherSide_valid hs.nav.unique hv hl hvs hve
  have hl' : q.mesh.layers[(layerOf node.polygonTo).toNat]? = some layer := by
    rw [layerOf_toNat, ← hsrc]; exact hl
  have hmax : c.dst ≠ u32Max := by
    obtain ⟨_, _, _, _, -, -, -, -, -, -, h3, -⟩ := hv
    exact h3
  obtain ⟨c1, c2⟩ := hs.clear hw h1 h2
  have hdist : newDistance q.cfg q.mesh w.fin node = .ok (Ext.fin (g + dist2 r w)) := by
    rw [newDistance_of_plain hs.plain hl']
    unfold newDistance
    rw [h.geo.root, h.length]
    by_cases hb : w = r
    · subst hb
      rw [if_pos ((fin_beq _ _).2 rfl), dist2_self, add_zero]
    · rw [if_neg (fun h => hb ((fin_beq _ _).1 h)), fin_distance]
      rfl
  have hheur : newHeuristic q.cfg q.mesh q.dst.1 w.fin (su.interval.1, su.edge.1) (su.interval.2, su.edge.2)
      = .ok (Ext.fin (heuristic w goal (i1, i2))) := by
    rw [newHeuristic_of_plain hs.plain (List.mem_of_getElem? hl)
      (by rw [hedge]; exact (List.getElem?_eq_some_iff.1 hvs).1) (by rw [hedge]; exact (List.getElem?_eq_some_iff.1 hve).1)]
    unfold newHeuristic
    rw [hint, hs.goalAt]
    simp only [Bool.false_eq_true, if_false]
    rw [fin_heuristic hne c1 c2]
  obtain ⟨n, hA, hnl⟩ : ∃ n, Added q w.fin (otherSideOf vs ve node.polygonTo) (su.interval.1, su.edge.1)
      (su.interval.2, su.edge.2) node n ∧ n.distanceStartToRoot = Ext.fin (g + dist2 r w) :=
    ⟨_, ⟨_, _, hdist, hheur, rfl, rfl, rfl⟩, rfl⟩
  have htiny : (su.interval.1.distanceSquared su.interval.2 <. tol10) = false := by
    rw [hint, Bool.eq_false_iff, Ne, fin_distanceSquared, ext_tol10, ext_lt]
    intro hlt
    exact hne (hs.nav.noSliver w C D i1 i2 hw h1 h2 (by simpa [sqDist] using hlt))
  have hM : Makes q node su n := ⟨layer, vs, ve, w.fin, hl', by rw [hedge]; exact hvs, by rw [hedge]; exact hve,
    by rw [hother]; exact hmax, by rw [hs.free]; rfl, by rw [hother]; exact hgo, by rw [hother]; exact hfrom,
    hroot layer vs ve hl' hvs hve hvs' hve', htiny, hA⟩
  have hgen := Gen.child h.gen (hM.child hd he hsu)
  obtain ⟨f1, f2, f3, f4, -, f6⟩ := added_fields hA
  obtain ⟨r', a', b', A', B', s', t', g', hk⟩ := hs.known hgen
  have e1 : r' = w := Vec2.fin_injective (hk.geo.root.symm.trans f6)
  have e2 : (a'.fin, b'.fin) = (i1.fin, i2.fin) := by
    rw [← hint]; exact hk.geo.interval.symm.trans f3
  simp only [Prod.mk.injEq] at e2
  have e3 := Vec2.fin_injective e2.1
  have e4 := Vec2.fin_injective e2.2
  have hcr : n.crossing = c := by
    unfold SearchNode.crossing
    rw [f1, f2, f4, hother, hedge, ← hsrc]
  have hat' := hk.geo.at_
  rw [hcr] at hat'
  obtain ⟨e5, e6⟩ := hat.unique hat'
  have e7 : g' = g + dist2 r w := by
    have := hk.length.symm.trans hnl
    simpa using this
  subst e1 e3 e4 e5 e6 e7
  exact ⟨_, s', t', hM, hk, f1, f2.trans hother⟩

end Known

end Polyanya
