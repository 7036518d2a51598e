import Verif.Proofs.Tiling
import Verif.Props.MergeRegionExample
/-
C63 for the loop `while mesh.merge_polygons() {}`.
-/

namespace Polyanya

variable {K : Type} [Scalar K]

/-- What merging may change in a layer: the polygons, but not the area that they cover, nor the places of the
vertices. -/
structure SameArea (val : K → ℝ) (l l' : Layer K) : Prop where
  walkable : ∀ x, l'.Walkable val x ↔ l.Walkable val x
  area : (l'.polygons.map (l'.signedArea val)).sum = (l.polygons.map (l.signedArea val)).sum
  coords : l'.vertices.map (·.coords) = l.vertices.map (·.coords)
  offset : l'.offset = l.offset

theorem SameArea.refl (val : K → ℝ) (l : Layer K) : SameArea val l l := ⟨fun _ => Iff.rfl, rfl, rfl, rfl⟩

theorem SameArea.trans {val : K → ℝ} {l l' l'' : Layer K} (h : SameArea val l l') (h' : SameArea val l' l'') :
    SameArea val l l'' :=
  ⟨fun x => (h'.walkable x).trans (h.walkable x), h'.area.trans h.area, h'.coords.trans h.coords,
    h'.offset.trans h.offset⟩

/-- C63, one round on one layer: a proper tiling stays a proper tiling of the same area. -/
theorem C63_tiling (val : K → ℝ) (geo : Geo K) (hg : geo.AcceptsConvexOnly val) (l l' : Layer K) (b : Bool)
    (hT : l.Tiling val) (h : l.mergePolygons geo = .ok (l', b)) : l'.Tiling val ∧ SameArea val l l' := by
  refine ⟨hT.merge hg h, (C63_region val geo hg l l' b hT.consistent hT.conforming hT.convex h).1,
    C26_total_area geo (fun cs h => (hg cs h).1) l l' b hT.consistent hT.conforming h val, ?_, ?_⟩
  · obtain ⟨_, -, -, hvlen, hvs, -⟩ := C25_references geo l l' b hT.consistent.sized h
    refine List.ext_getElem (by simp [hvlen]) fun i h1 h2 => ?_
    simp only [List.length_map] at h1 h2
    simp only [List.getElem_map]
    exact (hvs i _ _ (List.getElem?_eq_getElem h2) (List.getElem?_eq_getElem h1)).1
  · obtain ⟨order, st, cst, vs, ho, hst, hb, hinv, -, hl', rfl⟩ := mergePolygons_ok h
    rw [hl']; rfl

theorem mergeLayers_tiling {val : K → ℝ} {geo : Geo K} (hg : geo.AcceptsConvexOnly val) :
    ∀ {ls ls' : List (Layer K)} {b : Bool}, (∀ l ∈ ls, l.Tiling val) → mergeLayers geo ls = .ok (ls', b) →
      (∀ l ∈ ls', l.Tiling val) ∧ List.Forall₂ (SameArea val) ls ls'
  | [], ls', b, _, h => by cases h; exact ⟨by simp, .nil⟩
  | l :: ls, ls', b, hT, h => by
    rw [mergeLayers, bind_eq_ok] at h
    obtain ⟨⟨l1, b1⟩, h1, h⟩ := h
    obtain ⟨t1, s1⟩ := C63_tiling val geo hg l l1 b1 (hT l List.mem_cons_self) h1
    have hTs : ∀ l' ∈ ls, l'.Tiling val := fun l' hl => hT l' (List.mem_cons_of_mem _ hl)
    cases b1 with
    | true =>
      cases h
      refine ⟨?_, .cons s1 (List.forall₂_same.2 fun l' _ => SameArea.refl val l')⟩
      intro l' hl
      rcases List.mem_cons.1 hl with rfl | hl
      · exact t1
      · exact hTs l' hl
    | false =>
      simp only [Bool.false_eq_true, if_false] at h
      rw [bind_eq_ok] at h
      obtain ⟨⟨ls1, b2⟩, h2, h⟩ := h
      cases h
      obtain ⟨t2, s2⟩ := mergeLayers_tiling hg hTs h2
      refine ⟨?_, .cons s1 s2⟩
      intro l' hl
      rcases List.mem_cons.1 hl with rfl | hl
      · exact t1
      · exact t2 l' hl

/-- C63, one call on a mesh. -/
theorem C63_mesh (val : K → ℝ) (geo : Geo K) (hg : geo.AcceptsConvexOnly val) (m m' : Mesh K) (b : Bool)
    (hT : ∀ l ∈ m.layers, l.Tiling val) (h : m.mergePolygons geo = .ok (m', b)) :
    (∀ l ∈ m'.layers, l.Tiling val) ∧ List.Forall₂ (SameArea val) m.layers m'.layers := by
  rw [Mesh.mergePolygons, bind_eq_ok] at h
  obtain ⟨⟨ls, b1⟩, h1, h⟩ := h
  cases h
  exact mergeLayers_tiling hg hT h1

theorem forall₂_sameArea_trans {val : K → ℝ} : ∀ {ls ls' ls'' : List (Layer K)},
    List.Forall₂ (SameArea val) ls ls' → List.Forall₂ (SameArea val) ls' ls'' → List.Forall₂ (SameArea val) ls ls''
  | [], _, _, .nil, .nil => .nil
  | _ :: _, _, _, .cons h t, .cons h' t' => .cons (h.trans h') (forall₂_sameArea_trans t t')

theorem forall₂_mem_right {α β : Type} {R : α → β → Prop} : ∀ {as : List α} {bs : List β},
    List.Forall₂ R as bs → ∀ {b}, b ∈ bs → ∃ a ∈ as, R a b
  | _, _, .cons h t, b, hb => by
    rcases List.mem_cons.1 hb with rfl | hb
    · exact ⟨_, List.mem_cons_self, h⟩
    · obtain ⟨a, ha, hr⟩ := forall₂_mem_right t hb
      exact ⟨a, List.mem_cons_of_mem _ ha, hr⟩

theorem mergeLayers_total {val : K → ℝ} {geo : Geo K} : ∀ {ls : List (Layer K)}, (∀ l ∈ ls, l.Tiling val) →
    (∀ l ∈ ls, l.vertices.length ≤ 2 ^ 32) →
    (∀ l ∈ ls, ∀ cs, (∀ c ∈ cs, c ∈ l.vertices.map (·.coords)) → Scalar.isNan (geo.area cs) = false) →
    ∃ r, mergeLayers geo ls = .ok r
  | [], _, _, _ => ⟨_, rfl⟩
  | l :: ls, hT, hv, hn => by
    have hl := hT l List.mem_cons_self
    obtain ⟨l', b, h1⟩ := C25_no_panic geo l hl.consistent (hv l List.mem_cons_self)
      (fun p hp => ⟨hl.nodup p hp, hl.conforming.three p hp⟩) (by
        intro p _ cs hcs
        refine hn l List.mem_cons_self cs fun c hc => ?_
        unfold Layer.coordsOf at hcs
        rw [mapM_ok_iff] at hcs
        obtain ⟨v, _, hvc⟩ := forall₂_mem_right hcs hc
        rw [bind_eq_ok] at hvc
        obtain ⟨vx, hvx, hc'⟩ := hvc
        cases hc'
        exact List.mem_map_of_mem (List.mem_of_getElem? (idx_eq_ok.1 hvx)))
    obtain ⟨r, h2⟩ := mergeLayers_total (fun l' h => hT l' (List.mem_cons_of_mem _ h))
      (fun l' h => hv l' (List.mem_cons_of_mem _ h)) (fun l' h => hn l' (List.mem_cons_of_mem _ h))
    rw [mergeLayers, h1]
    cases b
    · exact ⟨_, by simp [h2, bind, Except.bind]; rfl⟩
    · exact ⟨_, rfl⟩

/-- C63: on a mesh whose layers are proper tilings, `while mesh.merge_polygons() {}` ends without a panic, and its
result has in each layer convex polygons that are a proper tiling of the area that the layer covered before. -/
theorem C63_loop (val : K → ℝ) (geo : Geo K) (hg : geo.AcceptsConvexOnly val) (m : Mesh K)
    (hT : ∀ l ∈ m.layers, l.Tiling val) (hv : ∀ l ∈ m.layers, l.vertices.length ≤ 2 ^ 32)
    (hn : ∀ l ∈ m.layers, ∀ cs, (∀ c ∈ cs, c ∈ l.vertices.map (·.coords)) → Scalar.isNan (geo.area cs) = false) :
    ∃ (k : Nat) (m' m'' : Mesh K), MergeRounds geo m k m' ∧ m'.mergePolygons geo = .ok (m'', false) ∧
      (∀ l ∈ m''.layers, l.Tiling val) ∧ List.Forall₂ (SameArea val) m.layers m''.layers := by
  have key : ∀ (n k : Nat) (m' : Mesh K), MergeRounds geo m k m' → m'.polygonCount ≤ n →
      (∀ l ∈ m'.layers, l.Tiling val) → List.Forall₂ (SameArea val) m.layers m'.layers →
      ∃ (k : Nat) (m' m'' : Mesh K), MergeRounds geo m k m' ∧ m'.mergePolygons geo = .ok (m'', false) ∧
        (∀ l ∈ m''.layers, l.Tiling val) ∧ List.Forall₂ (SameArea val) m.layers m''.layers := by
    intro n
    induction n with
    | zero =>
      intro k m' hk hle ht hs
      obtain ⟨r, hr⟩ := step_total hT hv hn ht hs
      obtain ⟨m'', b⟩ := r
      obtain ⟨t2, s2⟩ := C63_mesh val geo hg m' m'' b ht hr
      cases b with
      | false => exact ⟨k, m', m'', hk, hr, t2, forall₂_sameArea_trans hs s2⟩
      | true =>
        have := ((C24_mesh_progress geo m').2 m'' true hr).2.1.1 rfl
        omega
    | succ n ih =>
      intro k m' hk hle ht hs
      obtain ⟨r, hr⟩ := step_total hT hv hn ht hs
      obtain ⟨m'', b⟩ := r
      obtain ⟨t2, s2⟩ := C63_mesh val geo hg m' m'' b ht hr
      cases b with
      | false => exact ⟨k, m', m'', hk, hr, t2, forall₂_sameArea_trans hs s2⟩
      | true =>
        have := ((C24_mesh_progress geo m').2 m'' true hr).2.1.1 rfl
        exact ih (k + 1) m'' (.succ hk hr) (by omega) t2 (forall₂_sameArea_trans hs s2)
  exact key m.polygonCount 0 m .zero le_rfl hT (List.forall₂_same.2 fun l _ => SameArea.refl val l)
where
  step_total {val : K → ℝ} {geo : Geo K} {m m' : Mesh K} (_ : ∀ l ∈ m.layers, l.Tiling val)
      (hv : ∀ l ∈ m.layers, l.vertices.length ≤ 2 ^ 32)
      (hn : ∀ l ∈ m.layers, ∀ cs, (∀ c ∈ cs, c ∈ l.vertices.map (·.coords)) → Scalar.isNan (geo.area cs) = false)
      (ht : ∀ l ∈ m'.layers, l.Tiling val) (hs : List.Forall₂ (SameArea val) m.layers m'.layers) :
      ∃ r, m'.mergePolygons geo = .ok r := by
    have hback : ∀ l' ∈ m'.layers, ∃ l ∈ m.layers, SameArea val l l' := fun l' hl => forall₂_mem_right hs hl
    obtain ⟨⟨ls, b⟩, h1⟩ := mergeLayers_total (geo := geo) ht
      (fun l' hl => by
        obtain ⟨l, hl1, hsa⟩ := hback l' hl
        have := congrArg List.length hsa.coords
        simp only [List.length_map] at this
        rw [this]; exact hv l hl1)
      (fun l' hl cs hcs => by
        obtain ⟨l, hl1, hsa⟩ := hback l' hl
        rw [hsa.coords] at hcs
        exact hn l hl1 cs hcs)
    exact ⟨_, by rw [Mesh.mergePolygons, h1]; rfl⟩

/-! ### A concrete case -/

/-- The place of a vertex of a layer with rational coordinates. -/
def ratPlace (l : Layer Rat) (v : UInt32) : Vec2 ℚ := ((l.vertices[v.toNat]?).map (·.coords)).getD ⟨0, 0⟩

theorem place_rat (l : Layer Rat) (v : UInt32) : l.place ratVal v = (ratPlace l v).real := by
  unfold Layer.place ratPlace
  cases l.vertices[v.toNat]? with
  | none => simp [Vec2.real]
  | some vx => rfl

theorem vec2Real_injective {a b : Vec2 ℚ} (h : a.real = b.real) : a = b := by
  cases a; cases b
  simp only [Vec2.real, Vec2.mk.injEq, Rat.cast_inj] at h
  rw [h.1, h.2]

/-- Is the layer a proper tiling? That polygons do not overlap is checked with an edge of one of them that has the
other one on its right. -/
def tilingCheck (l : Layer Rat) : Bool :=
  l.polygons.all (fun p => decide p.vertices.Nodup && !p.vertices.isEmpty && outlineCheck (ratOutline l p)) &&
  (l.polygons.zipIdx.all (fun pk => l.polygons.zipIdx.all (fun qk => pk.2 == qk.2 ||
    ((outlineEdges (ratOutline l pk.1)).any (fun e => (ratOutline l qk.1).all fun c => decide (tri e.1 e.2 c ≤ 0)) ||
    (outlineEdges (ratOutline l qk.1)).any (fun e => (ratOutline l pk.1).all fun c => decide (tri e.1 e.2 c ≤ 0))))) &&
  (l.polygons.all (fun p => l.polygons.all fun q => p.vertices.all fun v => q.vertices.all fun w =>
    v == w || decide (ratPlace l v ≠ ratPlace l w)) &&
  l.polygons.all (fun p => l.polygons.all fun q => (cycEdges p.vertices).all fun e => q.vertices.all fun v =>
    v == e.1 || (v == e.2 || (decide (tri (ratPlace l e.1) (ratPlace l e.2) (ratPlace l v) ≠ 0) ||
      decide (0 < ((ratPlace l v).x - (ratPlace l e.1).x) * ((ratPlace l v).x - (ratPlace l e.2).x) +
        ((ratPlace l v).y - (ratPlace l e.1).y) * ((ratPlace l v).y - (ratPlace l e.2).y)))))))

theorem outlineEdges_consecutive {cs : List (Vec2 ℚ)} {a b : Vec2 ℚ} (h : (a, b) ∈ outlineEdges cs) : Consecutive cs a b := by
  obtain ⟨i, hi⟩ := List.mem_iff_getElem?.1 h
  obtain ⟨h1, h2⟩ := List.getElem?_zip_eq_some.1 hi
  have hlt : i < cs.length := (List.getElem?_eq_some_iff.1 h1).1
  rw [List.getElem?_rotate hlt] at h2
  exact ⟨i, hlt, h1, h2⟩

theorem separated {P Q : List (Vec2 ℚ)} (hP : ConvexOutline (P.map Vec2.real)) (hQ : ConvexOutline (Q.map Vec2.real))
    (hne : Q ≠ []) {e : Vec2 ℚ × Vec2 ℚ} (he : e ∈ outlineEdges P) (h : ∀ c ∈ Q, tri e.1 e.2 c ≤ 0) {x : Vec2 ℝ}
    (hx : StrictlyEncloses (P.map Vec2.real) x) (hy : StrictlyEncloses (Q.map Vec2.real) x) : False := by
  have hcon : Consecutive (P.map Vec2.real) e.1.real e.2.real :=
    consecutive_real.2 ⟨e.1, e.2, outlineEdges_consecutive he, rfl, rfl⟩
  have h1 := hx _ _ hcon
  have h2 := inside_left hQ (by simpa using hne) hy (c := e.2.real) (d := e.1.real) (hP.ne hcon).symm (by
    intro v hv
    obtain ⟨c, hc, rfl⟩ := List.mem_map.1 hv
    have := h c hc
    have e1 : tri e.2.real e.1.real c.real = - tri e.1.real e.2.real c.real := by unfold tri; ring
    rw [e1, tri_real]
    have h3 : ((tri e.1 e.2 c : ℚ) : ℝ) ≤ 0 := by exact_mod_cast this
    linarith)
  have e1 : tri e.2.real e.1.real x = - tri e.1.real e.2.real x := by unfold tri; ring
  linarith

theorem tiling_of_check {l : Layer Rat} (hcon : l.Consistent) (h : tilingCheck l = true) : l.Tiling ratVal := by
  rw [tilingCheck, Bool.and_eq_true, Bool.and_eq_true, Bool.and_eq_true] at h
  obtain ⟨h1, h2, h3, h4⟩ := h
  simp only [List.all_eq_true, Bool.and_eq_true, decide_eq_true_eq, Bool.not_eq_true', List.isEmpty_eq_false_iff] at h1
  simp only [List.all_eq_true, Bool.or_eq_true, decide_eq_true_eq, beq_iff_eq, List.any_eq_true] at h2
  simp only [List.all_eq_true, Bool.or_eq_true, decide_eq_true_eq, beq_iff_eq] at h3 h4
  have hconv : ∀ p ∈ l.polygons, ConvexOutline ((ratOutline l p).map Vec2.real) := fun p hp => outline_of_check (h1 p hp).2
  have hne : ∀ p ∈ l.polygons, ratOutline l p ≠ [] := fun p hp => by
    unfold ratOutline
    simpa using (h1 p hp).1.2
  refine ⟨hcon, fun p hp => (h1 p hp).1.1, fun p hp => (h1 p hp).1.2, fun p hp => by rw [outline_rat]; exact hconv p hp,
    ?_, ?_, ?_⟩
  · intro k k' p q x hk hk' hkk hx hy
    rw [outline_rat] at hx hy
    have hp := List.mem_of_getElem? hk
    have hq := List.mem_of_getElem? hk'
    rcases (h2 (p, k) (List.mem_zipIdx_iff_getElem?.2 hk) (q, k') (List.mem_zipIdx_iff_getElem?.2 hk')).resolve_left
      hkk with ⟨e, he, hc⟩ | ⟨e, he, hc⟩
    · exact separated (hconv p hp) (hconv q hq) (hne q hq) he hc hx hy
    · exact separated (hconv q hq) (hconv p hp) (hne p hp) he hc hy hx
  · intro p hp q hq v hv w hw hvw
    rw [place_rat, place_rat] at hvw
    exact (h3 p hp q hq v hv w hw).resolve_right fun hcn => hcn (vec2Real_injective hvw)
  · intro p hp q hq a b he v hv hbet
    rw [place_rat, place_rat, place_rat] at hbet
    rcases h4 p hp q hq (a, b) (mem_cycEdges.2 he) v hv with h | h | h | h
    · exact .inl h
    · exact .inr h
    · exfalso
      apply h
      obtain ⟨u, -, -, hu⟩ := hbet
      have : tri (ratPlace l a).real (ratPlace l b).real (ratPlace l v).real = 0 := by
        rw [hu, tri_along, tri_left, tri_right]; ring
      rw [tri_real] at this
      exact_mod_cast this
    · exfalso
      obtain ⟨u, u0, u1, hu⟩ := hbet
      simp only [along, Vec2.real, Vec2.mk.injEq] at hu
      obtain ⟨ex, ey⟩ := hu
      have h' : (0 : ℝ) < (((ratPlace l v).x : ℝ) - (ratPlace l a).x) * ((ratPlace l v).x - (ratPlace l b).x) +
        ((ratPlace l v).y - (ratPlace l a).y) * ((ratPlace l v).y - (ratPlace l b).y) := by exact_mod_cast h
      rw [ex, ey] at h'
      have h5 : 0 ≤ u * (1 - u) * ((((ratPlace l b).x : ℝ) - (ratPlace l a).x) ^ 2 +
        ((ratPlace l b).y - (ratPlace l a).y) ^ 2) := by
        apply mul_nonneg
        · exact mul_nonneg u0 (by linarith)
        · positivity
      nlinarith

theorem cutSquare_tiling : cutSquare.Tiling ratVal := tiling_of_check cutSquare_consistent (by decide +kernel)

/-- Non-vacuity of C63 for the loop. -/
theorem C63_loop_example : ∃ (k : Nat) (m' m'' : Mesh Rat), MergeRounds wholeGeo twoSquares k m' ∧
    m'.mergePolygons wholeGeo = .ok (m'', false) ∧ (∀ l ∈ m''.layers, l.Tiling ratVal) ∧
    List.Forall₂ (SameArea ratVal) twoSquares.layers m''.layers :=
  C63_loop ratVal wholeGeo wholeGeo_accepts twoSquares
    (by intro l hl; simp [twoSquares] at hl; rw [hl]; exact cutSquare_tiling)
    (by intro l hl; simp [twoSquares] at hl; rw [hl]; decide)
    (by intro l _ cs _; rfl)

end Polyanya
