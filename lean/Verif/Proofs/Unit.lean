import Verif.Spec.Unit
/-
Walks in a mesh and in the mesh in another unit of length (C90).
-/

namespace Polyanya

variable {k : ℝ}

theorem times_times (h : k ≠ 0) (x : Vec2 ℝ) : (x.times k).times k⁻¹ = x := by
  cases x; simp only [Vec2.times]; congr 1 <;> field_simp

theorem times_times' (h : k ≠ 0) (x : Vec2 ℝ) : (x.times k⁻¹).times k = x := by
  cases x; simp only [Vec2.times]; congr 1 <;> field_simp

theorem times_inj (h : k ≠ 0) {x y : Vec2 ℝ} (e : x.times k = y.times k) : x = y := by
  rw [← times_times h x, e, times_times h]

theorem tri_times (a b p : Vec2 ℝ) : tri (a.times k) (b.times k) (p.times k) = k * k * tri a b p := by
  simp only [tri, Vec2.times]; ring

theorem sqDist_times (a b : Vec2 ℝ) : sqDist (a.times k) (b.times k) = k * k * sqDist a b := by
  simp only [sqDist, Vec2.times]; ring

theorem dist2_times (h : 0 < k) (a b : Vec2 ℝ) : dist2 (a.times k) (b.times k) = k * dist2 a b := by
  simp only [dist2, Vec2.times]
  rw [show (k * a.x - k * b.x) ^ 2 + (k * a.y - k * b.y) ^ 2 = k ^ 2 * ((a.x - b.x) ^ 2 + (a.y - b.y) ^ 2) by ring,
    Real.sqrt_mul (by positivity), Real.sqrt_sq h.le]

theorem polyLen_times (h : 0 < k) : ∀ ws : List (Vec2 ℝ), polyLen (ws.map (Vec2.times k)) = k * polyLen ws
  | [] => by simp [polyLen]
  | [_] => by simp [polyLen]
  | a :: b :: l => by
    have := polyLen_times h (b :: l)
    simp only [List.map_cons] at this ⊢
    rw [polyLen, polyLen, this, dist2_times h]; ring

theorem between_times {a b x : Vec2 ℝ} (h : Between a b x) : Between (a.times k) (b.times k) (x.times k) := by
  obtain ⟨u, h1, h2, rfl⟩ := h
  refine ⟨u, h1, h2, ?_⟩
  simp only [along, Vec2.times]; congr 1 <;> ring

theorem consecutive_times {ps : List (Vec2 ℝ)} {a b : Vec2 ℝ} (h : Consecutive ps a b) :
    Consecutive (ps.map (Vec2.times k)) (a.times k) (b.times k) := by
  obtain ⟨i, h1, h2, h3⟩ := h
  exact ⟨i, by simpa using h1, by simp [h2], by simp [h3]⟩

theorem consecutive_of_times {ps : List (Vec2 ℝ)} {A B : Vec2 ℝ} (h : Consecutive (ps.map (Vec2.times k)) A B) :
    ∃ a b, Consecutive ps a b ∧ A = a.times k ∧ B = b.times k := by
  obtain ⟨i, h1, h2, h3⟩ := h
  simp only [List.length_map, List.getElem?_map, Option.map_eq_some_iff] at h1 h2 h3
  obtain ⟨a, h2, rfl⟩ := h2
  obtain ⟨b, h3, rfl⟩ := h3
  exact ⟨a, b, ⟨i, h1, h2, h3⟩, rfl, rfl⟩

theorem strictlyConvex_times (h : 0 < k) {ps : List (Vec2 ℝ)} (hp : StrictlyConvex ps) :
    StrictlyConvex (ps.map (Vec2.times k)) := by
  refine ⟨by simpa using hp.1, ?_⟩
  intro i j n a b c hi hj ha hb hc
  simp only [List.getElem?_map, Option.map_eq_some_iff] at ha hb hc
  obtain ⟨a, ha, rfl⟩ := ha
  obtain ⟨b, hb, rfl⟩ := hb
  obtain ⟨c, hc, rfl⟩ := hc
  rw [tri_times]
  exact mul_pos (by positivity) (hp.2 i j n a b c hi hj ha hb hc)

theorem inside_times (h : 0 < k) {ps : List (Vec2 ℝ)} {x : Vec2 ℝ} (hp : Inside ps x) :
    Inside (ps.map (Vec2.times k)) (x.times k) := by
  intro A B hc
  obtain ⟨a, b, hab, rfl, rfl⟩ := consecutive_of_times hc
  rw [tri_times]
  exact mul_nonneg (by positivity) (hp a b hab)

theorem strictInside_times (h : 0 < k) {ps : List (Vec2 ℝ)} {x : Vec2 ℝ} (hp : StrictInside ps x) :
    StrictInside (ps.map (Vec2.times k)) (x.times k) := by
  intro A B hc
  obtain ⟨a, b, hab, rfl, rfl⟩ := consecutive_of_times hc
  rw [tri_times]
  exact mul_pos (by positivity) (hp a b hab)

/-! ### Meshes -/

theorem Layer.InUnit.symm (h : k ≠ 0) {l l' : Layer (Ext ℝ)} (u : l.InUnit k l') : l'.InUnit k⁻¹ l := by
  refine ⟨u.polygons.symm, ?_⟩
  have := u.vertices.flip
  refine this.imp ?_
  rintro v' v ⟨h1, h2, h3⟩
  refine ⟨h1.symm, h2.symm, fun x => ?_⟩
  rw [h3, times_times' h]

theorem Mesh.InUnit.symm (h : k ≠ 0) {m m' : Mesh (Ext ℝ)} (u : m.InUnit k m') : m'.InUnit k⁻¹ m :=
  (List.Forall₂.flip u).imp fun _ _ h' => Layer.InUnit.symm h h'

theorem forall₂_left {α β : Type} {R : α → β → Prop} {as : List α} {bs : List β} (h : List.Forall₂ R as bs) :
    ∀ {i : Nat} {a : α}, as[i]? = some a → ∃ b, bs[i]? = some b ∧ R a b := by
  induction h with
  | nil => simp
  | cons hab _ ih =>
    intro i a ha
    cases i with
    | zero => simp only [List.getElem?_cons_zero, Option.some.injEq] at ha; subst ha; exact ⟨_, rfl, hab⟩
    | succ i => simpa using ih (by simpa using ha)

variable {m m' : Mesh (Ext ℝ)} (u : m.InUnit k m')
include u

theorem unit_layer {i : Nat} {l : Layer (Ext ℝ)} (hl : m.layers[i]? = some l) :
    ∃ l', m'.layers[i]? = some l' ∧ l.InUnit k l' := forall₂_left u hl

omit u in
theorem unit_vertexAt {l l' : Layer (Ext ℝ)} (ul : l.InUnit k l') {i : UInt32} {x : Vec2 ℝ} (h : VertexAt l i x) :
    VertexAt l' i (x.times k) := by
  obtain ⟨v, h1, h2⟩ := h
  obtain ⟨v', h1', -, -, h3⟩ := forall₂_left ul.vertices h1
  exact ⟨v', h1', (h3 x).1 h2⟩

theorem unit_hasPolygon {id : UInt32} {l : Layer (Ext ℝ)} {p : Polygon} (h : HasPolygon m id l p) :
    ∃ l', HasPolygon m' id l' p ∧ l.InUnit k l' := by
  obtain ⟨l', h1, ul⟩ := unit_layer u h.1
  exact ⟨l', ⟨h1, by rw [ul.polygons]; exact h.2⟩, ul⟩

theorem unit_ring {id : UInt32} {ps : List (Vec2 ℝ)} (h : Ring m id ps) : Ring m' id (ps.map (Vec2.times k)) := by
  obtain ⟨l, p, h1, h2⟩ := h
  obtain ⟨l', h1', ul⟩ := unit_hasPolygon u h1
  refine ⟨l', p, h1', ?_⟩
  rw [List.forall₂_map_right_iff]
  exact h2.imp fun _ _ h => unit_vertexAt ul h

theorem unit_inPolygon (hk : 0 < k) {id : UInt32} {x : Vec2 ℝ} (h : InPolygon m id x) : InPolygon m' id (x.times k) := by
  obtain ⟨ps, h1, h2⟩ := h
  exact ⟨_, unit_ring u h1, inside_times hk h2⟩

theorem unit_at {c : Crossing} {A B : Vec2 ℝ} (h : c.At m A B) : c.At m' (A.times k) (B.times k) := by
  obtain ⟨l, h1, h2, h3⟩ := h
  obtain ⟨l', h1', ul⟩ := unit_layer u h1
  exact ⟨l', h1', unit_vertexAt ul h2, unit_vertexAt ul h3⟩

theorem unit_valid {c : Crossing} (h : c.Valid m) : c.Valid m' := by
  obtain ⟨l, p, va, vb, h1, h2, h3, h4, h5, h6, h7, h8⟩ := h
  obtain ⟨l', h1', ul⟩ := unit_hasPolygon u h1
  obtain ⟨va', h3', e3, -, -⟩ := forall₂_left ul.vertices h3
  obtain ⟨vb', h4', e4, -, -⟩ := forall₂_left ul.vertices h4
  exact ⟨l', p, va', vb', h1', h2, h3', h4', by rw [e3]; exact h5, by rw [e4]; exact h6, h7, h8⟩

theorem unit_straight (hk : 0 < k) {s e : UInt32} {p q : Vec2 ℝ} (h : Straight m s p e q) :
    Straight m' s (p.times k) e (q.times k) := by
  induction h with
  | stay h1 h2 => exact .stay (unit_inPolygon u hk h1) (unit_inPolygon u hk h2)
  | cross h1 h2 h3 h4 h5 _ ih =>
    exact .cross (unit_inPolygon u hk h1) (unit_valid u h2) (unit_at u h3) (between_times h4) (between_times h5) ih

theorem unit_walk (hk : 0 < k) {s e : UInt32} {p q : Vec2 ℝ} {ws : List (Vec2 ℝ)} (h : Walk m s p e q ws) :
    Walk m' s (p.times k) e (q.times k) (ws.map (Vec2.times k)) := by
  induction h with
  | nil h => exact .nil (unit_inPolygon u hk h)
  | cons h _ ih => exact .cons (unit_straight u hk h) ih

theorem unit_isVertex {v : Vec2 ℝ} (h : IsVertex m v) : IsVertex m' (v.times k) := by
  obtain ⟨l, hl, i, h⟩ := h
  obtain ⟨n, hn⟩ := List.getElem?_of_mem hl
  obtain ⟨l', h1, ul⟩ := unit_layer u hn
  exact ⟨l', List.mem_of_getElem? h1, i, unit_vertexAt ul h⟩

theorem unit_isEdgeAt {A B : Vec2 ℝ} (h : IsEdgeAt m A B) : IsEdgeAt m' (A.times k) (B.times k) := by
  obtain ⟨id, ps, h1, h2⟩ := h
  exact ⟨id, _, unit_ring u h1, consecutive_times h2⟩

theorem unit_eye {start r : Vec2 ℝ} (h : Eye m start r) : Eye m' (start.times k) (r.times k) := by
  rcases h with rfl | h
  · exact .inl rfl
  · exact .inr (unit_isVertex u h)

theorem unit_sight (hk : 0 < k) {start r A B x : Vec2 ℝ} (h : Sight m start r A B x) :
    Sight m' (start.times k) (r.times k) (A.times k) (B.times k) (x.times k) := by
  obtain ⟨h1, h2⟩ := h
  refine ⟨unit_isEdgeAt u h1, ?_⟩
  rcases h2 with rfl | rfl | ⟨w, h2, h3, h4, h5⟩
  · exact .inl rfl
  · exact .inr (.inl rfl)
  · refine .inr (.inr ⟨w.times k, unit_eye u h2, ?_, ?_, ?_⟩)
    · rw [tri_times, tri_times]
      exact fun h => h3 (mul_left_cancel₀ (by positivity) h)
    · rw [tri_times, h4, mul_zero]
    · rw [tri_times, h5, mul_zero]

theorem unit_touches {s : UInt32} {start : Vec2 ℝ} {id : UInt32} {v : Vec2 ℝ} (h : Touches m s start id v) :
    Touches m' s (start.times k) id (v.times k) := by
  rcases h with ⟨ps, h1, h2⟩ | ⟨rfl, rfl⟩
  · exact .inl ⟨_, unit_ring u h1, List.mem_map_of_mem h2⟩
  · exact .inr ⟨rfl, rfl⟩

theorem unit_shortestWalk (hk : 0 < k) {s e : UInt32} {start goal : Vec2 ℝ} {ws : List (Vec2 ℝ)}
    (h : ShortestWalk m s start e goal ws) :
    ShortestWalk m' s (start.times k) e (goal.times k) (ws.map (Vec2.times k)) := by
  have hk' : k ≠ 0 := hk.ne'
  refine ⟨unit_walk u hk h.1, fun ws' hw => ?_⟩
  have := unit_walk (u.symm hk') (inv_pos.2 hk) hw
  rw [times_times hk', times_times hk'] at this
  have := h.2 _ this
  have e : start :: ws'.map (Vec2.times k⁻¹) = (start.times k :: ws').map (Vec2.times k⁻¹) := by
    rw [List.map_cons, times_times hk']
  rw [e, polyLen_times (inv_pos.2 hk)] at this
  rw [← List.map_cons, polyLen_times hk]
  calc k * polyLen (start :: ws) ≤ k * (k⁻¹ * polyLen (start.times k :: ws')) := mul_le_mul_of_nonneg_left this hk.le
    _ = _ := by rw [← mul_assoc, mul_inv_cancel₀ hk', one_mul]

theorem unit_conforming (hk : 0 < k) (h : Conforming m) : Conforming m' := by
  have hk' : k ≠ 0 := hk.ne'
  constructor
  · intro id l' p hp
    obtain ⟨l, hp', -⟩ := unit_hasPolygon (u.symm hk') hp
    obtain ⟨ps, h1, h2⟩ := h.convex id l p hp'
    exact ⟨_, unit_ring u h1, strictlyConvex_times hk h2⟩
  · intro c hc A B hA
    obtain ⟨ps, h1, h2⟩ := h.shared c (unit_valid (u.symm hk') hc) _ _ (unit_at (u.symm hk') hA)
    refine ⟨_, unit_ring u h1, ?_⟩
    have := consecutive_times (k := k) h2
    rwa [times_times' hk', times_times' hk'] at this

/-- Values that are exactly zero inside the tolerance still are in a unit in which lengths are larger. -/
theorem unit_noNearMiss (hk : 1 ≤ k) {start goal : Vec2 ℝ} (h : NoNearMiss m start goal) :
    NoNearMiss m' (start.times k) (goal.times k) := by
  have hk0 : 0 < k := by linarith
  have hk' : k ≠ 0 := hk0.ne'
  have hi : 0 < k⁻¹ := inv_pos.2 hk0
  have us := u.symm hk'
  have hle : k⁻¹ * k⁻¹ ≤ 1 := by
    have : k⁻¹ ≤ 1 := inv_le_one_of_one_le₀ hk
    nlinarith
  have sc : ∀ {t c : ℝ}, |t| < c → |k⁻¹ * k⁻¹ * t| < c := by
    intro t c ht
    rw [abs_mul, abs_of_pos (by positivity)]
    exact lt_of_le_of_lt (mul_le_of_le_one_left (abs_nonneg _) hle) ht
  have zero : ∀ {t : ℝ}, k⁻¹ * k⁻¹ * t = 0 → t = 0 := by
    intro t ht
    rcases mul_eq_zero.1 ht with h | h
    · exact absurd h (by positivity)
    · exact h
  have eye : ∀ {r}, Eye m' (start.times k) r → Eye m start (r.times k⁻¹) := by
    intro r hr; have := unit_eye us hr; rwa [times_times hk'] at this
  have sight : ∀ {r A B x}, Sight m' (start.times k) r A B x →
      Sight m start (r.times k⁻¹) (A.times k⁻¹) (B.times k⁻¹) (x.times k⁻¹) := by
    intro r A B x hr; have := unit_sight us hi hr; rwa [times_times hk'] at this
  have inj : ∀ {x y : Vec2 ℝ}, x.times k⁻¹ = y.times k⁻¹ → x = y := fun e => times_inj (inv_ne_zero hk') e
  constructor
  · intro r A B x v hr hs hv ht
    refine zero ?_
    rw [← tri_times]
    refine h.sides _ _ _ _ _ (eye hr) (sight hs) ?_ (by rw [tri_times]; exact sc ht)
    rcases hv with hv | rfl
    · exact .inl (unit_isVertex us hv)
    · exact .inr (times_times hk' _)
  · intro r A B x C D t hr hs hc hne ht h1 h2
    refine h.hits _ _ _ _ _ _ t (eye hr) (sight hs) (unit_isEdgeAt us hc) ?_ ?_ h1 h2
    · rw [tri_times, tri_times]
      exact fun e => hne (mul_left_cancel₀ (by positivity) e)
    · rw [tri_times, tri_times]; linear_combination (k⁻¹ * k⁻¹) * ht
  · intro r A B x v hr hs hv ht
    refine inj (h.ends _ _ _ _ _ (eye hr) (sight hs) ?_ ?_)
    · rcases hv with rfl | rfl
      · exact .inl rfl
      · exact .inr rfl
    · rw [sqDist_times]
      have : 0 ≤ sqDist x v := by unfold sqDist; nlinarith [mul_self_nonneg (x.x - v.x), mul_self_nonneg (x.y - v.y)]
      exact (mul_le_of_le_one_left this hle).trans ht
  · intro v w hv hw ht
    refine inj (h.apart _ _ (unit_isVertex us hv) (unit_isVertex us hw) ?_)
    rw [sqDist_times]
    have : 0 ≤ sqDist v w := by unfold sqDist; nlinarith [mul_self_nonneg (v.x - w.x), mul_self_nonneg (v.y - w.y)]
    exact lt_of_le_of_lt (mul_le_of_le_one_left this hle) ht
  · intro r A B x y z hr hx hy hz ht
    refine zero ?_
    rw [← tri_times]
    refine h.flat _ _ _ _ _ _ (eye hr) (sight hx) (sight hy) ?_ (by rw [tri_times]; exact sc ht)
    rcases hz with rfl | rfl
    · exact .inl rfl
    · exact .inr (times_times hk' _)

omit u in
theorem flagged_unit (us : m.InUnit k m') {x : Vec2 ℝ} (h : Flagged m x) : Flagged m' (x.times k) := by
  intro l' hl' v' hv' hx
  obtain ⟨n, hn⟩ := List.getElem?_of_mem hl'
  obtain ⟨i, hi⟩ := List.getElem?_of_mem hv'
  obtain ⟨l, hl, ul⟩ := forall₂_left (List.Forall₂.flip us) hn
  obtain ⟨v, hv, -, h2, h3⟩ := forall₂_left (List.Forall₂.flip ul.vertices) hi
  rw [h2]
  exact h l (List.mem_of_getElem? hl) v (List.mem_of_getElem? hv) ((h3 x).2 hx)

theorem unit_surrounded (hk : 0 < k) {x : Vec2 ℝ} (h : Surrounded m x) : Surrounded m' (x.times k) := by
  have hk' : k ≠ 0 := hk.ne'
  have hi : 0 < k⁻¹ := inv_pos.2 hk
  have us := u.symm hk'
  have back : ∀ ps : List (Vec2 ℝ), (ps.map (Vec2.times k⁻¹)).map (Vec2.times k) = ps := by
    intro ps; rw [List.map_map]; simp [Function.comp_def, times_times' hk']
  have mem : ∀ {ps : List (Vec2 ℝ)}, x.times k ∈ ps → x ∈ ps.map (Vec2.times k⁻¹) := by
    intro ps h; have := List.mem_map_of_mem (f := Vec2.times k⁻¹) h; rwa [times_times hk'] at this
  constructor
  · intro id ps h1 h2
    have h2' := inside_times hi h2
    rw [times_times hk'] at h2'
    have := List.mem_map_of_mem (f := Vec2.times k) (h.corner id _ (unit_ring us h1) h2')
    rwa [back] at this
  · intro id ps A B h1 h2 h3
    obtain ⟨c, hc, e, hAB⟩ := h.linked id _ _ _ (unit_ring us h1) (consecutive_times h2) (by
      rcases h3 with rfl | rfl
      · exact .inl (times_times hk' _)
      · exact .inr (times_times hk' _))
    refine ⟨c, unit_valid u hc, e, ?_⟩
    have := unit_at u hAB
    rwa [times_times' hk', times_times' hk'] at this
  · intro id id' ps ps' z h1 h2 h3 h4 h5 h6
    exact h.apart id id' _ _ _ (unit_ring us h1) (unit_ring us h2) (mem h3) (mem h4) (strictInside_times hi h5)
      (strictInside_times hi h6)

theorem unit_navigable (hk : 1 ≤ k) {s e : UInt32} {start goal : Vec2 ℝ} (h : Navigable m s start e goal) :
    Navigable m' s (start.times k) e (goal.times k) := by
  have hk0 : 0 < k := by linarith
  have hk' : k ≠ 0 := hk0.ne'
  have hi : 0 < k⁻¹ := inv_pos.2 hk0
  have us := u.symm hk'
  have hle : k⁻¹ * k⁻¹ ≤ 1 := by
    have : k⁻¹ ≤ 1 := inv_le_one_of_one_le₀ hk
    nlinarith
  constructor
  · intro ws hw w hmem
    have hw' := unit_shortestWalk us hi hw
    rw [times_times hk', times_times hk'] at hw'
    have key := h.corners _ hw' _ (List.mem_map_of_mem hmem)
    rcases key with key | ⟨k1, k2, k3⟩
    · left; have := flagged_unit u key; rwa [times_times' hk'] at this
    · right
      refine ⟨?_, ?_, ?_⟩
      · have := unit_surrounded u hk0 k1; rwa [times_times' hk'] at this
      · rintro rfl; exact k2 (times_times hk' _)
      · rintro rfl; exact k3 (times_times hk' _)
  · intro c c' h1 h2
    exact h.unique c c' (unit_valid us h1) (unit_valid us h2)
  · intro c c' h1 h2 h3 A B h4 h5
    exact h.back c c' (unit_valid us h1) (unit_valid us h2) h3 _ _ (unit_at us h4) (unit_at us h5)
  · intro id l p h1 h2 c c' h3 h4
    obtain ⟨l', h1', -⟩ := unit_hasPolygon us h1
    exact h.deadEnds id l' p h1' h2 c c' (unit_valid us h3) (unit_valid us h4)
  · intro v id id' ws ws' h1 h2 h3 h4
    have w1 := unit_walk us hi h1
    have w2 := unit_walk us hi h2
    have t1 := unit_touches us h3
    have t2 := unit_touches us h4
    rw [times_times hk'] at w1 w2 t1 t2
    have := unit_straight u hk0 (h.noPinch _ id id' _ _ w1 w2 t1 t2)
    rwa [times_times' hk'] at this
  · intro r A B x y h1 h2 h3 h4
    have e1 := unit_eye us h1
    have e2 := unit_sight us hi h2
    have e3 := unit_sight us hi h3
    rw [times_times hk'] at e1 e2 e3
    refine times_inj (inv_ne_zero hk') (h.noSliver _ _ _ _ _ e1 e2 e3 ?_)
    rw [sqDist_times]
    have : 0 ≤ sqDist x y := by unfold sqDist; nlinarith [mul_self_nonneg (x.x - y.x), mul_self_nonneg (x.y - y.y)]
    exact lt_of_le_of_lt (mul_le_of_le_one_left this hle) h4

end Polyanya
