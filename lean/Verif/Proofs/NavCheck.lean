import Verif.Spec.Turning
import Verif.Proofs.CastMesh
/-
A decision procedure for `Navigable` on concrete meshes with rational coordinates, with its correctness.
-/

namespace Polyanya

/-- The ids of all polygons of a mesh. -/
def polygonIds (m : Mesh (Ext ℚ)) : List UInt32 :=
  (List.range m.layers.length).flatMap fun j =>
    match m.layers[j]? with
    | some l => (List.range l.polygons.length).map fun k => UInt32.ofNat (j * 2 ^ 24 + k)
    | none => []

theorem mem_polygonIds {m : Mesh (Ext ℚ)} {id : UInt32} {l : Layer (Ext ℚ)} {p : Polygon} (h : HasPolygon m id l p) :
    id ∈ polygonIds m := by
  unfold polygonIds
  rw [List.mem_flatMap]
  refine ⟨idLayer id, by simpa using (List.getElem?_eq_some_iff.1 h.1).1, ?_⟩
  rw [h.1]
  simp only [List.mem_map, List.mem_range]
  refine ⟨idPolygon id, by simpa using (List.getElem?_eq_some_iff.1 h.2).1, ?_⟩
  unfold idLayer idPolygon
  rw [Nat.div_add_mod', UInt32.ofNat_toNat]

/-- A walk on the spot from polygon `id` to polygon `e`, through edges that contain `v`, with at most `n` crossings. -/
def linkCheck (m : Mesh (Ext ℚ)) (v : Vec2 ℚ) (e : UInt32) : Nat → UInt32 → Bool
  | 0, id => decide (id = e) && insideCheck m id v
  | n + 1, id => insideCheck m id v && (decide (id = e) || (crossings m).any fun c =>
      decide (c.src = id) && validCheck m c && (match endsOf m c with
        | some (A, B) => decide (tri A B v = 0)
            && decide ((v.x - A.x) * (v.x - B.x) + (v.y - A.y) * (v.y - B.y) ≤ 0)
            && decide (A ≠ B)
        | none => false) && linkCheck m v e n c.dst)

theorem between_of_dot {A B v : Vec2 ℚ} (hAB : A ≠ B) (h1 : tri A B v = 0)
    (h2 : (v.x - A.x) * (v.x - B.x) + (v.y - A.y) * (v.y - B.y) ≤ 0) : Between A B v := by
  obtain ⟨u, rfl⟩ := on_line hAB h1
  have hpos : 0 < (B.x - A.x) * (B.x - A.x) + (B.y - A.y) * (B.y - A.y) := by
    have := sq_ne_zero hAB
    have h3 := mul_self_nonneg (B.x - A.x)
    have h4 := mul_self_nonneg (B.y - A.y)
    exact lt_of_le_of_ne (by linarith) (Ne.symm this)
  have e : (u * (u - 1)) * ((B.x - A.x) * (B.x - A.x) + (B.y - A.y) * (B.y - A.y)) ≤ 0 := by
    simp only [along] at h2
    nlinarith
  have h5 : u * (u - 1) ≤ 0 := by
    by_contra hc
    push Not at hc
    have := mul_pos hc hpos
    linarith
  exact ⟨u, by nlinarith, by nlinarith, rfl⟩

theorem link_of_check {m : Mesh (Ext ℚ)} {v : Vec2 ℚ} {e : UInt32} : ∀ {n : Nat} {id : UInt32},
    linkCheck m v e n id = true → Straight m id v e v
  | 0, id, h => by
    simp only [linkCheck, Bool.and_eq_true, decide_eq_true_iff] at h
    obtain ⟨rfl, h⟩ := h
    exact .stay (inPolygon_of_check h) (inPolygon_of_check h)
  | n + 1, id, h => by
    simp only [linkCheck, Bool.and_eq_true, Bool.or_eq_true, decide_eq_true_iff, List.any_eq_true] at h
    obtain ⟨h0, rfl | ⟨c, -, ⟨⟨rfl, h2⟩, h3⟩, h4⟩⟩ := h
    · exact .stay (inPolygon_of_check h0) (inPolygon_of_check h0)
    · split at h3
      · rename_i A B hAB
        simp only [Bool.and_eq_true, decide_eq_true_iff] at h3
        obtain ⟨⟨h5, h6⟩, h7⟩ := h3
        exact .cross (inPolygon_of_check h0) (valid_of_check h2) (endsOf_eq.1 hAB) (between_of_dot h7 h5 h6)
          ⟨0, le_rfl, zero_le_one, (along_zero v v).symm⟩ (link_of_check h4)
      · simp at h3

/-- Can a path that bends at `v` (or starts there) be in polygon `id`? -/
def touchesCheck (m : Mesh (Ext ℚ)) (s : UInt32) (start : Vec2 ℚ) (id : UInt32) (v : Vec2 ℚ) : Bool :=
  (match ringOf m id with
    | some ps => ps.contains v
    | none => true) || (decide (id = s) && decide (v = start))

theorem touches_check {m : Mesh (Ext ℚ)} {s id : UInt32} {start v : Vec2 ℚ} (h : Touches m s start id v) :
    touchesCheck m s start id v = true := by
  unfold touchesCheck
  rcases h with ⟨ps, h1, h2⟩ | ⟨rfl, rfl⟩
  · rw [Bool.or_eq_true]
    left
    cases h : ringOf m id with
    | none => rfl
    | some qs =>
      rw [(ringOf_eq h).unique h1]
      simpa using h2
  · simp

/-- The places where paths bend or start in polygon `id`. -/
def spots (m : Mesh (Ext ℚ)) (start : Vec2 ℚ) (id : UInt32) : List (Vec2 ℚ) :=
  start :: (ringOf m id).getD []

/-- Decides the conditions of `Navigable` that concern the shape of the mesh. Around a point there are at most `n`
polygons; only those of the list can be reached from the start. -/
def shapeCheckIn (m : Mesh (Ext ℚ)) (s : UInt32) (start : Vec2 ℚ) (n : Nat) (ids : List UInt32) : Bool :=
  (let cs := crossings m
   cs.all fun c => cs.all fun c' =>
    (!(decide (c'.src = c.src) && decide (c'.a = c.a) && decide (c'.b = c.b)) || decide (c'.dst = c.dst)) &&
    (!(decide (c'.src = c.dst) && (match endsOf m c, endsOf m c' with
      | some (A, B), some (B', A') => decide (A = A') && decide (B = B')
      | _, _ => false)) || decide (c'.dst = c.src)) &&
    (!(decide (c'.src = c.dst) && (match m.layers[idLayer c.dst]? with
      | some l => match l.polygons[idPolygon c.dst]? with
        | some p => p.isOneWay
        | none => false
      | none => false)) || decide (c'.dst = c.src))) &&
  (ids.contains s && (crossings m).all fun c => !ids.contains c.src || ids.contains c.dst) &&
  (ids.all fun id => (ringOf m id).isSome && ids.all fun id' => (spots m start id).all fun v =>
    !(touchesCheck m s start id v && touchesCheck m s start id' v) || linkCheck m v id' n id)

/-- Decides the conditions of `Navigable` for a mesh all of whose vertices are corners. -/
def navCheckIn (m : Mesh (Ext ℚ)) (s : UInt32) (start : Vec2 ℚ) (n : Nat) (ids : List UInt32) : Bool :=
  m.layers.all (fun l => l.vertices.all fun v => v.isCorner) && shapeCheckIn m s start n ids

/-- The same when all polygons may be reached. -/
def navCheck (m : Mesh (Ext ℚ)) (s : UInt32) (start : Vec2 ℚ) (n : Nat) : Bool :=
  navCheckIn m s start n (polygonIds m)

/-- Straight walks stay in the polygons of the list. -/
theorem Straight.mem_ids {m : Mesh (Ext ℚ)} {ids : List UInt32}
    (h : ∀ c : Crossing, c.Valid m.real → c.src ∈ ids → c.dst ∈ ids) {s e : UInt32} {p q : Vec2 ℝ}
    (hst : Straight m.real s p e q) : s ∈ ids → e ∈ ids := by
  induction hst with
  | stay _ _ => exact id
  | cross _ hv _ _ _ _ ih => exact fun hs => ih (h _ hv hs)

theorem Walk.mem_ids {m : Mesh (Ext ℚ)} {ids : List UInt32}
    (h : ∀ c : Crossing, c.Valid m.real → c.src ∈ ids → c.dst ∈ ids) {s e : UInt32} {p q : Vec2 ℝ}
    {ws : List (Vec2 ℝ)} (hw : Walk m.real s p e q ws) : s ∈ ids → e ∈ ids := by
  induction hw with
  | nil _ => exact id
  | cons hst _ ih => exact fun hs => ih (hst.mem_ids h hs)

/-- Polygons of the list that touch at a point are linked there. -/
theorem link_of_shape {m : Mesh (Ext ℚ)} {s : UInt32} {start : Vec2 ℚ} {n : Nat} {ids : List UInt32}
    (h : shapeCheckIn m s start n ids = true) {v : Vec2 ℝ} {id id' : UInt32} (hid : id ∈ ids) (hid' : id' ∈ ids)
    (t1 : Touches m.real s start.real id v) (t2 : Touches m.real s start.real id' v) :
    Straight m.real id v id' v := by
  unfold shapeCheckIn at h
  simp only [Bool.and_eq_true, List.all_eq_true] at h
  obtain ⟨-, h3⟩ := h
  obtain ⟨w, w1, rfl⟩ := touches_real t1
  obtain ⟨w', w2, e'⟩ := touches_real t2
  obtain rfl := Vec2.real_injective e'
  have := (h3 id hid).2 id' hid' w ?_
  · rw [touches_check w1, touches_check w2] at this
    exact straight_real (link_of_check (by simpa using this))
  · unfold spots
    rcases w1 with ⟨ps, r1, r2⟩ | ⟨-, rfl⟩
    · have := (h3 id hid).1
      obtain ⟨qs, hq⟩ := Option.isSome_iff_exists.1 this
      rw [hq]
      simp only [Option.getD_some, List.mem_cons]
      right
      rw [(ringOf_eq hq).unique r1]
      exact r2
    · simp

theorem link_of_navCheck {m : Mesh (Ext ℚ)} {s : UInt32} {start : Vec2 ℚ} {n : Nat} {ids : List UInt32}
    (h : navCheckIn m s start n ids = true) {v : Vec2 ℝ} {id id' : UInt32} (hid : id ∈ ids) (hid' : id' ∈ ids)
    (t1 : Touches m.real s start.real id v) (t2 : Touches m.real s start.real id' v) :
    Straight m.real id v id' v := by
  unfold navCheckIn at h
  rw [Bool.and_eq_true] at h
  exact link_of_shape h.2 hid hid' t1 t2

theorem linked_of_check {m : Mesh (Ext ℚ)} {s : UInt32} {start : Vec2 ℚ} {n : Nat}
    (h : navCheck m s start n = true) (r : Vec2 ℝ) : LinkedAt m.real r := by
  intro id id' ps ps' h1 h2 h3 h4
  have hid : ∀ id ps, Ring m.real id ps → id ∈ polygonIds m := by
    rintro id ps ⟨l, p, hp, -⟩
    obtain ⟨k, kp, rfl⟩ := hasPolygon_real.1 hp
    exact mem_polygonIds kp
  exact link_of_navCheck h (hid _ _ h1) (hid _ _ h2) (.inl ⟨ps, h1, h3⟩) (.inl ⟨ps', h2, h4⟩)

theorem navigable_of_shape {m : Mesh (Ext ℚ)} {s e : UInt32} {start goal : Vec2 ℚ} {n : Nat} {ids : List UInt32}
    (h : shapeCheckIn m s start n ids = true)
    (hcor : ∀ w, Flagged m.real w ∨ (Surrounded m.real w ∧ w ≠ start.real ∧ w ≠ goal.real))
    (hsl : ∀ (r A B x y : Vec2 ℝ), Eye m.real start.real r → Sight m.real start.real r A B x →
      Sight m.real start.real r A B y → sqDist x y < 1 / 10000000000 → x = y) :
    Navigable m.real s start.real e goal.real := by
  have hnav := h
  unfold shapeCheckIn at h
  simp only [Bool.and_eq_true, List.all_eq_true] at h
  obtain ⟨⟨h2, h4, h5⟩, -⟩ := h
  refine { corners := fun _ _ w _ => hcor w, unique := ?_, back := ?_, deadEnds := ?_, noPinch := ?_, noSliver := hsl }
  · intro c c' hc hc' a1 a2 a3
    have := (h2 c (mem_crossings (valid_real.1 hc)) c' (mem_crossings (valid_real.1 hc'))).1.1
    simpa [a1, a2, a3] using this
  · intro c c' hc hc' a1 A B hat hat'
    have := (h2 c (mem_crossings (valid_real.1 hc)) c' (mem_crossings (valid_real.1 hc'))).1.2
    obtain ⟨x, y, k1, rfl, rfl⟩ := at_real.1 hat
    obtain ⟨y', x', k2, e1, e2⟩ := at_real.1 hat'
    rw [Vec2.real_injective e1.symm, Vec2.real_injective e2.symm] at k2
    rw [endsOf_eq.2 k1, endsOf_eq.2 k2] at this
    simpa [a1] using this
  · intro id l p hp hone c c' hc hc' a1 a2
    have := (h2 c (mem_crossings (valid_real.1 hc)) c' (mem_crossings (valid_real.1 hc'))).2
    obtain ⟨k, kp, rfl⟩ := hasPolygon_real.1 hp
    rw [a1, kp.1] at this
    simp only [kp.2] at this
    simpa [a2, hone] using this
  · intro v id id' ws ws' w1 w2 t1 t2
    have hcl : ∀ c : Crossing, c.Valid m.real → c.src ∈ ids → c.dst ∈ ids := by
      intro c hc hcs
      have := h5 c (mem_crossings (valid_real.1 hc))
      rw [Bool.or_eq_true, Bool.not_eq_true'] at this
      rcases this with k | k
      · rw [List.contains_eq_mem] at k
        simp [hcs] at k
      · simpa using k
    exact link_of_shape hnav (w1.mem_ids hcl (by simpa using h4)) (w2.mem_ids hcl (by simpa using h4)) t1 t2

theorem navigable_of_checkIn {m : Mesh (Ext ℚ)} {s e : UInt32} {start goal : Vec2 ℚ} {n : Nat} {ids : List UInt32}
    (h : navCheckIn m s start n ids = true)
    (hsl : ∀ (r A B x y : Vec2 ℝ), Eye m.real start.real r → Sight m.real start.real r A B x →
      Sight m.real start.real r A B y → sqDist x y < 1 / 10000000000 → x = y) :
    Navigable m.real s start.real e goal.real := by
  unfold navCheckIn at h
  simp only [Bool.and_eq_true, List.all_eq_true] at h
  refine navigable_of_shape h.2 (fun w => .inl ?_) hsl
  intro l hl v hv _
  simp only [Mesh.real, List.mem_map] at hl
  obtain ⟨k, hk, rfl⟩ := hl
  simp only [Layer.real, List.mem_map] at hv
  obtain ⟨u, hu, rfl⟩ := hv
  exact h.1 k hk u hu

theorem navigable_of_check {m : Mesh (Ext ℚ)} {s e : UInt32} {start goal : Vec2 ℚ} {n : Nat}
    (h : navCheck m s start n = true)
    (hsl : ∀ (r A B x y : Vec2 ℝ), Eye m.real start.real r → Sight m.real start.real r A B x →
      Sight m.real start.real r A B y → sqDist x y < 1 / 10000000000 → x = y) :
    Navigable m.real s start.real e goal.real := navigable_of_checkIn h hsl

end Polyanya
