import Verif.Proofs.ConformingCheck
/-
Decision procedures for statements about concrete meshes: crossings and straight walks.
-/

namespace Polyanya

section
variable {K : Type}

deriving instance DecidableEq for Crossing

/-- The edges of a polygon. -/
def edgesOf (vs : List UInt32) : List (UInt32 × UInt32) :=
  (List.range vs.length).filterMap fun i =>
    match vs[i]?, vs[(i + 1) % vs.length]? with
    | some a, some b => some (a, b)
    | _, _ => none

theorem mem_edgesOf {vs : List UInt32} {a b : UInt32} : (a, b) ∈ edgesOf vs ↔ IsEdge vs a b := by
  unfold edgesOf IsEdge
  simp only [List.mem_filterMap, List.mem_range]
  constructor
  · rintro ⟨i, hi, h⟩
    split at h
    · rename_i x y hx hy
      simp only [Option.some.injEq, Prod.mk.injEq] at h
      obtain ⟨rfl, rfl⟩ := h
      exact ⟨i, hi, hx, hy⟩
    · simp at h
  · rintro ⟨i, hi, ha, hb⟩
    exact ⟨i, hi, by rw [ha, hb]⟩

variable [Scalar K]

/-- The crossings out of a polygon. -/
def crossingsFrom (l : Layer K) (p : Polygon) (id : UInt32) : List Crossing :=
  (edgesOf p.vertices).flatMap fun e =>
    match l.vertices[e.1.toNat]?, l.vertices[e.2.toNat]? with
    | some va, some vb =>
      (va.polygons.filter fun d => vb.polygons.contains d && d != u32Max && d != id).map fun d => ⟨id, d, e.1, e.2⟩
    | _, _ => []

/-- All crossings of a mesh. -/
def crossings (m : Mesh K) : List Crossing :=
  (List.range m.layers.length).flatMap fun j =>
    match m.layers[j]? with
    | some l => (List.range l.polygons.length).flatMap fun k =>
      match l.polygons[k]? with
      | some p => crossingsFrom l p (UInt32.ofNat (j * 2 ^ 24 + k))
      | none => []
    | none => []

omit [Scalar K] in
theorem mem_crossingsFrom {l : Layer K} {p : Polygon} {id : UInt32} {c : Crossing} :
    c ∈ crossingsFrom l p id ↔ c.src = id ∧ IsEdge p.vertices c.a c.b ∧ ∃ va vb,
      l.vertices[c.a.toNat]? = some va ∧ l.vertices[c.b.toNat]? = some vb ∧ c.dst ∈ va.polygons ∧ c.dst ∈ vb.polygons
        ∧ c.dst ≠ u32Max ∧ c.dst ≠ id := by
  unfold crossingsFrom
  simp only [List.mem_flatMap, Prod.exists]
  constructor
  · rintro ⟨a, b, he, h⟩
    rw [mem_edgesOf] at he
    split at h
    · rename_i va vb ha hb
      simp only [List.mem_map, List.mem_filter, Bool.and_eq_true, List.contains_eq_mem, decide_eq_true_eq,
        bne_iff_ne, ne_eq] at h
      obtain ⟨d, ⟨h1, ⟨h2, h3⟩, h4⟩, rfl⟩ := h
      exact ⟨rfl, he, va, vb, ha, hb, h1, h2, h3, h4⟩
    · simp at h
  · rintro ⟨h0, he, va, vb, ha, hb, h1, h2, h3, h4⟩
    refine ⟨c.a, c.b, mem_edgesOf.2 he, ?_⟩
    rw [ha, hb]
    simp only [List.mem_map, List.mem_filter, Bool.and_eq_true, List.contains_eq_mem, decide_eq_true_eq,
      bne_iff_ne, ne_eq]
    exact ⟨c.dst, ⟨h1, ⟨h2, h3⟩, h4⟩, by cases c; simp_all⟩

theorem mem_crossings {m : Mesh K} {c : Crossing} (h : c.Valid m) : c ∈ crossings m := by
  obtain ⟨l, p, va, vb, hh, he, ha, hb, hda, hdb, hmax, hne⟩ := h
  unfold crossings
  rw [List.mem_flatMap]
  have hj := (List.getElem?_eq_some_iff.1 hh.1).1
  have hk := (List.getElem?_eq_some_iff.1 hh.2).1
  refine ⟨idLayer c.src, by simpa using hj, ?_⟩
  rw [hh.1]
  simp only
  rw [List.mem_flatMap]
  refine ⟨idPolygon c.src, by simpa using hk, ?_⟩
  rw [hh.2]
  simp only
  have e : UInt32.ofNat (idLayer c.src * 2 ^ 24 + idPolygon c.src) = c.src := by
    unfold idLayer idPolygon
    rw [Nat.div_add_mod', UInt32.ofNat_toNat]
  rw [e, mem_crossingsFrom]
  exact ⟨rfl, he, va, vb, ha, hb, hda, hdb, hmax, hne⟩

/-- Decides whether a crossing is possible. -/
def validCheck (m : Mesh K) (c : Crossing) : Bool :=
  match m.layers[idLayer c.src]? with
  | some l =>
    match l.polygons[idPolygon c.src]? with
    | some p => (crossingsFrom l p c.src).contains c
    | none => false
  | none => false

theorem valid_of_check {m : Mesh K} {c : Crossing} (h : validCheck m c = true) : c.Valid m := by
  unfold validCheck at h
  split at h
  · rename_i l hl
    split at h
    · rename_i p hp
      rw [List.contains_eq_mem, decide_eq_true_iff, mem_crossingsFrom] at h
      obtain ⟨-, he, va, vb, ha, hb, h1, h2, h3, h4⟩ := h
      exact ⟨l, p, va, vb, ⟨hl, hp⟩, he, ha, hb, h1, h2, h3, h4⟩
    · simp at h
  · simp at h

end

variable {F : Type} [Field F] [LinearOrder F] [Scalar F]

/-- The ends of the edge of a crossing. -/
def endsOf (m : Mesh (Ext F)) (c : Crossing) : Option (Vec2 F × Vec2 F) :=
  match m.layers[idLayer c.src]? with
  | some l =>
    match posOf l c.a, posOf l c.b with
    | some A, some B => some (A, B)
    | _, _ => none
  | none => none

theorem endsOf_eq {m : Mesh (Ext F)} {c : Crossing} {A B : Vec2 F} : endsOf m c = some (A, B) ↔ c.At m A B := by
  unfold endsOf Crossing.At
  cases h : m.layers[idLayer c.src]? with
  | none => simp
  | some l =>
    simp only [Option.some.injEq, exists_eq_left']
    rw [← posOf_eq, ← posOf_eq]
    cases posOf l c.a <;> cases posOf l c.b <;> simp

/-- Checks a straight walk that is given by its crossings, with the places where it crosses: `u` along the edge and
`t` along what remains of the walk. -/
def straightCheck (m : Mesh (Ext F)) (e : UInt32) (q : Vec2 F) : UInt32 → Vec2 F → List (Crossing × F × F) → Bool
  | s, p, [] => decide (s = e) && insideCheck m s p && insideCheck m s q
  | s, p, (c, u, t) :: rest =>
    decide (c.src = s) && insideCheck m s p && validCheck m c &&
      match endsOf m c with
      | some (A, B) => decide (0 ≤ u) && decide (u ≤ 1) && decide (0 ≤ t) && decide (t ≤ 1)
        && decide (along A B u = along p q t) && straightCheck m e q c.dst (along p q t) rest
      | none => false

theorem straight_of_check {m : Mesh (Ext F)} {e : UInt32} {q : Vec2 F} : ∀ {cs : List (Crossing × F × F)}
    {s : UInt32} {p : Vec2 F}, straightCheck m e q s p cs = true → Straight m s p e q
  | [], s, p, h => by
    simp only [straightCheck, Bool.and_eq_true, decide_eq_true_iff] at h
    obtain ⟨⟨rfl, h1⟩, h2⟩ := h
    exact .stay (inPolygon_of_check h1) (inPolygon_of_check h2)
  | (c, u, t) :: rest, s, p, h => by
    simp only [straightCheck, Bool.and_eq_true, decide_eq_true_iff] at h
    obtain ⟨⟨⟨rfl, h1⟩, h2⟩, h3⟩ := h
    split at h3
    · rename_i A B hAB
      simp only [Bool.and_eq_true, decide_eq_true_iff] at h3
      obtain ⟨⟨⟨⟨⟨a1, a2⟩, a3⟩, a4⟩, a5⟩, a6⟩ := h3
      exact .cross (inPolygon_of_check h1) (valid_of_check h2) (endsOf_eq.1 hAB) ⟨u, a1, a2, a5.symm⟩
        ⟨t, a3, a4, rfl⟩ (straight_of_check a6)
    · simp at h3

end Polyanya
