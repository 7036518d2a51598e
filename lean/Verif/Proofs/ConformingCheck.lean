import Verif.Proofs.Between
/-
A decision procedure for `Conforming` on concrete meshes, with its correctness.
-/

namespace Polyanya

variable {F : Type} [Field F] [LinearOrder F] [Scalar F]

/-- The finite point. -/
def toFin : Vec2 (Ext F) → Option (Vec2 F)
  | ⟨.fin x, .fin y⟩ => some ⟨x, y⟩
  | _ => none

omit [Field F] [LinearOrder F] [Scalar F] in
theorem toFin_eq {p : Vec2 (Ext F)} {x : Vec2 F} : toFin p = some x ↔ p = x.fin := by
  cases p with
  | mk a b =>
    cases a <;> cases b <;> simp [toFin, Vec2.fin]
    cases x; simp

/-- The position of a vertex. -/
def posOf (l : Layer (Ext F)) (i : UInt32) : Option (Vec2 F) :=
  match l.vertices[i.toNat]? with
  | some v => toFin (v.coords + l.offset)
  | none => none

theorem posOf_eq {l : Layer (Ext F)} {i : UInt32} {x : Vec2 F} : posOf l i = some x ↔ VertexAt l i x := by
  unfold posOf VertexAt
  cases h : l.vertices[i.toNat]? with
  | none => simp
  | some v => simp [toFin_eq]

/-- The positions of a list of vertices. -/
def ringPos (l : Layer (Ext F)) : List UInt32 → Option (List (Vec2 F))
  | [] => some []
  | i :: is =>
    match posOf l i, ringPos l is with
    | some x, some xs => some (x :: xs)
    | _, _ => none

theorem ringPos_eq {l : Layer (Ext F)} : ∀ {is : List UInt32} {ps : List (Vec2 F)},
    ringPos l is = some ps → List.Forall₂ (VertexAt l) is ps
  | [], ps, h => by simp only [ringPos, Option.some.injEq] at h; subst h; exact .nil
  | i :: is, ps, h => by
    simp only [ringPos] at h
    split at h
    · rename_i x xs h1 h2
      simp only [Option.some.injEq] at h
      subst h
      exact .cons (posOf_eq.1 h1) (ringPos_eq h2)
    · simp at h

/-- Every triple in order turns left. -/
def convexCheck (ps : List (Vec2 F)) : Bool :=
  decide (3 ≤ ps.length) && (List.range ps.length).all fun i => (List.range ps.length).all fun j =>
    (List.range ps.length).all fun k =>
      !(decide (i < j) && decide (j < k)) || match ps[i]?, ps[j]?, ps[k]? with
        | some a, some b, some c => decide (0 < tri a b c)
        | _, _, _ => true

omit [Scalar F] in
theorem convex_of_check {ps : List (Vec2 F)} (h : convexCheck ps = true) : StrictlyConvex ps := by
  unfold convexCheck at h
  rw [Bool.and_eq_true, decide_eq_true_iff, List.all_eq_true] at h
  refine ⟨h.1, ?_⟩
  intro i j k a b c hij hjk ha hb hc
  have hi := (List.getElem?_eq_some_iff.1 ha).1
  have hj := (List.getElem?_eq_some_iff.1 hb).1
  have hk := (List.getElem?_eq_some_iff.1 hc).1
  have h1 := h.2 i (by simpa using hi)
  rw [List.all_eq_true] at h1
  have h2 := h1 j (by simpa using hj)
  rw [List.all_eq_true] at h2
  have h3 := h2 k (by simpa using hk)
  rw [ha, hb, hc] at h3
  simpa [hij, hjk] using h3

def consecutiveCheck (ps : List (Vec2 F)) (a b : Vec2 F) : Bool :=
  (List.range ps.length).any fun i =>
    decide (ps[i]? = some a) && decide (ps[(i + 1) % ps.length]? = some b)

omit [Field F] [Scalar F] in
theorem consecutive_of_check [Field F] {ps : List (Vec2 F)} {a b : Vec2 F}
    (h : consecutiveCheck ps a b = true) : Consecutive ps a b := by
  unfold consecutiveCheck at h
  rw [List.any_eq_true] at h
  obtain ⟨i, hi, h⟩ := h
  rw [Bool.and_eq_true, decide_eq_true_iff, decide_eq_true_iff] at h
  exact ⟨i, by simpa using hi, h.1, h.2⟩

/-- The positions of the corners of a polygon. -/
def ringOf (m : Mesh (Ext F)) (id : UInt32) : Option (List (Vec2 F)) :=
  match m.layers[idLayer id]? with
  | some l =>
    match l.polygons[idPolygon id]? with
    | some p => ringPos l p.vertices
    | none => none
  | none => none

theorem ringOf_eq {m : Mesh (Ext F)} {id : UInt32} {ps : List (Vec2 F)} (h : ringOf m id = some ps) :
    Ring m id ps := by
  unfold ringOf at h
  split at h
  · rename_i l hl
    split at h
    · rename_i p hp
      exact ⟨l, p, ⟨hl, hp⟩, ringPos_eq h⟩
    · simp at h
  · simp at h

/-- The neighbours of the polygon through one of its edges share this edge. -/
def sharedCheck (m : Mesh (Ext F)) (id : UInt32) (l : Layer (Ext F)) (p : Polygon) : Bool :=
  (List.range p.vertices.length).all fun i =>
    match p.vertices[i]?, p.vertices[(i + 1) % p.vertices.length]? with
    | some a, some b =>
      match l.vertices[a.toNat]?, l.vertices[b.toNat]?, posOf l a, posOf l b with
      | some va, some vb, some A, some B =>
        va.polygons.all fun d => !(vb.polygons.contains d && d != u32Max && d != id) ||
          match ringOf m d with
          | some ps => consecutiveCheck ps B A
          | none => false
      | _, _, _, _ => true
    | _, _ => true

def polygonCheck (m : Mesh (Ext F)) (id : UInt32) (l : Layer (Ext F)) (p : Polygon) : Bool :=
  (match ringPos l p.vertices with
    | some ps => convexCheck ps
    | none => false) && sharedCheck m id l p

/-- Decides whether the mesh is conforming. -/
def conformsCheck (m : Mesh (Ext F)) : Bool :=
  (List.range m.layers.length).all fun j =>
    match m.layers[j]? with
    | some l => (List.range l.polygons.length).all fun k =>
      match l.polygons[k]? with
      | some p => polygonCheck m (UInt32.ofNat (j * 2 ^ 24 + k)) l p
      | none => true
    | none => true

theorem conforms_of_check {m : Mesh (Ext F)} (h : conformsCheck m = true) : Conforming m := by
  have hpoly : ∀ id l p, HasPolygon m id l p → polygonCheck m id l p = true := by
    intro id l p ⟨hl, hp⟩
    unfold conformsCheck at h
    rw [List.all_eq_true] at h
    have h1 := h (idLayer id) (by simpa using (List.getElem?_eq_some_iff.1 hl).1)
    rw [hl] at h1
    simp only [List.all_eq_true] at h1
    have h2 := h1 (idPolygon id) (by simpa using (List.getElem?_eq_some_iff.1 hp).1)
    rw [hp] at h2
    have e : UInt32.ofNat (idLayer id * 2 ^ 24 + idPolygon id) = id := by
      unfold idLayer idPolygon
      rw [Nat.div_add_mod', UInt32.ofNat_toNat]
    simp only [e] at h2
    exact h2
  constructor
  · intro id l p hh
    have h1 := hpoly id l p hh
    unfold polygonCheck at h1
    rw [Bool.and_eq_true] at h1
    have h2 := h1.1
    split at h2
    · rename_i ps hps
      exact ⟨ps, ⟨l, p, hh, ringPos_eq hps⟩, convex_of_check h2⟩
    · simp at h2
  · rintro c ⟨l, p, va, vb, hh, he, ha, hb, hda, hdb, hmax, hne⟩ A B ⟨l', hl', hA, hB⟩
    have e1 := hh.1
    rw [hl'] at e1
    cases e1
    have h1 := hpoly _ _ _ hh
    unfold polygonCheck at h1
    rw [Bool.and_eq_true] at h1
    have h2 := h1.2
    unfold sharedCheck at h2
    rw [List.all_eq_true] at h2
    obtain ⟨i, hi, hia, hib⟩ := he
    have h3 := h2 i (by simpa using hi)
    rw [hia, hib] at h3
    simp only [ha, hb, posOf_eq.2 hA, posOf_eq.2 hB] at h3
    rw [List.all_eq_true] at h3
    have h4 := h3 c.dst hda
    rw [Bool.or_eq_true] at h4
    rcases h4 with h4 | h4
    · simp [hdb, hmax, hne] at h4
    · split at h4
      · rename_i ps hps
        exact ⟨ps, ringOf_eq hps, consecutive_of_check h4⟩
      · simp at h4

/-- Checks a property of the positions of all vertices. -/
def verticesCheck (m : Mesh (Ext F)) (P : Vec2 F → Bool) : Bool :=
  m.layers.all fun l => l.vertices.all fun v =>
    match toFin (v.coords + l.offset) with
    | some x => P x
    | none => true

theorem vertices_of_check {m : Mesh (Ext F)} {P : Vec2 F → Bool} (h : verticesCheck m P = true)
    {v : Vec2 F} (hv : IsVertex m v) : P v = true := by
  obtain ⟨l, hl, i, w, hw, hp⟩ := hv
  unfold verticesCheck at h
  rw [List.all_eq_true] at h
  have h1 := h l hl
  rw [List.all_eq_true] at h1
  have h2 := h1 w (List.mem_of_getElem? hw)
  rw [toFin_eq.2 hp] at h2
  exact h2

/-- Checks that a point is in a polygon. -/
def insideCheck (m : Mesh (Ext F)) (id : UInt32) (x : Vec2 F) : Bool :=
  match ringOf m id with
  | some ps => (List.range ps.length).all fun i =>
    match ps[i]?, ps[(i + 1) % ps.length]? with
    | some a, some b => decide (0 ≤ tri a b x)
    | _, _ => true
  | none => false

theorem inPolygon_iff_check {m : Mesh (Ext F)} {id : UInt32} {x : Vec2 F} {ps : List (Vec2 F)}
    (hps : ringOf m id = some ps) : InPolygon m id x ↔ insideCheck m id x = true := by
  have hr := ringOf_eq hps
  unfold insideCheck
  rw [hps]
  simp only [List.all_eq_true, List.mem_range]
  constructor
  · rintro ⟨qs, hq, hin⟩ i hi
    obtain rfl := hq.unique hr
    have hi' : (i + 1) % qs.length < qs.length := Nat.mod_lt _ (by omega)
    rw [List.getElem?_eq_getElem hi, List.getElem?_eq_getElem hi']
    simp only [decide_eq_true_iff]
    exact hin _ _ ⟨i, hi, List.getElem?_eq_getElem hi, List.getElem?_eq_getElem hi'⟩
  · intro h
    refine ⟨ps, hr, ?_⟩
    rintro a b ⟨i, hi, ha, hb⟩
    have := h i hi
    rw [ha, hb] at this
    simpa using this

theorem inPolygon_of_check {m : Mesh (Ext F)} {id : UInt32} {x : Vec2 F}
    (h : insideCheck m id x = true) : InPolygon m id x := by
  cases hps : ringOf m id with
  | none => unfold insideCheck at h; rw [hps] at h; simp at h
  | some ps => exact (inPolygon_iff_check hps).2 h

end Polyanya
