import Verif.Proofs.Checks
import Verif.Proofs.Grid
import Verif.Spec.Shortest
import Mathlib.Data.Rat.Cast.Order
/-
Meshes with rational coordinates, seen as meshes with real coordinates: what can be decided over the rationals
also holds over the reals. Used for concrete cases of theorems about real arithmetic.
-/

namespace Polyanya

/-- A rational value as a real value. -/
def Ext.real : Ext ℚ → Ext ℝ
  | .fin a => .fin (a : ℝ)
  | .inf b => .inf b
  | .nan => .nan

/-- A point. -/
def Vec2.real (v : Vec2 ℚ) : Vec2 ℝ := ⟨(v.x : ℝ), (v.y : ℝ)⟩

def Vec2.extReal (v : Vec2 (Ext ℚ)) : Vec2 (Ext ℝ) := ⟨v.x.real, v.y.real⟩

def Vertex.real (v : Vertex (Ext ℚ)) : Vertex (Ext ℝ) :=
  { coords := v.coords.extReal, polygons := v.polygons, isCorner := v.isCorner }

def Layer.real (l : Layer (Ext ℚ)) : Layer (Ext ℝ) :=
  { vertices := l.vertices.map Vertex.real, polygons := l.polygons, offset := l.offset.extReal,
    scale := l.scale.extReal, baked := l.baked.map (List.map fun b => (b.1.extReal, b.2.extReal)),
    islands := l.islands }

def Mesh.real (m : Mesh (Ext ℚ)) : Mesh (Ext ℝ) :=
  { layers := m.layers.map Layer.real, searchDelta := m.searchDelta.real, searchSteps := m.searchSteps }

theorem Vec2.real_injective {v w : Vec2 ℚ} (h : v.real = w.real) : v = w := by
  cases v; cases w
  simp only [Vec2.real, Vec2.mk.injEq, Rat.cast_inj] at h
  simp [h.1, h.2]

theorem extReal_eq_fin {v : Vec2 (Ext ℚ)} {x : Vec2 ℝ} : v.extReal = x.fin ↔ ∃ y : Vec2 ℚ, v = y.fin ∧ x = y.real := by
  cases v with
  | mk a b =>
    cases x with
    | mk p q =>
      constructor
      · intro h
        cases a <;> cases b <;> simp [Vec2.extReal, Vec2.fin, Ext.real] at h
        rename_i a b
        refine ⟨⟨a, b⟩, rfl, ?_⟩
        simp [Vec2.real, h]
      · rintro ⟨y, h1, h2⟩
        rw [h1, h2]
        rfl

theorem Ext.real_add (a b : Ext ℚ) : (a +. b).real = a.real +. b.real := by
  cases a with
  | fin a =>
    cases b with
    | fin b =>
      change Ext.fin (((a +. b : ℚ)) : ℝ) = Ext.fin ((a : ℝ) +. (b : ℝ))
      rw [ExactField.add, ExactField.add]
      push_cast
      rfl
    | inf b => rfl
    | nan => rfl
  | inf a =>
    cases b with
    | fin b => rfl
    | inf b =>
      change Ext.real (if a = b then .inf a else .nan) = if a = b then .inf a else .nan
      split <;> rfl
    | nan => rfl
  | nan => cases b <;> rfl

theorem extReal_add (v w : Vec2 (Ext ℚ)) : (v + w).extReal = v.extReal + w.extReal := by
  change (⟨(v.x +. w.x).real, (v.y +. w.y).real⟩ : Vec2 (Ext ℝ)) = ⟨v.x.real +. w.x.real, v.y.real +. w.y.real⟩
  rw [Ext.real_add, Ext.real_add]

theorem tri_real (a b c : Vec2 ℚ) : tri a.real b.real c.real = ((tri a b c : ℚ) : ℝ) := by
  simp only [tri, Vec2.real]; push_cast; ring

theorem along_real (a b : Vec2 ℚ) (u : ℚ) : along a.real b.real (u : ℝ) = (along a b u).real := by
  simp only [along, Vec2.real]; push_cast; rfl

theorem between_real {a b x : Vec2 ℚ} (h : Between a b x) : Between a.real b.real x.real := by
  obtain ⟨u, h0, h1, rfl⟩ := h
  exact ⟨(u : ℝ), by exact_mod_cast h0, by exact_mod_cast h1, (along_real a b u).symm⟩

variable {m : Mesh (Ext ℚ)}

theorem layers_real {j : Nat} {l : Layer (Ext ℝ)} :
    m.real.layers[j]? = some l ↔ ∃ k, m.layers[j]? = some k ∧ l = k.real := by
  simp only [Mesh.real, List.getElem?_map, Option.map_eq_some_iff]
  constructor
  · rintro ⟨k, h1, h2⟩; exact ⟨k, h1, h2.symm⟩
  · rintro ⟨k, h1, h2⟩; exact ⟨k, h1, h2.symm⟩

theorem hasPolygon_real {id : UInt32} {l : Layer (Ext ℝ)} {p : Polygon} :
    HasPolygon m.real id l p ↔ ∃ k, HasPolygon m id k p ∧ l = k.real := by
  unfold HasPolygon
  rw [layers_real]
  constructor
  · rintro ⟨⟨k, h1, rfl⟩, h2⟩
    exact ⟨k, ⟨h1, h2⟩, rfl⟩
  · rintro ⟨k, ⟨h1, h2⟩, rfl⟩
    exact ⟨⟨k, h1, rfl⟩, h2⟩

theorem vertexAt_real {l : Layer (Ext ℚ)} {i : UInt32} {x : Vec2 ℝ} :
    VertexAt l.real i x ↔ ∃ y, VertexAt l i y ∧ x = y.real := by
  unfold VertexAt
  constructor
  · rintro ⟨v, hv, hc⟩
    simp only [Layer.real, List.getElem?_map, Option.map_eq_some_iff] at hv
    obtain ⟨w, hw, rfl⟩ := hv
    have : (w.coords + l.offset).extReal = x.fin := by rw [extReal_add]; exact hc
    obtain ⟨y, h1, h2⟩ := extReal_eq_fin.1 this
    exact ⟨y, ⟨w, hw, h1⟩, h2⟩
  · rintro ⟨y, ⟨w, hw, h1⟩, h2⟩
    refine ⟨w.real, ?_, ?_⟩
    · simp [Layer.real, hw]
    · have : (w.coords + l.offset).extReal = x.fin := extReal_eq_fin.2 ⟨y, h1, h2⟩
      rw [extReal_add] at this
      exact this

theorem forall₂_real {l : Layer (Ext ℚ)} : ∀ {is : List UInt32} {ps : List (Vec2 ℝ)},
    List.Forall₂ (VertexAt l.real) is ps ↔ ∃ qs, List.Forall₂ (VertexAt l) is qs ∧ ps = qs.map Vec2.real
  | [], ps => by
    constructor
    · intro h; cases h; exact ⟨[], .nil, rfl⟩
    · rintro ⟨qs, h, rfl⟩; cases h; exact .nil
  | i :: is, ps => by
    constructor
    · intro h
      cases h with
      | cons h1 h2 =>
        obtain ⟨y, hy, rfl⟩ := vertexAt_real.1 h1
        obtain ⟨qs, hq, rfl⟩ := forall₂_real.1 h2
        exact ⟨y :: qs, .cons hy hq, rfl⟩
    · rintro ⟨qs, h, rfl⟩
      cases h with
      | cons h1 h2 => exact .cons (vertexAt_real.2 ⟨_, h1, rfl⟩) (forall₂_real.2 ⟨_, h2, rfl⟩)

theorem ring_real {id : UInt32} {ps : List (Vec2 ℝ)} :
    Ring m.real id ps ↔ ∃ qs, Ring m id qs ∧ ps = qs.map Vec2.real := by
  unfold Ring
  constructor
  · rintro ⟨l, p, h1, h2⟩
    obtain ⟨k, k1, rfl⟩ := hasPolygon_real.1 h1
    obtain ⟨qs, k2, rfl⟩ := forall₂_real.1 h2
    exact ⟨qs, ⟨k, p, k1, k2⟩, rfl⟩
  · rintro ⟨qs, ⟨k, p, h1, h2⟩, rfl⟩
    exact ⟨k.real, p, hasPolygon_real.2 ⟨k, h1, rfl⟩, forall₂_real.2 ⟨qs, h2, rfl⟩⟩

theorem consecutive_real {qs : List (Vec2 ℚ)} {a b : Vec2 ℝ} :
    Consecutive (qs.map Vec2.real) a b ↔ ∃ x y, Consecutive qs x y ∧ a = x.real ∧ b = y.real := by
  unfold Consecutive
  simp only [List.length_map, List.getElem?_map, Option.map_eq_some_iff]
  constructor
  · rintro ⟨i, hi, ⟨x, hx, rfl⟩, ⟨y, hy, rfl⟩⟩
    exact ⟨x, y, ⟨i, hi, hx, hy⟩, rfl, rfl⟩
  · rintro ⟨x, y, ⟨i, hi, hx, hy⟩, rfl, rfl⟩
    exact ⟨i, hi, ⟨x, hx, rfl⟩, ⟨y, hy, rfl⟩⟩

theorem convex_real {qs : List (Vec2 ℚ)} (h : StrictlyConvex qs) : StrictlyConvex (qs.map Vec2.real) := by
  refine ⟨by simpa using h.1, ?_⟩
  intro i j k a b c hij hjk ha hb hc
  simp only [List.getElem?_map, Option.map_eq_some_iff] at ha hb hc
  obtain ⟨a, ha, rfl⟩ := ha
  obtain ⟨b, hb, rfl⟩ := hb
  obtain ⟨c, hc, rfl⟩ := hc
  rw [tri_real]
  exact_mod_cast h.2 i j k a b c hij hjk ha hb hc

theorem inside_real {qs : List (Vec2 ℚ)} {x : Vec2 ℚ} (h : Inside qs x) : Inside (qs.map Vec2.real) x.real := by
  intro a b hab
  obtain ⟨a, b, hab', rfl, rfl⟩ := consecutive_real.1 hab
  rw [tri_real]
  exact_mod_cast h a b hab'

theorem inPolygon_real {id : UInt32} {x : Vec2 ℚ} (h : InPolygon m id x) : InPolygon m.real id x.real := by
  obtain ⟨qs, h1, h2⟩ := h
  exact ⟨_, ring_real.2 ⟨qs, h1, rfl⟩, inside_real h2⟩

theorem valid_real {c : Crossing} : c.Valid m.real ↔ c.Valid m := by
  unfold Crossing.Valid
  constructor
  · rintro ⟨l, p, va, vb, h1, h2, h3, h4, h5, h6, h7⟩
    obtain ⟨k, k1, rfl⟩ := hasPolygon_real.1 h1
    simp only [Layer.real, List.getElem?_map, Option.map_eq_some_iff] at h3 h4
    obtain ⟨va, h3, rfl⟩ := h3
    obtain ⟨vb, h4, rfl⟩ := h4
    exact ⟨k, p, va, vb, k1, h2, h3, h4, h5, h6, h7⟩
  · rintro ⟨k, p, va, vb, h1, h2, h3, h4, h5, h6, h7⟩
    refine ⟨k.real, p, va.real, vb.real, hasPolygon_real.2 ⟨k, h1, rfl⟩, h2, ?_, ?_, h5, h6, h7⟩
    · simp [Layer.real, h3]
    · simp [Layer.real, h4]

theorem at_real {c : Crossing} {A B : Vec2 ℝ} :
    c.At m.real A B ↔ ∃ x y, c.At m x y ∧ A = x.real ∧ B = y.real := by
  unfold Crossing.At
  constructor
  · rintro ⟨l, h1, h2, h3⟩
    obtain ⟨k, k1, rfl⟩ := layers_real.1 h1
    obtain ⟨x, k2, rfl⟩ := vertexAt_real.1 h2
    obtain ⟨y, k3, rfl⟩ := vertexAt_real.1 h3
    exact ⟨x, y, ⟨k, k1, k2, k3⟩, rfl, rfl⟩
  · rintro ⟨x, y, ⟨k, h1, h2, h3⟩, rfl, rfl⟩
    exact ⟨k.real, layers_real.2 ⟨k, h1, rfl⟩, vertexAt_real.2 ⟨x, h2, rfl⟩, vertexAt_real.2 ⟨y, h3, rfl⟩⟩

theorem conforming_real (h : Conforming m) : Conforming m.real where
  convex id l p hp := by
    obtain ⟨k, kp, rfl⟩ := hasPolygon_real.1 hp
    obtain ⟨ps, h1, h2⟩ := h.convex id k p kp
    exact ⟨_, ring_real.2 ⟨ps, h1, rfl⟩, convex_real h2⟩
  shared c hc A B hat := by
    obtain ⟨x, y, kat, rfl, rfl⟩ := at_real.1 hat
    obtain ⟨ps, h1, h2⟩ := h.shared c (valid_real.1 hc) x y kat
    exact ⟨_, ring_real.2 ⟨ps, h1, rfl⟩, consecutive_real.2 ⟨_, _, h2, rfl, rfl⟩⟩

theorem straight_real {s e : UInt32} {p q : Vec2 ℚ} (h : Straight m s p e q) :
    Straight m.real s p.real e q.real := by
  induction h with
  | stay h1 h2 => exact .stay (inPolygon_real h1) (inPolygon_real h2)
  | cross h1 h2 h3 h4 h5 _ ih =>
    exact .cross (inPolygon_real h1) (valid_real.2 h2) (at_real.2 ⟨_, _, h3, rfl, rfl⟩) (between_real h4)
      (between_real h5) ih

theorem walk_real {s e : UInt32} {p q : Vec2 ℚ} {ws : List (Vec2 ℚ)} (h : Walk m s p e q ws) :
    Walk m.real s p.real e q.real (ws.map Vec2.real) := by
  induction h with
  | nil h => exact .nil (inPolygon_real h)
  | cons h1 _ ih => exact .cons (straight_real h1) ih

theorem isVertex_real {v : Vec2 ℝ} : IsVertex m.real v ↔ ∃ w, IsVertex m w ∧ v = w.real := by
  unfold IsVertex
  constructor
  · rintro ⟨l, hl, i, h⟩
    simp only [Mesh.real, List.mem_map] at hl
    obtain ⟨k, hk, rfl⟩ := hl
    obtain ⟨y, hy, rfl⟩ := vertexAt_real.1 h
    exact ⟨y, ⟨k, hk, i, hy⟩, rfl⟩
  · rintro ⟨y, ⟨k, hk, i, hy⟩, rfl⟩
    exact ⟨k.real, by simp only [Mesh.real, List.mem_map]; exact ⟨k, hk, rfl⟩, i, vertexAt_real.2 ⟨y, hy, rfl⟩⟩

theorem onGrid_real {o v : Vec2 ℚ} {u : ℚ} {N : Nat} (h : OnGrid o u N v) : OnGrid o.real (u : ℝ) N v.real := by
  obtain ⟨i, j, hi, hj, rfl⟩ := h
  refine ⟨i, j, hi, hj, ?_⟩
  simp only [Vec2.real]
  push_cast
  rfl

theorem touches_real {s id : UInt32} {start : Vec2 ℚ} {v : Vec2 ℝ} (h : Touches m.real s start.real id v) :
    ∃ w, Touches m s start id w ∧ v = w.real := by
  rcases h with ⟨ps, h1, h2⟩ | ⟨rfl, rfl⟩
  · obtain ⟨qs, k1, rfl⟩ := ring_real.1 h1
    obtain ⟨w, hw, rfl⟩ := List.mem_map.1 h2
    exact ⟨w, .inl ⟨qs, k1, hw⟩, rfl⟩
  · exact ⟨start, .inr ⟨rfl, rfl⟩, rfl⟩

end Polyanya
