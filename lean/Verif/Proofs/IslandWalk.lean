import Verif.Props.Islands
import Verif.Proofs.Route
import Verif.Model.Async
/-
Polygons between which one can walk have the same island.
-/

namespace Polyanya

variable {K : Type} [Scalar K]

/-- The island tests never stop a query between polygons that are connected by a corridor. -/
theorem islands_same {m : Mesh K} (hm : m.IslandsTrue) {s e : UInt32} {cs : List Crossing} (h : Corridor m s e cs) :
    m.islandsDiffer s e ≠ .ok true ∧ m.islandsDifferAsync s e ≠ .ok true := by
  rcases hm with hm | ⟨l, hl, hc, hb⟩
  · constructor
    · intro hi
      simp only [Mesh.islandsDiffer] at hi
      split at hi
      · rw [bind_eq_ok] at hi
        obtain ⟨l, hl, hi⟩ := hi
        rw [idx_eq_ok] at hl
        rw [hm l (List.mem_of_getElem? hl)] at hi
        simp at hi
      · simp at hi
    · intro hi
      simp only [Mesh.islandsDifferAsync] at hi
      split at hi
      · rw [bind_eq_ok] at hi
        obtain ⟨l, hl, hi⟩ := hi
        rw [idx_eq_ok] at hl
        rw [hm l (List.mem_of_getElem? hl)] at hi
        simp at hi
      · simp at hi
  · have hcon := corridor_connected hl hc h
    obtain ⟨isl, h1, h2, h3, -⟩ := C13_islands_are_components l hc
    rw [hb] at h1
    simp only [Except.ok.injEq] at h1
    have hisl : l.islands = some isl := by rw [h1]
    have only : ∀ (k : Nat) (l' : Layer K), m.layers[k]? = some l' → l' = l := by
      intro k l' hk
      rw [hl] at hk
      have := lt_of_getElem? hk
      simp only [List.length_singleton, Nat.lt_one_iff] at this
      rw [this] at hk
      simpa using hk.symm
    constructor
    · intro hi
      simp only [Mesh.islandsDiffer] at hi
      split at hi
      · rw [bind_eq_ok] at hi
        obtain ⟨l', hl', hi⟩ := hi
        rw [idx_eq_ok] at hl'
        obtain rfl := only _ _ hl'
        rw [hisl] at hi
        simp only at hi
        split at hi
        · rename_i a b ha hb'
          rw [polygonOf_toNat] at ha hb'
          have := (h3 _ _ _ _ ha hb').2 hcon
          simp [this] at hi
        · simp at hi
      · simp at hi
    · intro hi
      simp only [Mesh.islandsDifferAsync] at hi
      split at hi
      · rw [bind_eq_ok] at hi
        obtain ⟨l', hl', hi⟩ := hi
        rw [idx_eq_ok] at hl'
        obtain rfl := only _ _ hl'
        rw [hisl] at hi
        simp only at hi
        split at hi
        · rename_i a b ha hb'
          have small : ∀ (x : UInt32), x.toNat < isl.length → idPolygon x = x.toNat := by
            intro x hx
            have := hc.sized
            unfold idPolygon
            omega
          rw [small s (lt_of_getElem? ha), small e (lt_of_getElem? hb')] at hcon
          have := (h3 _ _ _ _ ha hb').2 hcon
          simp [this] at hi
        · simp at hi
      · simp at hi

theorem bakeIslands_again (l l' : Layer K) (h : l.bakeIslands = .ok l') : l'.bakeIslands = .ok l' := by
  unfold Layer.bakeIslands at h ⊢
  rw [bind_eq_ok] at h
  obtain ⟨isl, h1, h⟩ := h
  simp only [Except.ok.injEq] at h
  have flood : ∀ (root fuel : Nat) (stack : List Nat) (labels : List (Option Nat)),
      l'.flood root fuel stack labels = l.flood root fuel stack labels := by
    intro root fuel
    induction fuel with
    | zero => intros; rfl
    | succ fuel ih =>
      intro stack labels
      cases stack with
      | nil => rfl
      | cons x xs =>
        unfold Layer.flood
        simp only [ih]
        have hn : ∀ p, l'.neighbours p = l.neighbours p := by intro p; rw [← h]; rfl
        have hp : l'.polygons = l.polygons := by rw [← h]
        simp only [hn, hp]
  have fuelEq : l'.floodFuel = l.floodFuel := by rw [← h]; rfl
  have all : ∀ (fuel : Nat) (labels : List (Option Nat)), l'.floodAll fuel labels = l.floodAll fuel labels := by
    intro fuel
    induction fuel with
    | zero => intros; rfl
    | succ fuel ih =>
      intro labels
      unfold Layer.floodAll
      simp only [flood, fuelEq, ih]
  have hp : l'.polygons = l.polygons := by rw [← h]
  rw [all, hp, h1, res_bind_ok]
  subst h
  rfl

/-- A mesh made by `Mesh::new` from consistent references has true islands. -/
theorem meshNew_islandsTrue {vs : List (Vertex K)} {ps : List Polygon} {m : Mesh K}
    (h : Mesh.new vs ps = .ok (.ok m)) (hc : (Layer.mk' vs ps : Layer K).Consistent) : m.IslandsTrue := by
  unfold Mesh.new Layer.new at h
  rw [bind_eq_ok] at h
  obtain ⟨x, hx, h⟩ := h
  cases x with
  | error e => simp at h
  | ok l =>
    simp only [Except.ok.injEq] at h
    subst h
    split at hx
    · simp at hx
    split at hx
    · simp at hx
    rw [bind_eq_ok] at hx
    obtain ⟨l1, h1, hx⟩ := hx
    simp only [Except.ok.injEq] at hx
    subst hx
    right
    refine ⟨l1, rfl, ?_, bakeIslands_again _ _ h1⟩
    unfold Layer.bake Layer.bakeIslands at h1
    rw [bind_eq_ok] at h1
    obtain ⟨isl, -, h1⟩ := h1
    simp only [Except.ok.injEq] at h1
    subst h1
    exact ⟨hc.sized, hc.polygonVertex, hc.vertexPolygon⟩

theorem Route.corridor {m : Mesh (Ext ℝ)} {s e : UInt32} {p q : Vec2 ℝ} {rs : List (Crossing × Vec2 ℝ)}
    (h : Route m s p e q rs) : Corridor m s e (rs.map (·.1)) := by
  induction h with
  | nil => exact .nil _
  | cons _ hv _ _ _ ih => exact .cons hv ih

/-- The island tests never stop a query between polygons between which one can walk. -/
theorem Walk.islands {m : Mesh (Ext ℝ)} (hm : m.IslandsTrue) {s e : UInt32} {p q : Vec2 ℝ} {ws : List (Vec2 ℝ)}
    (h : Walk m s p e q ws) : m.islandsDiffer s e ≠ .ok true ∧ m.islandsDifferAsync s e ≠ .ok true := by
  obtain ⟨rs, hr, -⟩ := h.route
  exact islands_same hm hr.corridor

end Polyanya
