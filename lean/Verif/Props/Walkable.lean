import Verif.Props.Inside
import Verif.Proofs.LocateExt
import Verif.Proofs.Grid
/-
Property C53 for the user of the library: start and goal are points of the mesh, and the mesh is on a grid that
is not too fine.
-/

namespace Polyanya

variable {F : Type} [Field F] [LinearOrder F] [Scalar F] [ExactField F] [IsStrictOrderedRing F]

/-! ### Every point of a walk is in the mesh -/

/-- Consecutive points of the polyline `p, ws`. -/
def Legs (p : Vec2 F) (ws : List (Vec2 F)) : List (Vec2 F × Vec2 F) := (p :: ws).zip ws

/-- Every point of the polyline `p, ws` is in some polygon of the mesh. -/
def Walkable (m : Mesh (Ext F)) (p : Vec2 F) (ws : List (Vec2 F)) : Prop :=
  ∀ leg ∈ Legs p ws, ∀ y, Between leg.1 leg.2 y → ∃ id, InPolygon m id y

omit [Scalar F] [ExactField F] in
/-- A point of a segment is in one of the two parts into which another point divides it. -/
theorem Between.split {p q y z : Vec2 F} (hy : Between p q y) (hz : Between p q z) :
    Between p y z ∨ Between y q z := by
  obtain ⟨u, u0, u1, rfl⟩ := hy
  obtain ⟨v, v0, v1, rfl⟩ := hz
  rcases le_total v u with h | h
  · left
    rcases eq_or_lt_of_le u0 with h0 | h0
    · have : v = 0 := le_antisymm (h0 ▸ h) v0
      refine ⟨0, le_rfl, zero_le_one, ?_⟩
      rw [this, along_zero, along_zero]
    · refine ⟨v / u, div_nonneg v0 u0, (div_le_one h0).2 h, ?_⟩
      have e := div_mul_cancel₀ v h0.ne'
      generalize v / u = k at e
      rw [Vec2.ext_iff']
      simp only [along]
      rw [← e]
      constructor <;> ring
  · right
    rcases eq_or_lt_of_le u1 with h1 | h1
    · have : v = 1 := le_antisymm v1 (h1 ▸ h)
      refine ⟨0, le_rfl, zero_le_one, ?_⟩
      rw [this, h1, along_zero]
    · have hp : 0 < 1 - u := by linarith
      refine ⟨(v - u) / (1 - u), div_nonneg (by linarith) hp.le, (div_le_one hp).2 (by linarith), ?_⟩
      have e := div_mul_cancel₀ (v - u) hp.ne'
      generalize (v - u) / (1 - u) = k at e
      rw [Vec2.ext_iff']
      simp only [along]
      constructor
      · linear_combination -(q.x - p.x) * e
      · linear_combination -(q.y - p.y) * e

omit [ExactField F] in
theorem Straight.covered {m : Mesh (Ext F)} (hc : Conforming m) {s e : UInt32} {p q : Vec2 F}
    (h : Straight m s p e q) : ∀ y, Between p q y → ∃ id, InPolygon m id y := by
  induction h with
  | stay h1 h2 =>
    intro y hy
    obtain ⟨ps, hr, hi⟩ := h1
    obtain ⟨ps', hr', hi'⟩ := h2
    obtain rfl := hr.unique hr'
    exact ⟨_, ps, hr, hi.between hi' hy⟩
  | @cross c e p y q A B hp hv hat hAB hpq hrest ih =>
    intro z hz
    rcases hpq.split hz with h | h
    · obtain ⟨ps, hr, hi⟩ := hp
      obtain ⟨l, poly, va, vb, hh, he, -⟩ := hv
      obtain ⟨l', hl', hA, hB⟩ := hat
      have e1 := hh.1
      rw [hl'] at e1
      cases e1
      obtain ⟨ps', hr', hconv⟩ := hc.convex _ _ _ hh
      obtain rfl := hr.unique hr'
      obtain ⟨l'', p'', hh'', hfor⟩ := hr
      have e2 := hh''.1
      rw [hh.1] at e2
      cases e2
      have e3 := hh''.2
      rw [hh.2] at e3
      cases e3
      have hcons : Consecutive ps A B := by
        obtain ⟨i, hi, ha, hb⟩ := he
        obtain ⟨A', hA', hA''⟩ := forall₂_getElem hfor ha
        obtain ⟨B', hB', hB''⟩ := forall₂_getElem hfor hb
        have hlen := hfor.length_eq
        rw [hlen] at hB' hi
        exact ⟨i, hi, by rw [hA', hA''.unique hA], by rw [hB', hB''.unique hB]⟩
      exact ⟨_, ps, hr', hi.between (hconv.edge_inside hcons hAB) h⟩
    · exact ih z h

omit [ExactField F] in
theorem Walk.walkable {m : Mesh (Ext F)} (hc : Conforming m) {s e : UInt32} {p q : Vec2 F}
    {ws : List (Vec2 F)} (h : Walk m s p e q ws) : Walkable m p ws := by
  induction h with
  | nil _ => intro leg hleg; simp [Legs] at hleg
  | @cons s s' e p w q ws hst _ ih =>
    intro leg hleg
    simp only [Legs, List.zip_cons_cons, List.mem_cons] at hleg
    rcases hleg with rfl | hleg
    · exact hst.covered hc
    · exact ih leg hleg

omit [ExactField F] [IsStrictOrderedRing F] in
theorem Walk.last {m : Mesh (Ext F)} {s e : UInt32} {p q : Vec2 F} {ws : List (Vec2 F)}
    (h : Walk m s p e q ws) : (p :: ws).getLast? = some q := by
  induction h with
  | nil _ => rfl
  | cons _ _ ih => rw [List.getLast?_cons_cons]; exact ih

/-! ### Points of the mesh -/

/-- **C53** for points of the mesh. The start and the goal are in the mesh (and in the layer they ask for);
then every point of the returned path is in the mesh, it starts from the start and ends in the goal. -/
theorem C53_points_inside (bvh : Bvh (Ext F)) (hb : bvh.Complete) (heap : Heap (Ext F)) (cfg : Cfg)
    (m : Mesh (Ext F)) (hm : m.Searchable) (hc : Conforming m) (d : F) (hd : m.searchDelta = .fin d)
    (src dst : Coords (Ext F)) (start goal : Vec2 F) (hsrc : PointOfMesh m src start)
    (hdst : PointOfMesh m dst goal) (h1 : Sharp m start) (h2 : Sharp m goal)
    (hn : NoNearMiss m start goal) (blocked : List UInt8) (p : Path (Ext F))
    (h : m.pathOnLayers bvh heap cfg src dst blocked = .ok (some p)) :
    ∃ s e ws, InPolygon m s start ∧ InPolygon m e goal ∧ p.path = ws.map Vec2.fin
      ∧ Walk m s start e goal ws ∧ Walkable m start ws := by
  obtain ⟨s, e, ws, hs, he, hp, hw⟩ := C53_path_inside bvh heap cfg m
    (fun l hl => (hm.layer l hl).1.sized) hc src dst start goal hsrc.pos hdst.pos
    (fun s hs => hsrc.located hb hm hc hd h1 hs) (fun e he => hdst.located hb hm hc hd h2 he) hn blocked p h
  exact ⟨s, e, ws, hsrc.located hb hm hc hd h1 hs, hdst.located hb hm hc hd h2 he, hp, hw, hw.walkable hc⟩

/-! ### Meshes on a grid -/

/-- The mesh and the points are on a grid of at most 70 × 70 cells, of a size that suits the tolerances: at
least 0.04, and at least `N² / 50` for a grid of `N × N` cells. -/
structure GridMesh (m : Mesh (Ext F)) (start goal : Vec2 F) (o : Vec2 F) (u : F) (N : Nat) : Prop where
  pos : 1 ≤ N
  few : N ≤ 70
  coarse : (N : F) ^ 2 / 50 ≤ u
  large : 1 / 25 ≤ u
  vertices : ∀ v, IsVertex m v → OnGrid o u N v
  start : OnGrid o u N start
  goal : OnGrid o u N goal

omit [ExactField F] in
theorem sharp_of_grid {m : Mesh (Ext F)} {o : Vec2 F} {u : F} {N : Nat} (hu : 1 / 25 ≤ u)
    (hv : ∀ v, IsVertex m v → OnGrid o u N v) {x : Vec2 F} (hx : OnGrid o u N x) : Sharp m x := by
  intro A B hAB hlt
  obtain ⟨q, hq⟩ := (hv A (hAB.isVertex A (.inl rfl))).tri_int (hv B (hAB.isVertex B (.inr rfl))) hx
  rw [hq] at hlt ⊢
  have hu2 : (1 / 25 : F) ^ 2 ≤ u ^ 2 := pow_le_pow_left₀ (by norm_num) hu 2
  norm_num at hu2
  by_contra hne
  have hq0 : q ≠ 0 := by rintro rfl; simp at hne
  have h1 : (1 : F) ≤ |(q : F)| := by
    rw [← Int.cast_abs]
    exact_mod_cast Int.one_le_abs hq0
  rw [abs_mul, abs_of_nonneg (sq_nonneg u)] at hlt
  nlinarith

/-- **C53** on a grid: a path between two points of the mesh stays in the mesh. -/
theorem C53_grid (bvh : Bvh (Ext F)) (hb : bvh.Complete) (heap : Heap (Ext F)) (cfg : Cfg)
    (m : Mesh (Ext F)) (hm : m.Searchable) (hc : Conforming m) (d : F) (hd : m.searchDelta = .fin d)
    (src dst : Coords (Ext F)) (start goal : Vec2 F) (hsrc : PointOfMesh m src start)
    (hdst : PointOfMesh m dst goal) (o : Vec2 F) (u : F) (N : Nat) (hg : GridMesh m start goal o u N)
    (blocked : List UInt8) (p : Path (Ext F))
    (h : m.pathOnLayers bvh heap cfg src dst blocked = .ok (some p)) :
    ∃ ws, p.path = ws.map Vec2.fin ∧ (start :: ws).getLast? = some goal ∧ Walkable m start ws := by
  obtain ⟨s, e, ws, -, -, hp, hw, hw'⟩ := C53_points_inside bvh hb heap cfg m hm hc d hd src dst start goal
    hsrc hdst (sharp_of_grid hg.large hg.vertices hg.start) (sharp_of_grid hg.large hg.vertices hg.goal)
    (noNearMiss_of_grid hg.pos hg.few hg.coarse hg.large hg.vertices hg.start hg.goal) blocked p h
  exact ⟨ws, hp, hw.last, hw'⟩

end Polyanya
