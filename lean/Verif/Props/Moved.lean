import Verif.Proofs.MovedLoc
import Verif.Props.Alike
/-
C65: moving every layer and the query points by the same vector moves the answers by that vector, and changes
nothing else.
-/

namespace Polyanya

set_option linter.unusedSectionVars false

variable {K : Type} [Scalar K]

theorem RR.toMap {α β : Type} {f : α → β} {x : Res α} {y : Res β} (h : RR (fun a b => b = f a) x y) : y = x.map f := by
  cases h with
  | ok h => rw [h]; rfl
  | error e => rfl

section
variable {t : Vec2 K} (ht : Shift t)
include ht

/-- C65: the path from the moved start to the moved destination in the moved mesh is the moved path: the same length,
the same bends moved by `t`; there is no path in both, or the same fault in both. -/
theorem C65_path (bvh : Bvh K) {heap : Heap K} (hh : heap.ByCost) (cfg : Cfg) (m : Mesh K)
    (hc : cfg.detailed = true → m.UnitScale) (src dst : Coords K) (blocked : List UInt8) :
    (m.moved t).pathOnLayers bvh heap cfg (src.moved t) (dst.moved t) blocked =
      (m.pathOnLayers bvh heap cfg src dst blocked).map (Option.map (Path.moved t)) := by
  refine RR.toMap ?_
  unfold Mesh.pathOnLayers
  rw [endpointPolygon_moved ht, endpointPolygon_moved ht]
  refine RR.bindEq fun s => ?_
  cases s with
  | none => exact .ok rfl
  | some s =>
    refine RR.bindEq fun e => ?_
    cases e with
    | none => exact .ok rfl
    | some e => exact pathBetween_moved ht hc hh _ _ s e blocked

/-- C65: a moved point is in the moved mesh iff the point is in the mesh, and in the same polygons. -/
theorem C65_location (bvh : Bvh K) (m : Mesh K) (c : Coords K) :
    (m.moved t).getPointLocation bvh (c.moved t) = m.getPointLocation bvh c ∧
      (m.moved t).getPointLocations bvh (c.moved t) = m.getPointLocations bvh c ∧
      (m.moved t).pointInMesh bvh (c.moved t) = m.pointInMesh bvh c ∧
      (m.moved t).getPointLayer bvh (c.moved t) = (m.getPointLayer bvh c).map (List.map (Coords.moved t)) := by
  refine ⟨getPointLocation_moved ht bvh m c, getPointLocations_moved ht bvh m c, ?_, ?_⟩
  · unfold Mesh.pointInMesh
    rw [getPointLocation_moved ht]
  · unfold Mesh.getPointLayer
    rw [getPointLocations_moved ht]
    refine RR.toMap (RR.bindEq fun ps => .ok ?_)
    rw [List.map_map]
    rfl

/-- C65: the closest point found for the moved point is the moved one. -/
theorem C65_closest (bvh : Bvh K) (m : Mesh K) (c : Coords K) (towards : Vec2 K) :
    (m.moved t).getClosestPoint bvh (c.moved t) = (m.getClosestPoint bvh c).map (Option.map (Coords.moved t)) ∧
      (m.moved t).getClosestPointTowards bvh (c.moved t) (towards + t) =
        (m.getClosestPointTowards bvh c towards).map (Option.map (Coords.moved t)) :=
  ⟨(getClosestPoint_moved ht bvh m c).toMap, (getClosestPointTowards_moved ht bvh m c towards).toMap⟩

theorem resolves_moved (bvh : Bvh K) {heap : Heap K} (hh : heap.ByCost) {cfg : Cfg} {m : Mesh K}
    (hc : cfg.detailed = true → m.UnitScale) {f : FuturePath K} {r : Option (Path K)}
    (hr : Resolves bvh heap cfg m f r) :
    Resolves bvh heap cfg (m.moved t) (f.moved t) (r.map (Path.moved t)) := by
  induction hr with
  | @ready f g r hp =>
    have := (poll_moved ht hc bvh hh f).toMap
    rw [hp] at this
    exact .ready this
  | @pending f g w r hp _ ih =>
    have := (poll_moved ht hc bvh hh f).toMap
    rw [hp] at this
    exact .pending this ih

theorem resolves_moved' (bvh : Bvh K) {heap : Heap K} (hh : heap.ByCost) {cfg : Cfg} {m : Mesh K}
    (hc : cfg.detailed = true → m.UnitScale) {f' : FuturePath K} {r' : Option (Path K)}
    (hr : Resolves bvh heap cfg (m.moved t) f' r') : ∀ {f : FuturePath K}, f' = f.moved t →
    ∃ r, r' = r.map (Path.moved t) ∧ Resolves bvh heap cfg m f r := by
  induction hr with
  | @ready f' g' r' hp =>
    rintro f rfl
    have := (poll_moved ht hc bvh hh f).toMap
    rw [hp] at this
    cases hq : f.poll bvh heap cfg m with
    | error e => rw [hq] at this; cases this
    | ok x =>
      obtain ⟨p, g⟩ := x
      rw [hq] at this
      cases p with
      | pending w => cases this
      | ready r =>
        have h := congrArg Prod.fst (Except.ok.inj this)
        simp only [Poll.moved, Poll.ready.injEq] at h
        exact ⟨r, h, .ready hq⟩
  | @pending f' g' w r' hp _ ih =>
    rintro f rfl
    have := (poll_moved ht hc bvh hh f).toMap
    rw [hp] at this
    cases hq : f.poll bvh heap cfg m with
    | error e => rw [hq] at this; cases this
    | ok x =>
      obtain ⟨p, g⟩ := x
      rw [hq] at this
      cases p with
      | ready r => cases this
      | pending w' =>
        obtain ⟨r, h1, h2⟩ := ih (congrArg Prod.snd (Except.ok.inj this))
        exact ⟨r, h1, .pending hq h2⟩

/-- C65: the future for the moved points resolves, and exactly to the moved answers. -/
theorem C65_future (bvh : Bvh K) {heap : Heap K} (hh : heap.ByCost) (cfg : Cfg) (m : Mesh K)
    (hc : cfg.detailed = true → m.UnitScale) (src dst : Vec2 K) (r' : Option (Path K)) :
    Resolves bvh heap cfg (m.moved t) (Mesh.getPath (src + t) (dst + t)) r' ↔
      ∃ r, r' = r.map (Path.moved t) ∧ Resolves bvh heap cfg m (Mesh.getPath src dst) r := by
  constructor
  · exact fun h => resolves_moved' ht bvh hh hc h rfl
  · rintro ⟨r, rfl, h⟩
    exact resolves_moved ht bvh hh hc h

end

/-- C65 in exact arithmetic, with default features: for every mesh, every query and every finite `t`, whatever the
scales. -/
theorem C65_path_exact {F : Type} [Field F] [LinearOrder F] [Scalar F] [ExactField F] (t : Vec2 F) (bvh : Bvh (Ext F))
    {heap : Heap (Ext F)} (hh : heap.ByCost) (m : Mesh (Ext F)) (src dst : Coords (Ext F)) (blocked : List UInt8) :
    (m.moved t.fin).pathOnLayers bvh heap ⟨false⟩ (src.moved t.fin) (dst.moved t.fin) blocked =
      (m.pathOnLayers bvh heap ⟨false⟩ src dst blocked).map (Option.map (Path.moved t.fin)) :=
  C65_path (shift_ext t) bvh hh ⟨false⟩ m (fun h => by cases h) src dst blocked

/-- C65 in exact arithmetic, with `detailed-layers`: for every mesh whose layers have the default scale. -/
theorem C65_path_exact_detailed {F : Type} [Field F] [LinearOrder F] [IsStrictOrderedRing F] [Scalar F] [ExactField F]
    (t : Vec2 F) (bvh : Bvh (Ext F)) {heap : Heap (Ext F)} (hh : heap.ByCost) (m : Mesh (Ext F))
    (hs : ∀ l ∈ m.layers, l.scale = Vec2.one) (src dst : Coords (Ext F)) (blocked : List UInt8) :
    (m.moved t.fin).pathOnLayers bvh heap ⟨true⟩ (src.moved t.fin) (dst.moved t.fin) blocked =
      (m.pathOnLayers bvh heap ⟨true⟩ src dst blocked).map (Option.map (Path.moved t.fin)) :=
  C65_path (shift_ext t) bvh hh ⟨true⟩ m (fun _ => unitScale_ext hs) src dst blocked

/-! ### Baking -/

theorem neighbours_moved (t : Vec2 K) (l : Layer K) (p : Polygon) : (l.moved t).neighbours p = l.neighbours p := rfl

theorem flood_moved (t : Vec2 K) (l : Layer K) (root : Nat) : ∀ (fuel : Nat) (stack : List Nat)
    (isl : List (Option Nat)), (l.moved t).flood root fuel stack isl = l.flood root fuel stack isl := by
  intro fuel
  induction fuel with
  | zero => intros; rfl
  | succ fuel ih =>
    intro stack isl
    cases stack with
    | nil => rfl
    | cons next stack =>
      rw [Layer.flood, Layer.flood]
      simp only [ih, neighbours_moved]
      rfl

theorem floodAll_moved (t : Vec2 K) (l : Layer K) : ∀ (fuel : Nat) (isl : List (Option Nat)),
    (l.moved t).floodAll fuel isl = l.floodAll fuel isl := by
  intro fuel
  induction fuel with
  | zero => intros; rfl
  | succ fuel ih =>
    intro isl
    simp only [Layer.floodAll, ih, flood_moved]
    rfl

/-- C65: baking before or after the move is the same. -/
theorem C65_bake (t : Vec2 K) (m : Mesh K) : (m.moved t).bake = m.bake.map (Mesh.moved t) := by
  have hl : ∀ l : Layer K, (l.moved t).bake = l.bake.map (Layer.moved t) := by
    intro l
    unfold Layer.bake Layer.bakeIslands
    rw [show (l.moved t).bakePolygonFinder = l.bakePolygonFinder.moved t from rfl, floodAll_moved]
    exact RR.toMap (RR.bindEq fun isl => .ok rfl)
  unfold Mesh.bake
  refine RR.toMap ((RR.mapM (R := fun a b => b = Layer.moved t a) (S := fun a b => b = Layer.moved t a) ?_ ?_).bind ?_)
  · change List.Forall₂ _ _ (m.layers.map (Layer.moved t))
    rw [List.forall₂_map_right_iff]
    exact List.forall₂_same.2 fun _ _ => rfl
  · rintro a _ rfl
    rw [hl]
    cases a.bake with
    | ok b => exact .ok rfl
    | error e => exact .error e
  · intro ls ls' h
    refine .ok ?_
    have : ls' = ls.map (Layer.moved t) := by
      rw [← List.forall₂_eq_eq_eq, List.forall₂_map_right_iff]
      exact h.flip
    rw [this]
    rfl

/-! ### Examples -/

/-- In an exact field without infinities the laws hold as well. -/
theorem shift_rat (t : Vec2 Rat) : Shift t where
  sub a b := vec_ext (add_sub_add_right_eq_sub a.x b.x t.x) (add_sub_add_right_eq_sub a.y b.y t.y)
  beq a b := by
    change (decide (a.x + t.x = b.x + t.x) && decide (a.y + t.y = b.y + t.y)) =
      (decide (a.x = b.x) && decide (a.y = b.y))
    simp only [add_left_inj]
  add a v := vec_ext (add_right_comm a.x t.x v.x) (add_right_comm a.y t.y v.y)
  assoc a b := vec_ext (add_assoc a.x b.x t.x).symm (add_assoc a.y b.y t.y).symm

theorem exMesh_unit : exMesh.UnitScale where
  one := by
    intro l hl
    simp only [exMesh, Mesh.ofLayers, List.mem_singleton] at hl
    rw [hl]
    rfl
  cmul a := by
    have h1 : (Scalar.lit 1 0 : Rat) = 1 := by decide +kernel
    refine vec_ext ?_ ?_
    · change a.x * (Scalar.lit 1 0 : Rat) = a.x
      rw [h1, mul_one]
    · change a.y * (Scalar.lit 1 0 : Rat) = a.y
      rw [h1, mul_one]

/-- Non-vacuity of C65: the query around the corner, moved by `(100, -7/2)`. -/
theorem C65_example : (exMesh.moved (v2 100 (-7/2))).pathOnLayers allBvh ratHeap ⟨true⟩
    ((Coords.onMesh (v2 (3/2) (1/2))).moved (v2 100 (-7/2))) ((Coords.onMesh (v2 (3/4) (3/2))).moved (v2 100 (-7/2))) [] =
    .ok (some ⟨633061/500000, [⟨101,-5/2⟩, ⟨403/4,-2⟩], [(⟨101,-5/2⟩,0), (⟨403/4,-2⟩,0)]⟩) := by
  rw [C65_path (shift_rat _) allBvh (heap := ratHeap) maxHeap_byCost ⟨true⟩ exMesh (fun _ => exMesh_unit), exPath]
  decide +kernel

/-- A layer of scale 2 around a triangular obstacle `(-1, 1), (0, -3), (1, 1)`, with a wall whose tip is at `(3, 0)`. -/
def hookLayer : Layer Rat :=
  { Layer.mk'
      [ Vertex.new (v2 (-4) 3) [0, 1, u32Max], Vertex.new (v2 (-4) (-4)) [0, 3, u32Max],
        Vertex.new (v2 0 (-3)) [0, 2, 3, u32Max], Vertex.new (v2 (-1) 1) [0, 1, u32Max],
        Vertex.new (v2 1 1) [1, 2, u32Max], Vertex.new (v2 2 3) [1, 2, u32Max],
        Vertex.new (v2 3 (-4)) [2, 3, 4, u32Max], Vertex.new (v2 3 0) [2, 4, 5, u32Max],
        Vertex.new (v2 5 (-4)) [4, u32Max], Vertex.new (v2 5 3) [4, 5, u32Max], Vertex.new (v2 3 4) [5, u32Max] ]
      [ Polygon.new [0, 1, 2, 3] false, Polygon.new [0, 3, 4, 5] false, Polygon.new [4, 2, 6, 7, 5] false,
        Polygon.new [1, 6, 2] false, Polygon.new [6, 8, 9, 7] false, Polygon.new [7, 9, 10] false ] with
    scale := v2 2 2 }

def hookMesh : Mesh Rat := Mesh.ofLayers [hookLayer]

/-- The condition of C65 on the scales is needed: with `detailed-layers` and a layer of scale 2, the path above the
obstacle (three bends) is found at one place, and the path below it (two bends, longer) when the mesh and the points
are moved by `(100, 0)`. -/
theorem C65_scale_counterexample :
    hookMesh.pathOnLayers allBvh ratHeap ⟨true⟩ (Coords.onMesh (v2 (-3) 0)) (Coords.onMesh (v2 (7/2) 3)) [] =
      .ok (some ⟨2378379/125000, [⟨-1,1⟩, ⟨1,1⟩, ⟨3,0⟩, ⟨7/2,3⟩], [(⟨-1,1⟩,0), (⟨1,1⟩,0), (⟨3,0⟩,0), (⟨7/2,3⟩,0)]⟩) ∧
    (hookMesh.moved (v2 100 0)).pathOnLayers allBvh ratHeap ⟨true⟩ (Coords.onMesh (v2 97 0))
      (Coords.onMesh (v2 (207/2) 3)) [] =
      .ok (some ⟨5763331/250000, [⟨100,-3⟩, ⟨103,0⟩, ⟨207/2,3⟩], [(⟨100,-3⟩,0), (⟨103,0⟩,0), (⟨207/2,3⟩,0)]⟩) := by
  constructor
  · decide +kernel
  · decide +kernel

end Polyanya
