import Verif.Proofs.Moved
import Verif.Spec.Ext
import Mathlib.Tactic.Ring
import Mathlib.Tactic.NormNum
/-
Point location and futures in a mesh that is moved as a whole, and the laws of C65 in exact arithmetic.
-/

namespace Polyanya

set_option linter.unusedSectionVars false

variable {K : Type} [Scalar K]

theorem pointInEdges_moved (t : Vec2 K) (l : Layer K) (pt : Vec2 K) : ∀ es,
    (l.moved t).pointInEdges pt es = l.pointInEdges pt es
  | [] => rfl
  | e :: es => by
    unfold Layer.pointInEdges
    simp only [pointInEdges_moved t l pt es]
    rfl

theorem pointInPolygon_moved (t : Vec2 K) (l : Layer K) (pt : Vec2 K) (p : Polygon) :
    (l.moved t).pointInPolygon pt p = l.pointInPolygon pt p := by
  unfold Layer.pointInPolygon
  simp only [pointInEdges_moved]

theorem scanPolygons_moved (t : Vec2 K) (l : Layer K) (pt : Vec2 K) : ∀ (ps : List Polygon) (i : Nat),
    (l.moved t).scanPolygons pt i ps = l.scanPolygons pt i ps
  | [], _ => rfl
  | p :: ps, i => by
    unfold Layer.scanPolygons
    simp only [pointInPolygon_moved, scanPolygons_moved t l pt ps]

theorem locate_moved (t : Vec2 K) (l : Layer K) (bvh : Bvh K) (pt : Vec2 K) :
    (l.moved t).locate bvh pt = l.locate bvh pt := by
  unfold Layer.locate
  rw [show (l.moved t).baked = l.baked from rfl]
  cases l.baked with
  | none => exact scanPolygons_moved t l pt _ 0
  | some boxes =>
    simp only
    unfold Layer.locationUnitBaked
    simp only [pointInPolygon_moved]
    rfl

/-- A search that looks for the first element, through a relation that maps the results. -/
theorem findFirst_map {α β γ δ : Type} {R : α → β → Prop} {f : α → Res (Option γ)} {g : β → Res (Option δ)} (h : γ → δ)
    {l : List α} {l' : List β} (hl : List.Forall₂ R l l')
    (hfg : ∀ a b, R a b → RR (fun x y => y = x.map h) (f a) (g b)) :
    RR (fun x y => y = x.map h) (findFirst f l) (findFirst g l') := by
  induction hl with
  | nil => exact .ok rfl
  | cons hab _ ih =>
    simp only [findFirst]
    refine (hfg _ _ hab).bind ?_
    rintro x _ rfl
    cases x with
    | some c => exact .ok rfl
    | none => exact ih

theorem numbered_moved (t : Vec2 K) (m : Mesh K) :
    (m.moved t).numbered = m.numbered.map (fun il => (il.1, il.2.moved t)) := by
  unfold Mesh.numbered Mesh.moved
  simp only [List.zipIdx_map, List.map_map]
  rfl

section
variable {t : Vec2 K} (ht : Shift t)
include ht

theorem locationInLayer_moved (bvh : Bvh K) (m : Mesh K) (pos : Vec2 K) (i : UInt8) (l : Layer K) :
    (m.moved t).locationInLayer bvh (pos + t) i (l.moved t) = m.locationInLayer bvh pos i l := by
  unfold Mesh.locationInLayer Layer.getPointLocation
  simp only [locate_moved, show (l.moved t).offset = l.offset + t from rfl, ht.sub]
  rfl

theorem getPointLocation_moved (bvh : Bvh K) (m : Mesh K) (c : Coords K) :
    (m.moved t).getPointLocation bvh (c.moved t) = m.getPointLocation bvh c := by
  unfold Mesh.getPointLocation
  rw [show (c.moved t).layer = c.layer from rfl, show (c.moved t).pos = c.pos + t from rfl]
  cases c.layer with
  | some i =>
    simp only [show (m.moved t).layers[i.toNat]? = (m.layers[i.toNat]?).map (Layer.moved t) from List.getElem?_map]
    cases m.layers[i.toNat]? with
    | none => rfl
    | some l => simp only [Option.map_some, locationInLayer_moved ht]
  | none =>
    simp only [numbered_moved]
    rw [findFirst_alike (R := fun a b => b = (a.1, Layer.moved t a.2))
      (f := fun (il : UInt8 × Layer K) => do
        let r ← m.locationInLayer bvh c.pos il.1 il.2
        .ok (r.filter (· != u32Max))) (l := m.numbered)]
    · rw [List.forall₂_map_right_iff]
      exact List.forall₂_same.2 fun _ _ => rfl
    · rintro a _ rfl
      simp only [locationInLayer_moved ht]

theorem getPointLocations_moved (bvh : Bvh K) (m : Mesh K) (c : Coords K) :
    (m.moved t).getPointLocations bvh (c.moved t) = m.getPointLocations bvh c := by
  unfold Mesh.getPointLocations
  rw [show (c.moved t).layer = c.layer from rfl, show (c.moved t).pos = c.pos + t from rfl]
  cases c.layer with
  | some i =>
    simp only [show (m.moved t).layers[i.toNat]? = (m.layers[i.toNat]?).map (Layer.moved t) from List.getElem?_map]
    cases m.layers[i.toNat]? with
    | none => rfl
    | some l => simp only [Option.map_some, locationInLayer_moved ht]
  | none =>
    simp only [numbered_moved]
    have : RR (List.Forall₂ Eq) (m.numbered.mapM fun il => m.locationInLayer bvh c.pos il.1 il.2)
        ((m.numbered.map (fun il => (il.1, il.2.moved t))).mapM
          fun il => (m.moved t).locationInLayer bvh (c.pos + t) il.1 il.2) := by
      refine RR.mapM (R := fun a b => b = (a.1, Layer.moved t a.2)) ?_ ?_
      · rw [List.forall₂_map_right_iff]
        exact List.forall₂_same.2 fun _ _ => rfl
      · rintro a _ rfl
        simp only [locationInLayer_moved ht]
        exact RR.refl _
    rw [this.listEq]

theorem closestInLayer_moved {f g : Layer K → Res (Option (Vec2 K × UInt32))} (i : UInt8) (l : Layer K)
    (hfg : g (l.moved t) = f l) :
    RR (fun x y => y = x.map (Coords.moved t)) (closestInLayer f i l) (closestInLayer g i (l.moved t)) := by
  unfold closestInLayer
  rw [hfg]
  refine RR.bindEq fun r => .ok ?_
  cases r with
  | none => rfl
  | some np =>
    simp only [Option.map_some, Coords.moved, show (l.moved t).offset = l.offset + t from rfl, ht.assoc]

theorem closestLoop_moved (m : Mesh K) (layer : Option UInt8)
    {f g : Nat → Layer K → Res (Option (Vec2 K × UInt32))} (hfg : ∀ n l, g n (l.moved t) = f n l) :
    RR (fun x y => y = x.map (Coords.moved t)) (m.closestLoop layer f) ((m.moved t).closestLoop layer g) := by
  unfold Mesh.closestLoop
  cases layer with
  | some i =>
    refine (mesh_idx_moved ht m _).bind ?_
    rintro l _ ⟨rfl, -⟩
    refine findFirst_map (R := Eq) _ (List.forall₂_refl _) ?_
    rintro n _ rfl
    exact closestInLayer_moved ht i l (hfg n l)
  | none =>
    simp only [numbered_moved]
    refine findFirst_map (R := Eq) _ (List.forall₂_refl _) ?_
    rintro n _ rfl
    refine findFirst_map (R := fun a b => b = (a.1, Layer.moved t a.2)) _ ?_ ?_
    · rw [List.forall₂_map_right_iff]
      exact List.forall₂_same.2 fun _ _ => rfl
    · rintro a _ rfl
      exact closestInLayer_moved ht a.1 a.2 (hfg n a.2)

theorem getClosestPoint_moved (bvh : Bvh K) (m : Mesh K) (c : Coords K) :
    RR (fun x y => y = x.map (Coords.moved t)) (m.getClosestPoint bvh c)
      ((m.moved t).getClosestPoint bvh (c.moved t)) := by
  unfold Mesh.getClosestPoint
  refine closestLoop_moved ht m c.layer fun n l => ?_
  unfold Layer.closestInner
  simp only [locate_moved, show (l.moved t).offset = l.offset + t from rfl, show (c.moved t).pos = c.pos + t from rfl,
    ht.sub]
  rfl

theorem getClosestPointTowards_moved (bvh : Bvh K) (m : Mesh K) (c : Coords K) (w : Vec2 K) :
    RR (fun x y => y = x.map (Coords.moved t)) (m.getClosestPointTowards bvh c w)
      ((m.moved t).getClosestPointTowards bvh (c.moved t) (w + t)) := by
  unfold Mesh.getClosestPointTowards
  refine closestLoop_moved ht m c.layer fun n l => ?_
  unfold Layer.towardsInner directionTo
  simp only [locate_moved, show (l.moved t).offset = l.offset + t from rfl, show (c.moved t).pos = c.pos + t from rfl,
    ht.sub]
  rfl

theorem endpointPolygon_moved (bvh : Bvh K) (m : Mesh K) (c : Coords K) :
    (m.moved t).endpointPolygon bvh (c.moved t) = m.endpointPolygon bvh c := by
  unfold Mesh.endpointPolygon
  rw [show (c.moved t).polygonIndex = c.polygonIndex from rfl]
  split
  · rfl
  · refine RR.eq ((getClosestPoint_moved ht bvh m c).bind ?_)
    rintro r _ rfl
    cases r <;> exact .ok rfl

/-- The future, moved. -/
def FuturePath.moved (t : Vec2 K) (f : FuturePath K) : FuturePath K :=
  { src := f.src + t, dst := f.dst + t, instance? := f.instance?.map (Inst.moved t), endingPolygon := f.endingPolygon }

def Poll.moved (t : Vec2 K) : Poll K → Poll K
  | .ready r => .ready (r.map (Path.moved t))
  | .pending w => .pending w

theorem poll_moved {cfg : Cfg} {m : Mesh K} (hc : cfg.detailed = true → m.UnitScale) (bvh : Bvh K) {heap : Heap K}
    (hh : heap.ByCost) (f : FuturePath K) :
    RR (fun a b => b = (Poll.moved t a.1, FuturePath.moved t a.2)) (f.poll bvh heap cfg m)
      ((f.moved t).poll bvh heap cfg (m.moved t)) := by
  unfold FuturePath.poll
  rw [show (f.moved t).instance? = f.instance?.map (Inst.moved t) from rfl]
  cases hi : f.instance? with
  | some i =>
    simp only [Option.map_some]
    refine (pollSteps_moved ht hc hh 3 i).bind ?_
    rintro ⟨r, j⟩ _ rfl
    cases r with
    | some p => exact .ok rfl
    | none => exact .ok rfl
  | none =>
    simp only [Option.map_none]
    have h1 : ∀ p : Vec2 K, (m.moved t).getPointLocation bvh (Coords.onMesh (p + t)) =
        m.getPointLocation bvh (Coords.onMesh p) := fun p => getPointLocation_moved ht bvh m (Coords.onMesh p)
    have hf : f.moved t = { f.moved t with instance? := none } := by
      unfold FuturePath.moved
      rw [hi]
      rfl
    rw [show (f.moved t).src = f.src + t from rfl, show (f.moved t).dst = f.dst + t from rfl, h1, h1]
    refine RR.bindEq fun s => ?_
    split
    · exact .ok rfl
    refine RR.bindEq fun e => ?_
    split
    · exact .ok rfl
    rw [islandsDifferAsync_moved ht hc]
    refine RR.bindEq fun b => ?_
    split
    · exact .ok rfl
    split
    · refine .ok ?_
      rw [distance_moved ht]
      simp only [Poll.moved, Option.map_some, Path.moved, List.map_cons, List.map_nil]
      congr 4
      split <;> rfl
    refine (setup_moved ht hc (f.src, s) (f.dst, e) []).bind ?_
    rintro i _ rfl
    exact .ok rfl

end

/-! ### The laws in exact arithmetic -/

section
variable {F : Type} [Field F] [LinearOrder F] [Scalar F] [ExactField F]

theorem vec_ext {K : Type} {a b : Vec2 K} (hx : a.x = b.x) (hy : a.y = b.y) : a = b := by
  cases a; cases b; simp only at hx hy; rw [hx, hy]

theorem ext_sub_move (a b : Ext F) (t : F) : (a +. .fin t) -. (b +. .fin t) = a -. b := by
  cases a <;> cases b <;> simp only [Scalar.add, Scalar.sub, Ext.add, Ext.sub, Ext.neg]
  congr 1
  rw [ExactField.add, ExactField.add, ExactField.sub, ExactField.sub]
  ring

theorem ext_beq_move (a b : Ext F) (t : F) : ((a +. .fin t) ==. (b +. .fin t)) = (a ==. b) := by
  cases a <;> cases b <;> simp only [Scalar.add, Scalar.eq, Ext.add, Ext.beq]
  rw [Bool.eq_iff_iff, ExactField.eq, ExactField.eq, ExactField.add, ExactField.add]
  exact add_left_inj t

theorem ext_add_move (a v : Ext F) (t : F) : (a +. .fin t) +. v = (a +. v) +. .fin t := by
  cases a <;> cases v <;> simp only [Scalar.add, Ext.add]
  · congr 1
    simp only [ExactField.add]
    ring
  · split <;> rfl

theorem ext_assoc_move (a b : Ext F) (t : F) : a +. (b +. .fin t) = (a +. b) +. .fin t := by
  cases a <;> cases b <;> simp only [Scalar.add, Ext.add]
  · congr 1
    simp only [ExactField.add]
    ring
  · split <;> rfl

/-- In exact arithmetic every finite `t` loses nothing. -/
theorem shift_ext (t : Vec2 F) : Shift t.fin where
  sub a b := vec_ext (ext_sub_move _ _ _) (ext_sub_move _ _ _)
  beq a b := by
    have hx := ext_beq_move a.x b.x t.x
    have hy := ext_beq_move a.y b.y t.y
    change ((a.x +. .fin t.x ==. b.x +. .fin t.x) && (a.y +. .fin t.y ==. b.y +. .fin t.y)) = _
    rw [hx, hy]
    rfl
  add a v := vec_ext (ext_add_move _ _ _) (ext_add_move _ _ _)
  assoc a b := vec_ext (ext_assoc_move _ _ _) (ext_assoc_move _ _ _)

theorem ext_mul_one [IsStrictOrderedRing F] (a : Ext F) : a *. Scalar.lit 1 0 = a := by
  have h1 : (Scalar.lit 1 0 : F) = 1 := by rw [ExactField.lit]; norm_num
  have h0 : (Scalar.lit 0 0 : F) = 0 := by rw [ExactField.lit]; norm_num
  have hz : Ext.isZero (.fin (1 : F)) = false := by
    unfold Ext.isZero
    rw [h0, Bool.eq_false_iff]
    intro h
    rw [ExactField.eq] at h
    exact one_ne_zero h
  have hn : Ext.isNeg (.fin (1 : F)) = false := by
    unfold Ext.isNeg
    rw [h0, Bool.eq_false_iff]
    intro h
    rw [ExactField.lt] at h
    exact absurd h (not_lt.2 zero_le_one)
  change Ext.mul a (.fin (Scalar.lit 1 0)) = a
  rw [h1]
  cases a with
  | fin x =>
    change Ext.fin (x *. 1) = _
    rw [ExactField.mul, mul_one]
  | nan => rfl
  | inf b =>
    change (if (Ext.isZero (.inf b : Ext F) || Ext.isZero (.fin (1 : F))) then Ext.nan
      else Ext.inf (Ext.isNeg (.inf b : Ext F) != Ext.isNeg (.fin (1 : F)))) = _
    rw [hz, hn, show Ext.isZero (.inf b : Ext F) = false from rfl]
    change Ext.inf (b != false) = _
    cases b <;> rfl

/-- In exact arithmetic scaling by the default scale changes no point. -/
theorem unitScale_ext [IsStrictOrderedRing F] {m : Mesh (Ext F)} (h : ∀ l ∈ m.layers, l.scale = Vec2.one) :
    m.UnitScale := ⟨h, fun _ => vec_ext (ext_mul_one _) (ext_mul_one _)⟩

end

end Polyanya
