import Verif.Proofs.Turned
import Verif.Proofs.Locate
import Verif.Props.Moved
import Verif.Props.Reach
import Verif.Props.Finder
/-
C86: turning every layer and the query points about the origin turns the paths, and changes nothing else.
-/

namespace Polyanya

set_option linter.unusedSectionVars false

section
variable {K : Type} [Scalar K] {T : Vec2 K → Vec2 K} (ht : IsTurn T)
include ht

/-- C86: between the turned points, found in the same polygons, the turned mesh has the turned path: the same length,
the same bends turned by `T`; there is no path in both, or the same fault in both. -/
theorem C86_path (bk : Layer K → Option (List (Aabb K))) (bvh bvh' : Bvh K) {heap : Heap K} (hh : heap.ByCost)
    (cfg : Cfg) (m : Mesh K) (hc : cfg.detailed = true → m.UnitScale) {src dst src' dst' : Coords K} {s e : UInt32}
    (hs : Located m bvh src s) (he : Located m bvh dst e) (hs' : Located (m.turned T bk) bvh' src' s)
    (he' : Located (m.turned T bk) bvh' dst' e) (hsp : src'.pos = T src.pos) (hdp : dst'.pos = T dst.pos)
    (blocked : List UInt8) :
    (m.turned T bk).pathOnLayers bvh' heap cfg src' dst' blocked =
      (m.pathOnLayers bvh heap cfg src dst blocked).map (Option.map (Path.turned T)) := by
  refine RR.toMap ?_
  unfold Mesh.pathOnLayers
  rw [endpointPolygon_located.2 hs, endpointPolygon_located.2 he, endpointPolygon_located.2 hs',
    endpointPolygon_located.2 he', hsp, hdp]
  exact pathBetween_turned ht hc hh _ _ s e blocked

/-! ### Futures -/

def FuturePath.turned (T : Vec2 K → Vec2 K) (f : FuturePath K) : FuturePath K :=
  { src := T f.src, dst := T f.dst, instance? := f.instance?.map (Inst.turned T), endingPolygon := f.endingPolygon }

def Poll.turned (T : Vec2 K → Vec2 K) : Poll K → Poll K
  | .ready r => .ready (r.map (Path.turned T))
  | .pending w => .pending w

theorem poll_turned (bk : Layer K → Option (List (Aabb K))) (bvh bvh' : Bvh K) {heap : Heap K} (hh : heap.ByCost)
    {cfg : Cfg} {m : Mesh K} (hc : cfg.detailed = true → m.UnitScale) (f : FuturePath K)
    (hs : (m.turned T bk).getPointLocation bvh' (Coords.onMesh (T f.src)) = m.getPointLocation bvh (Coords.onMesh f.src))
    (he : (m.turned T bk).getPointLocation bvh' (Coords.onMesh (T f.dst)) = m.getPointLocation bvh (Coords.onMesh f.dst)) :
    RR (fun a b => b = (Poll.turned T a.1, FuturePath.turned T a.2)) (f.poll bvh heap cfg m)
      ((f.turned T).poll bvh' heap cfg (m.turned T bk)) := by
  unfold FuturePath.poll
  rw [show (f.turned T).instance? = f.instance?.map (Inst.turned T) from rfl]
  cases f.instance? with
  | some i =>
    refine (pollSteps_turned ht hc hh 3 i).bind ?_
    rintro ⟨r, j⟩ _ rfl
    cases r with
    | some p => exact .ok rfl
    | none => exact .ok rfl
  | none =>
    simp only [Option.map_none]
    rw [show (f.turned T).src = T f.src from rfl, show (f.turned T).dst = T f.dst from rfl, hs, he]
    refine RR.bindEq fun s => ?_
    split
    · exact .ok rfl
    refine RR.bindEq fun e => ?_
    split
    · exact .ok rfl
    rw [islandsDifferAsync_turned ht hc]
    refine RR.bindEq fun d => ?_
    split
    · exact .ok rfl
    split
    · refine .ok ?_
      simp only [Poll.turned, Option.map_some, Path.turned, distance_turned ht, List.map_cons, List.map_nil]
      split <;> rfl
    · refine (setup_turned ht hc (f.src, s) (f.dst, e) []).bind ?_
      rintro i _ rfl
      exact .ok rfl

omit ht in
/-- A future keeps its ends. -/
theorem poll_ends {bvh : Bvh K} {heap : Heap K} {cfg : Cfg} {m : Mesh K} {f g : FuturePath K} {r : Poll K}
    (h : f.poll bvh heap cfg m = .ok (r, g)) : g.src = f.src ∧ g.dst = f.dst := by
  unfold FuturePath.poll at h
  split at h
  · obtain ⟨⟨r, i⟩, -, h⟩ := bind_eq_ok.1 h
    cases r <;> (simp only [Except.ok.injEq, Prod.mk.injEq] at h; rw [← h.2]; exact ⟨rfl, rfl⟩)
  · obtain ⟨s, -, h⟩ := bind_eq_ok.1 h
    split at h
    · simp only [Except.ok.injEq, Prod.mk.injEq] at h; rw [← h.2]; exact ⟨rfl, rfl⟩
    obtain ⟨e, -, h⟩ := bind_eq_ok.1 h
    split at h
    · simp only [Except.ok.injEq, Prod.mk.injEq] at h; rw [← h.2]; exact ⟨rfl, rfl⟩
    obtain ⟨d, -, h⟩ := bind_eq_ok.1 h
    split at h
    · simp only [Except.ok.injEq, Prod.mk.injEq] at h; rw [← h.2]; exact ⟨rfl, rfl⟩
    split at h
    · simp only [Except.ok.injEq, Prod.mk.injEq] at h; rw [← h.2]; exact ⟨rfl, rfl⟩
    · obtain ⟨i, -, h⟩ := bind_eq_ok.1 h
      simp only [Except.ok.injEq, Prod.mk.injEq] at h; rw [← h.2]; exact ⟨rfl, rfl⟩

/-- C86: when the turned ends are found in the same polygons, the future for the turned points resolves, and exactly
to the turned answers. -/
theorem C86_future (bk : Layer K → Option (List (Aabb K))) (bvh bvh' : Bvh K) {heap : Heap K} (hh : heap.ByCost)
    (cfg : Cfg) (m : Mesh K) (hc : cfg.detailed = true → m.UnitScale) (src dst : Vec2 K)
    (hs : (m.turned T bk).getPointLocation bvh' (Coords.onMesh (T src)) = m.getPointLocation bvh (Coords.onMesh src))
    (he : (m.turned T bk).getPointLocation bvh' (Coords.onMesh (T dst)) = m.getPointLocation bvh (Coords.onMesh dst))
    (r' : Option (Path K)) :
    Resolves bvh' heap cfg (m.turned T bk) (Mesh.getPath (T src) (T dst)) r' ↔
      ∃ r, r' = r.map (Path.turned T) ∧ Resolves bvh heap cfg m (Mesh.getPath src dst) r := by
  have key : ∀ f : FuturePath K, f.src = src → f.dst = dst → _ := fun f h1 h2 =>
    (poll_turned ht bk bvh bvh' hh hc f (by rw [h1]; exact hs) (by rw [h2]; exact he)).toMap
  constructor
  · have : ∀ (f' : FuturePath K) (r' : Option (Path K)), Resolves bvh' heap cfg (m.turned T bk) f' r' →
        ∀ f : FuturePath K, f' = f.turned T → f.src = src → f.dst = dst →
        ∃ r, r' = r.map (Path.turned T) ∧ Resolves bvh heap cfg m f r := by
      intro f' r' hr
      induction hr with
      | @ready f' g' r' hp =>
        rintro f rfl h1 h2
        have := key f h1 h2
        rw [hp] at this
        cases hq : f.poll bvh heap cfg m with
        | error e => rw [hq] at this; cases this
        | ok x =>
          obtain ⟨p, g⟩ := x
          rw [hq] at this
          cases p with
          | pending w => cases this
          | ready r =>
            have h := congrArg Prod.fst (Except.ok.inj this)
            simp only [Poll.turned, Poll.ready.injEq] at h
            exact ⟨r, h, .ready hq⟩
      | @pending f' g' w r' hp _ ih =>
        rintro f rfl h1 h2
        have := key f h1 h2
        rw [hp] at this
        cases hq : f.poll bvh heap cfg m with
        | error e => rw [hq] at this; cases this
        | ok x =>
          obtain ⟨p, g⟩ := x
          rw [hq] at this
          cases p with
          | ready r => cases this
          | pending w' =>
            obtain ⟨h3, h4⟩ := poll_ends hq
            obtain ⟨r, h5, h6⟩ := ih g (congrArg Prod.snd (Except.ok.inj this)) (h3.trans h1) (h4.trans h2)
            exact ⟨r, h5, .pending hq h6⟩
    exact fun h => this _ _ h _ rfl rfl rfl
  · rintro ⟨r, rfl, h⟩
    have : ∀ (f : FuturePath K) (r : Option (Path K)), Resolves bvh heap cfg m f r → f.src = src → f.dst = dst →
        Resolves bvh' heap cfg (m.turned T bk) (f.turned T) (r.map (Path.turned T)) := by
      intro f r hr
      induction hr with
      | @ready f g r hp =>
        intro h1 h2
        have := key f h1 h2
        rw [hp] at this
        exact .ready this
      | @pending f g w r hp _ ih =>
        intro h1 h2
        have := key f h1 h2
        rw [hp] at this
        obtain ⟨h3, h4⟩ := poll_ends hp
        exact .pending this (ih (h3.trans h1) (h4.trans h2))
    exact this _ _ h rfl rfl

end

/-! ### Turns -/

/-- The quarter turn. -/
def quarter {K : Type} [Scalar K] (v : Vec2 K) : Vec2 K := ⟨Scalar.neg v.y, v.x⟩

/-- The turn by the angle with the cosine `c` and the sine `s`. -/
def turnBy {K : Type} [Scalar K] (c s : K) (v : Vec2 K) : Vec2 K := ⟨(c *. v.x) -. (s *. v.y), (s *. v.x) +. (c *. v.y)⟩

section
variable {F : Type} [Field F] [LinearOrder F] [Scalar F] [ExactField F]

/-- Every turn is one in exact arithmetic. -/
theorem turn_angle {c s : F} (h : c * c + s * s = 1) : IsTurn (turnBy c s) where
  add a b := by
    refine vec_ext ?_ ?_
    · change ((c *. a.x) -. (s *. a.y)) +. ((c *. b.x) -. (s *. b.y)) = (c *. (a.x +. b.x)) -. (s *. (a.y +. b.y))
      simp only [ExactField.add, ExactField.sub, ExactField.mul]; ring
    · change ((s *. a.x) +. (c *. a.y)) +. ((s *. b.x) +. (c *. b.y)) = (s *. (a.x +. b.x)) +. (c *. (a.y +. b.y))
      simp only [ExactField.add, ExactField.sub, ExactField.mul]; ring
  sub a b := by
    refine vec_ext ?_ ?_
    · change ((c *. a.x) -. (s *. a.y)) -. ((c *. b.x) -. (s *. b.y)) = (c *. (a.x -. b.x)) -. (s *. (a.y -. b.y))
      simp only [ExactField.add, ExactField.sub, ExactField.mul]; ring
    · change ((s *. a.x) +. (c *. a.y)) -. ((s *. b.x) +. (c *. b.y)) = (s *. (a.x -. b.x)) +. (c *. (a.y -. b.y))
      simp only [ExactField.add, ExactField.sub, ExactField.mul]; ring
  smul a k := by
    refine vec_ext ?_ ?_
    · change ((c *. a.x) -. (s *. a.y)) *. k = (c *. (a.x *. k)) -. (s *. (a.y *. k))
      simp only [ExactField.sub, ExactField.mul]; ring
    · change ((s *. a.x) +. (c *. a.y)) *. k = (s *. (a.x *. k)) +. (c *. (a.y *. k))
      simp only [ExactField.add, ExactField.mul]; ring
  lsmul k a := by
    refine vec_ext ?_ ?_
    · change k *. ((c *. a.x) -. (s *. a.y)) = (c *. (k *. a.x)) -. (s *. (k *. a.y))
      simp only [ExactField.sub, ExactField.mul]; ring
    · change k *. ((s *. a.x) +. (c *. a.y)) = (s *. (k *. a.x)) +. (c *. (k *. a.y))
      simp only [ExactField.add, ExactField.mul]; ring
  beq a b := by
    rw [Bool.eq_iff_iff]
    unfold Vec2.beq turnBy
    simp only [Bool.and_eq_true, ExactField.eq, ExactField.add, ExactField.sub, ExactField.mul]
    constructor
    · rintro ⟨h1, h2⟩
      constructor
      · linear_combination c * h1 + s * h2 + (b.x - a.x) * h
      · linear_combination c * h2 - s * h1 + (b.y - a.y) * h
    · rintro ⟨h1, h2⟩
      rw [h1, h2]
      exact ⟨rfl, rfl⟩
  dot a b := by
    unfold Vec2.dot turnBy
    simp only [ExactField.add, ExactField.sub, ExactField.mul]
    linear_combination (a.x * b.x + a.y * b.y) * h
  perp a b := by
    unfold Vec2.perpDot turnBy
    simp only [ExactField.add, ExactField.sub, ExactField.mul]
    linear_combination (a.x * b.y - a.y * b.x) * h

/-! The quarter turn, with infinities and NaN -/

theorem ext_neg_add (a b : Ext F) : Scalar.neg a +. Scalar.neg b = Scalar.neg (a +. b) := by
  change Ext.add (Ext.neg a) (Ext.neg b) = Ext.neg (Ext.add a b)
  cases a <;> cases b <;> simp only [Ext.add, Ext.neg, ExactField.neg, ExactField.add]
  · congr 1; ring
  · rename_i x y
    cases x <;> cases y <;> rfl

theorem ext_sub_eq (a b : Ext F) : a -. b = a +. Scalar.neg b := by
  change Ext.sub a b = Ext.add a (Ext.neg b)
  cases a <;> cases b <;> simp only [Ext.sub, Ext.add, Ext.neg, ExactField.neg, ExactField.sub, ExactField.add]
  congr 1; ring

theorem ext_neg_neg (a : Ext F) : Scalar.neg (Scalar.neg a) = a := by
  change Ext.neg (Ext.neg a) = a
  cases a <;> simp only [Ext.neg, ExactField.neg, neg_neg, Bool.not_not]

theorem ext_neg_sub (a b : Ext F) : Scalar.neg a -. Scalar.neg b = Scalar.neg (a -. b) := by
  rw [ext_sub_eq, ext_sub_eq, ext_neg_add]

theorem ext_add_comm (a b : Ext F) : a +. b = b +. a := by
  change Ext.add a b = Ext.add b a
  cases a <;> cases b <;> simp only [Ext.add, ExactField.add]
  · congr 1; ring
  · rename_i x y
    cases x <;> cases y <;> rfl

theorem ext_neg_beq (a b : Ext F) : (Scalar.neg a ==. Scalar.neg b) = (a ==. b) := by
  change Ext.beq (Ext.neg a) (Ext.neg b) = Ext.beq a b
  cases a <;> cases b <;> simp only [Ext.beq, Ext.neg]
  · rw [Bool.eq_iff_iff, ExactField.eq, ExactField.eq, ExactField.neg, ExactField.neg, neg_inj]
  · rename_i x y
    cases x <;> cases y <;> rfl

section
variable [IsStrictOrderedRing F]

theorem lit_zero' : (Scalar.lit 0 0 : F) = 0 := by rw [ExactField.lit]; norm_num

theorem ext_isZero_neg (a : Ext F) : (Ext.neg a).isZero = a.isZero := by
  cases a <;> simp only [Ext.neg, Ext.isZero]
  rw [Bool.eq_iff_iff, ExactField.eq, ExactField.eq, lit_zero', ExactField.neg, neg_eq_zero]

theorem ext_isNeg_neg (a : Ext F) (hz : a.isZero = false) (hn : a ≠ .nan) : (Ext.neg a).isNeg = !a.isNeg := by
  cases a with
  | inf n => rfl
  | nan => exact absurd rfl hn
  | fin x =>
    simp only [Ext.isZero] at hz
    have hx : x ≠ 0 := by
      intro h
      rw [Bool.eq_false_iff] at hz
      exact hz ((ExactField.eq _ _).2 (by rw [h, lit_zero']))
    simp only [Ext.neg, Ext.isNeg]
    rw [Bool.eq_iff_iff, ExactField.lt, ExactField.neg, lit_zero', Bool.not_eq_true', Bool.eq_false_iff, ne_eq,
      ExactField.lt, neg_lt_zero, not_lt]
    exact ⟨le_of_lt, fun h => lt_of_le_of_ne h (Ne.symm hx)⟩

theorem ext_neg_mul (a b : Ext F) : Scalar.neg a *. b = Scalar.neg (a *. b) := by
  change Ext.mul (Ext.neg a) b = Ext.neg (Ext.mul a b)
  by_cases ha : a = .nan
  · subst ha; cases b <;> rfl
  have key : ∀ (x y : Ext F), x ≠ .nan →
      (if (Ext.neg x).isZero || y.isZero then (Ext.nan : Ext F) else Ext.inf ((Ext.neg x).isNeg != y.isNeg)) =
        Ext.neg (if x.isZero || y.isZero then Ext.nan else Ext.inf (x.isNeg != y.isNeg)) := by
    intro x y hx
    rw [ext_isZero_neg]
    cases h1 : x.isZero with
    | true => rfl
    | false =>
      cases h2 : y.isZero with
      | true => rfl
      | false =>
        rw [ext_isNeg_neg x h1 hx]
        cases x.isNeg <;> cases y.isNeg <;> rfl
  cases a with
  | nan => exact absurd rfl ha
  | fin x =>
    cases b with
    | nan => rfl
    | fin y =>
      simp only [Ext.mul, Ext.neg, ExactField.mul, ExactField.neg]
      congr 1; ring
    | inf n => exact key (.fin x) (.inf n) ha
  | inf k =>
    cases b with
    | nan => rfl
    | fin y => exact key (.inf k) (.fin y) ha
    | inf n => exact key (.inf k) (.inf n) ha

theorem ext_mul_comm' (a b : Ext F) : a *. b = b *. a := by
  change Ext.mul a b = Ext.mul b a
  cases a <;> cases b <;> simp only [Ext.mul, ExactField.mul]
  · congr 1; ring
  all_goals
    rw [Bool.or_comm, bne_comm]

theorem ext_mul_neg (a b : Ext F) : a *. Scalar.neg b = Scalar.neg (a *. b) := by
  rw [ext_mul_comm', ext_neg_mul, ext_mul_comm']

/-- The quarter turn is one in exact arithmetic with infinities and NaN. -/
theorem turn_quarter : IsTurn (quarter (K := Ext F)) where
  add a b := vec_ext (ext_neg_add _ _) rfl
  sub a b := vec_ext (ext_neg_sub _ _) rfl
  smul a k := vec_ext (ext_neg_mul _ _) rfl
  lsmul k a := vec_ext (ext_mul_neg _ _) rfl
  beq a b := by
    unfold Vec2.beq quarter
    rw [ext_neg_beq, Bool.and_comm]
  dot a b := by
    unfold Vec2.dot quarter
    rw [ext_neg_mul, ext_mul_neg, ext_neg_neg, ext_add_comm]
  perp a b := by
    unfold Vec2.perpDot quarter
    rw [ext_neg_mul, ext_mul_neg, ext_neg_sub, ext_sub_eq, ext_sub_eq, ← ext_neg_add, ext_neg_neg, ext_add_comm]

/-- C86 in exact arithmetic with infinities and NaN, with default features: for every mesh, whatever the scales, and
the quarter turn. -/
theorem C86_quarter (bk : Layer (Ext F) → Option (List (Aabb (Ext F)))) (bvh bvh' : Bvh (Ext F)) {heap : Heap (Ext F)}
    (hh : heap.ByCost) (m : Mesh (Ext F)) {src dst src' dst' : Coords (Ext F)} {s e : UInt32}
    (hs : Located m bvh src s) (he : Located m bvh dst e) (hs' : Located (m.turned quarter bk) bvh' src' s)
    (he' : Located (m.turned quarter bk) bvh' dst' e) (hsp : src'.pos = quarter src.pos)
    (hdp : dst'.pos = quarter dst.pos) (blocked : List UInt8) :
    (m.turned quarter bk).pathOnLayers bvh' heap ⟨false⟩ src' dst' blocked =
      (m.pathOnLayers bvh heap ⟨false⟩ src dst blocked).map (Option.map (Path.turned quarter)) :=
  C86_path turn_quarter bk bvh bvh' hh ⟨false⟩ m (fun h => by cases h) hs he hs' he' hsp hdp blocked

end

/-- C86 in exact arithmetic, with default features: for every mesh, whatever the scales, and every angle. -/
theorem C86_angle {c s : F} (h : c * c + s * s = 1) (bk : Layer F → Option (List (Aabb F))) (bvh bvh' : Bvh F)
    {heap : Heap F} (hh : heap.ByCost) (m : Mesh F) {src dst src' dst' : Coords F} {i j : UInt32}
    (hs : Located m bvh src i) (he : Located m bvh dst j) (hs' : Located (m.turned (turnBy c s) bk) bvh' src' i)
    (he' : Located (m.turned (turnBy c s) bk) bvh' dst' j) (hsp : src'.pos = turnBy c s src.pos)
    (hdp : dst'.pos = turnBy c s dst.pos) (blocked : List UInt8) :
    (m.turned (turnBy c s) bk).pathOnLayers bvh' heap ⟨false⟩ src' dst' blocked =
      (m.pathOnLayers bvh heap ⟨false⟩ src dst blocked).map (Option.map (Path.turned (turnBy c s))) :=
  C86_path (turn_angle h) bk bvh bvh' hh ⟨false⟩ m (fun h => by cases h) hs he hs' he' hsp hdp blocked

end

/-! ### Point location

The boxes of `on_segment`, the bounding boxes and the eight neighbours of a point are parallel to the axes: a quarter
turn keeps them, other turns do not. -/

theorem quarter_eq : quarter (K := ℝ) = turnBy 0 1 := by
  funext v
  refine vec_ext ?_ ?_
  · change -v.y = 0 * v.x - 1 * v.y; ring
  · change v.x = 1 * v.x + 0 * v.y; ring

theorem turn_quarter_real : IsTurn (quarter (K := ℝ)) := by
  rw [quarter_eq]
  exact turn_angle (by ring)

theorem fmin_neg (a b : ℝ) : fmin (Scalar.neg a) (Scalar.neg b) = Scalar.neg (fmax a b) := by
  unfold fmin fmax
  simp only [real_neg, real_lt, neg_lt_neg_iff]
  split <;> rfl

theorem fmax_neg (a b : ℝ) : fmax (Scalar.neg a) (Scalar.neg b) = Scalar.neg (fmin a b) := by
  unfold fmin fmax
  simp only [real_neg, real_lt, neg_lt_neg_iff]
  split <;> rfl

theorem inRange_neg (a b x : ℝ) : inRange (Scalar.neg b) (Scalar.neg a) (Scalar.neg x) = inRange a b x := by
  unfold inRange
  rw [Bool.eq_iff_iff]
  simp only [Bool.and_eq_true, real_le, real_neg, neg_le_neg_iff]
  exact and_comm

theorem onSegment_quarter (p a b : Vec2 ℝ) : onSegment (quarter p) (quarter a, quarter b) = onSegment p (a, b) := by
  have h := side_turned turn_quarter_real p (a, b)
  unfold tn2 at h
  unfold onSegment
  rw [h]
  simp only [quarter, fmin_neg, fmax_neg, inRange_neg]
  rw [Bool.and_comm (inRange (fmin a.y b.y) _ _)]

theorem pointInEdges_quarter (bk : Layer ℝ → Option (List (Aabb ℝ))) (l : Layer ℝ) (pt : Vec2 ℝ) : ∀ es,
    (l.turned quarter bk).pointInEdges (quarter pt) es = l.pointInEdges pt es
  | [] => rfl
  | e :: es => by
    unfold Layer.pointInEdges
    rw [show (l.turned quarter bk).vertices.length = l.vertices.length from List.length_map _]
    split
    · rfl
    · refine RR.eq ((vert_idxUnchecked_turned turn_quarter_real l _).bind ?_)
      rintro x _ rfl
      refine (vert_idxUnchecked_turned turn_quarter_real l _).bind ?_
      rintro y _ rfl
      have h := side_turned turn_quarter_real pt (x.coords, y.coords)
      unfold tn2 at h
      simp only [Vertex.turned, h, onSegment_quarter, pointInEdges_quarter bk l pt es]
      exact RR.refl _

theorem layerHit_quarter (bk : Layer ℝ → Option (List (Aabb ℝ))) (l : Layer ℝ) (pt : Vec2 ℝ) :
    LayerHit (l.turned quarter bk) (quarter pt) ↔ LayerHit l pt := by
  have h : ∀ p, (l.turned quarter bk).pointInPolygon (quarter pt) p = l.pointInPolygon pt p := by
    intro p
    unfold Layer.pointInPolygon
    simp only [pointInEdges_quarter]
  unfold LayerHit
  simp only [h]
  rfl

theorem mem_probes (delta x y : ℝ) : (⟨x, y⟩ : Vec2 ℝ) ∈ probeOffsets delta ↔
    (x = 0 ∨ x = delta ∨ x = -delta) ∧ (y = 0 ∨ y = delta ∨ y = -delta) := by
  have h0 : (Scalar.lit 0 0 : ℝ) = 0 := by rw [real_lit]; norm_num
  unfold probeOffsets
  simp only [h0, real_neg, List.mem_cons, List.not_mem_nil, Vec2.mk.injEq, or_false]
  constructor
  · rintro (h | h | h | h | h | h | h | h | h) <;> rw [h.1, h.2] <;> simp only [true_or, or_true, and_self]
  · rintro ⟨h | h | h, k | k | k⟩ <;> rw [h, k] <;> simp only [true_or, or_true, and_self]

theorem probes_quarter (delta : ℝ) (d : Vec2 ℝ) : quarter d ∈ probeOffsets delta ↔ d ∈ probeOffsets delta := by
  obtain ⟨x, y⟩ := d
  change (⟨-y, x⟩ : Vec2 ℝ) ∈ _ ↔ _
  rw [mem_probes, mem_probes, and_comm]
  have : (-y = 0 ∨ -y = delta ∨ -y = -delta) ↔ (y = 0 ∨ y = delta ∨ y = -delta) := by
    rw [neg_eq_zero, neg_inj, neg_eq_iff_eq_neg, or_comm (a := y = -delta)]
  rw [this]

/-- C86: the quarter turn of a point is in the quarter turn of the mesh iff the point is in the mesh. -/
theorem C86_in_mesh (bk : Layer ℝ → Option (List (Aabb ℝ))) {bvh bvh' : Bvh ℝ} (hb : bvh.Complete) (hb' : bvh'.Complete)
    {m : Mesh ℝ} (hm : m.FinderOk) (hm' : (m.turned quarter bk).FinderOk) (c : Coords ℝ) :
    ∃ b, m.pointInMesh bvh c = .ok b ∧ (m.turned quarter bk).pointInMesh bvh' { c with pos := quarter c.pos } = .ok b := by
  obtain ⟨b, h1, h2⟩ := pointInMesh_iff hb hm c
  obtain ⟨b', h3, h4⟩ := pointInMesh_iff hb' hm' { c with pos := quarter c.pos }
  refine ⟨b, h1, ?_⟩
  rw [h3]
  congr 1
  rw [Bool.eq_iff_iff, h2, h4]
  have hk : ∀ (l : Layer ℝ) (d : Vec2 ℝ), LayerHit (l.turned quarter bk) (quarter c.pos - (l.turned quarter bk).offset + quarter d) ↔
      LayerHit l (c.pos - l.offset + d) := by
    intro l d
    rw [← layerHit_quarter bk l (c.pos - l.offset + d), ← turn_quarter_real.add, ← turn_quarter_real.sub]
    rfl
  have hsurj : ∀ d : Vec2 ℝ, ∃ d0, d = quarter d0 := fun d => ⟨⟨d.y, -d.x⟩, vec_ext (neg_neg d.x).symm rfl⟩
  constructor
  · rintro ⟨j, l', hl, ha, d, hd, hh⟩
    rw [show (m.turned quarter bk).layers = m.layers.map (Layer.turned quarter bk) from rfl, List.getElem?_map,
      Option.map_eq_some_iff] at hl
    obtain ⟨l, hl, rfl⟩ := hl
    obtain ⟨d0, rfl⟩ := hsurj d
    exact ⟨j, l, hl, ha, d0, (probes_quarter _ _).1 hd, (hk l d0).1 hh⟩
  · rintro ⟨j, l, hl, ha, d, hd, hh⟩
    refine ⟨j, l.turned quarter bk, ?_, ha, quarter d, (probes_quarter _ _).2 hd, (hk l d).2 hh⟩
    rw [show (m.turned quarter bk).layers = m.layers.map (Layer.turned quarter bk) from rfl, List.getElem?_map, hl]
    rfl

/-! ### Examples -/

/-- Non-vacuity of C86: the query around the corner, turned by the angle with cosine 3/5 and sine 4/5. The turned
mesh is asked with the turned points. -/
theorem C86_example : (exMesh.turned (turnBy (3/5) (4/5)) (·.baked)).pathOnLayers allBvh ratHeap ⟨true⟩
    (Coords.onMesh (v2 (1/2) (3/2))) (Coords.onMesh (v2 (-3/4) (3/2))) [] =
    .ok (some ⟨633061/500000, [⟨-1/5,7/5⟩, ⟨-3/4,3/2⟩], [(⟨-1/5,7/5⟩,0), (⟨-3/4,3/2⟩,0)]⟩) := by
  have h1 : exMesh.endpointPolygon allBvh (Coords.onMesh (v2 (3/2) (1/2))) = .ok (some 1) := by decide +kernel
  have h2 : exMesh.endpointPolygon allBvh (Coords.onMesh (v2 (3/4) (3/2))) = .ok (some 2) := by decide +kernel
  have h3 : (exMesh.turned (turnBy (3/5) (4/5)) (·.baked)).endpointPolygon allBvh (Coords.onMesh (v2 (1/2) (3/2))) =
      .ok (some 1) := by decide +kernel
  have h4 : (exMesh.turned (turnBy (3/5) (4/5)) (·.baked)).endpointPolygon allBvh (Coords.onMesh (v2 (-3/4) (3/2))) =
      .ok (some 2) := by decide +kernel
  rw [C86_path (turn_angle (F := Rat) (c := 3/5) (s := 4/5) (by norm_num)) (·.baked) allBvh allBvh (heap := ratHeap) maxHeap_byCost ⟨true⟩ exMesh
    (fun _ => exMesh_unit) (endpointPolygon_located.1 h1) (endpointPolygon_located.1 h2) (endpointPolygon_located.1 h3)
    (endpointPolygon_located.1 h4) (by decide +kernel) (by decide +kernel), exPath]
  decide +kernel

/-- Non-vacuity of C86_future: the same query as a future. -/
theorem C86_future_example (r' : Option (Path Rat)) :
    Resolves allBvh ratHeap ⟨true⟩ (exMesh.turned (turnBy (3/5) (4/5)) (·.baked))
      (Mesh.getPath (turnBy (3/5) (4/5) (v2 (3/2) (1/2))) (turnBy (3/5) (4/5) (v2 (3/4) (3/2)))) r' ↔
    ∃ r, r' = r.map (Path.turned (turnBy (3/5) (4/5))) ∧
      Resolves allBvh ratHeap ⟨true⟩ exMesh (Mesh.getPath (v2 (3/2) (1/2)) (v2 (3/4) (3/2))) r :=
  C86_future (turn_angle (F := Rat) (c := 3/5) (s := 4/5) (by norm_num)) (·.baked) allBvh allBvh (heap := ratHeap)
    maxHeap_byCost ⟨true⟩ exMesh (fun _ => exMesh_unit) _ _ (by decide +kernel) (by decide +kernel) r'

/-- The condition of C86 that the points are found in the same polygons is needed: a point `0.12` below the mesh is
not in the mesh, and its turn by the angle with cosine 3/5 and sine 4/5 is in the turned mesh, as the eight neighbours
are not turned. -/
theorem C86_location_counterexample :
    exMesh.pointInMesh allBvh (Coords.onMesh (v2 1 (-3/25))) = .ok false ∧
    (exMesh.turned (turnBy (3/5) (4/5)) (·.baked)).pointInMesh allBvh
      (Coords.onMesh (turnBy (3/5) (4/5) (v2 1 (-3/25)))) = .ok true := by
  constructor <;> decide +kernel

/-- Non-vacuity of C86_in_mesh: the unit square, and its quarter turn, which is left of the y-axis. -/
theorem C86_in_mesh_example {bvh : Bvh ℝ} (hb : bvh.Complete) : ∃ b, boxMesh.pointInMesh bvh (Coords.onMesh ⟨1 / 2, 1 / 2⟩) = .ok b ∧
    (boxMesh.turned quarter (fun _ => none)).pointInMesh bvh { Coords.onMesh ⟨1 / 2, 1 / 2⟩ with pos := quarter ⟨1 / 2, 1 / 2⟩ } =
      .ok b := by
  have hl : ∀ l ∈ boxMesh.layers, l = boxLayer := by
    intro l hl
    simpa [boxMesh, Mesh.ofLayers] using hl
  refine C86_in_mesh (fun _ => none) hb hb (m := boxMesh) ?_ ?_ (Coords.onMesh ⟨1 / 2, 1 / 2⟩)
  · intro l h
    rw [hl l h]
    exact ⟨box_findable, by simp [Layer.FinderOk, boxLayer, Layer.mk']⟩
  · intro l h
    simp only [Mesh.turned, List.mem_map] at h
    obtain ⟨l0, h0, rfl⟩ := h
    rw [hl l0 h0]
    exact ⟨⟨box_findable.1, box_findable.2, by simp [Layer.turned]⟩, by simp [Layer.FinderOk, Layer.turned]⟩

end Polyanya
