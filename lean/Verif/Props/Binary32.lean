import Verif.Props.Sane
import Verif.Proofs.Binary32
import Verif.Props.WalkableExample
import Verif.Props.Circle
/-
Properties of the program as it runs, with binary32 numbers: C70 for finite coordinates, and the counterexamples to
C06, C07, C53 and C55, which do not need exact arithmetic.
-/

namespace Polyanya

/-! ### C70 in binary32 -/

/-- A point with finite coordinates. -/
def Vec2.IsFinite (v : Vec2 B32) : Prop := B32.Finite v.x ∧ B32.Finite v.y

namespace B32

theorem sub_not_nan {x y : B32} (hx : Finite x) (hy : Finite y) : (sub x y).isNan = false := by
  rcases sub_rounded hx hy with h | ⟨-, h⟩
  · have := h.1
    revert this
    cases sub x y <;> simp [Finite, isNan]
  · rw [h]; rfl

theorem sq_nonneg {x : B32} (hx : x.isNan = false) : le (fin false 0) (mul x x) = true := by
  cases x with
  | nan => simp [isNan] at hx
  | inf a => simp [mul, le]
  | fin a m => simp only [mul, Bool.xor_self]; exact round_nonneg _ _

theorem sqrt_not_nan {x : B32} (hx : le (fin false 0) x = true) : (sqrt x).isNan = false := by
  cases x with
  | nan => simp [le] at hx
  | inf a => cases a <;> simp_all [sqrt, le, isNan]
  | fin a m =>
    have hr : ∀ N D, (round false N D).isNan = false := by
      intro N D; unfold round; simp only; split <;> rfl
    rw [nonneg_iff] at hx
    simp only [sqrt]
    split
    · rfl
    · rename_i h0
      split
      · rename_i ha
        subst ha
        simp only [signed, if_true] at hx
        omega
      · split <;> exact hr _ _

end B32

/-- The distance of two points with finite coordinates is not NaN (it can overflow to infinity). -/
theorem distance_not_nan {a b : Vec2 B32} (ha : a.IsFinite) (hb : b.IsFinite) :
    Scalar.isNan (a.distance b) = false := by
  refine B32.sqrt_not_nan ?_
  exact SignLaws.add (K := B32) _ _ (B32.sq_nonneg (B32.sub_not_nan ha.1 hb.1))
    (B32.sq_nonneg (B32.sub_not_nan ha.2 hb.2))

/-- C70 in binary32: the length of a path between points with finite coordinates is neither NaN nor negative, on
every mesh (even if its vertices are not finite). -/
theorem C70_f32 (bvh : Bvh B32) (heap : Heap B32) (cfg : Cfg) (hc : cfg.detailed = false) (m : Mesh B32)
    (src dst : Coords B32) (blocked : List UInt8) (p : Path B32) (hs : src.pos.IsFinite) (hd : dst.pos.IsFinite)
    (h : m.pathOnLayers bvh heap cfg src dst blocked = .ok (some p)) : NonNegative p.length :=
  C70_length bvh heap cfg hc m src dst blocked p (distance_not_nan hs hd) h

/-! ### Examples and counterexamples in binary32 -/

/-- The L-shaped mesh of three squares of side `c`. -/
def fMesh (c : ℚ) : Mesh B32 := Mesh.ofLayers [(Layer.mk'
  [ Vertex.new (f2 0 0) [0, u32Max], Vertex.new (f2 c 0) [0, 1, u32Max],
    Vertex.new (f2 (2 * c) 0) [1, u32Max], Vertex.new (f2 0 c) [0, 2, u32Max],
    Vertex.new (f2 c c) [0, 1, 2, u32Max], Vertex.new (f2 (2 * c) c) [1, u32Max],
    Vertex.new (f2 0 (2 * c)) [2, u32Max], Vertex.new (f2 c (2 * c)) [2, u32Max] ]
  [ Polygon.new [0, 1, 4, 3] false, Polygon.new [1, 2, 5, 4] false, Polygon.new [3, 4, 7, 6] false ]).bakePolygonFinder]

/-- Non-vacuity of C70: with squares of side 8, the path from (12, 4) to (6, 12) bends at (8, 8), and its length is
the binary32 number 10.128990173... -/
theorem C70_example : ∃ p, (fMesh 8).pathOnLayers everyIndex maxHeap ⟨false⟩ (Coords.onMesh (f2 12 4))
    (Coords.onMesh (f2 6 12)) [] = .ok (some p) ∧ p.path = [f2 8 8, f2 6 12] ∧
    p.length = B32.ofRat (1327627 / 131072) ∧ (f2 12 4).IsFinite ∧ (f2 6 12).IsFinite := by
  have h : resIs ((fMesh 8).pathOnLayers everyIndex maxHeap ⟨false⟩ (Coords.onMesh (f2 12 4))
      (Coords.onMesh (f2 6 12)) []) (fun r => match r with
        | some p => decide (p.path = [f2 8 8, f2 6 12] ∧ p.length = B32.ofRat (1327627 / 131072))
        | none => false) = true := by decide +kernel
  obtain ⟨r, h1, h2⟩ := of_resIs h
  have fin : ∀ n : Nat, n < 2 ^ 24 → B32.Finite (.fin false (n * 2 ^ 149)) := by
    intro n hn
    refine ⟨⟨n, 149, hn, rfl⟩, ?_⟩
    calc n * 2 ^ 149 < 2 ^ 24 * 2 ^ 149 := Nat.mul_lt_mul_of_pos_right hn (by positivity)
      _ = 2 ^ 173 := by rw [← pow_add]
      _ ≤ 2 ^ 277 := Nat.pow_le_pow_right (by norm_num) (by norm_num)
  cases r with
  | none => simp at h2
  | some p =>
    refine ⟨p, h1, (of_decide_eq_true h2).1, (of_decide_eq_true h2).2, ⟨?_, ?_⟩, ⟨?_, ?_⟩⟩
    · rw [show (f2 12 4).x = .fin false (12 * 2 ^ 149) from by decide +kernel]; exact fin _ (by norm_num)
    · rw [show (f2 12 4).y = .fin false (4 * 2 ^ 149) from by decide +kernel]; exact fin _ (by norm_num)
    · rw [show (f2 6 12).x = .fin false (6 * 2 ^ 149) from by decide +kernel]; exact fin _ (by norm_num)
    · rw [show (f2 6 12).y = .fin false (12 * 2 ^ 149) from by decide +kernel]; exact fin _ (by norm_num)

/-- Without finite coordinates C70 is false: for a point with a NaN coordinate and a polygon given by the caller, the
reported length is NaN. -/
theorem C70_nan : ∃ p, (fMesh 8).pathOnLayers everyIndex maxHeap ⟨false⟩ ⟨⟨.nan, f2 0 0 |>.y⟩, none, 0⟩
    ⟨f2 4 4, none, 0⟩ [] = .ok (some p) ∧ p.length = .nan := by
  have h : resIs ((fMesh 8).pathOnLayers everyIndex maxHeap ⟨false⟩ ⟨⟨.nan, f2 0 0 |>.y⟩, none, 0⟩
    ⟨f2 4 4, none, 0⟩ []) (fun r => match r with
        | some p => decide (p.length = .nan)
        | none => false) = true := by decide +kernel
  obtain ⟨r, h1, h2⟩ := of_resIs h
  cases r with
  | none => simp at h2
  | some p => exact ⟨p, h1, of_decide_eq_true h2⟩

/-- The hourglass of `C06_C07_false`, in binary32. -/
def fHourMesh : Mesh B32 := Mesh.ofLayers [Layer.mk'
  [ Vertex.new (f2 (-1/2) (-1)) [0, u32Max], Vertex.new (f2 (1/2) (-1)) [0, u32Max],
    Vertex.new (f2 (1/2) (-2/100)) [0, 1, u32Max], Vertex.new (f2 (-1/2) (-2/100)) [1, 0, u32Max],
    Vertex.new (f2 (1/2000) (-1/100)) [1, 2, u32Max], Vertex.new (f2 (-1/2000) (-1/100)) [2, 1, u32Max],
    Vertex.new (f2 (1/2) 1) [2, u32Max], Vertex.new (f2 (-1/2) 1) [2, u32Max] ]
  [ Polygon.new [0, 1, 2, 3] false, Polygon.new [3, 2, 4, 5] false, Polygon.new [5, 4, 6, 7] false ]]

/-- C06 and C07 are false of the program with binary32 numbers: the reported length of the path straight up from
(0, -0.06) to (0, 0.04) is `2^(-28)`. -/
theorem C06_C07_false_f32 : ∃ p,
    fHourMesh.path everyIndex maxHeap ⟨false⟩ (Coords.onMesh (f2 0 (-6/100))) (Coords.onMesh (f2 0 (4/100)))
      = .ok (some p) ∧ p.path = [f2 0 (4/100)] ∧ p.length = B32.ofRat (1 / 2 ^ 28) := by
  have h : resIs (fHourMesh.path everyIndex maxHeap ⟨false⟩ (Coords.onMesh (f2 0 (-6/100)))
      (Coords.onMesh (f2 0 (4/100)))) (fun r => match r with
        | some p => decide (p.path = [f2 0 (4/100)] ∧ p.length = B32.ofRat (1 / 2 ^ 28))
        | none => false) = true := by decide +kernel
  obtain ⟨r, h1, h2⟩ := of_resIs h
  cases r with
  | none => simp at h2
  | some p => exact ⟨p, h1, (of_decide_eq_true h2).1, (of_decide_eq_true h2).2⟩

/-- C53 is false of the program with binary32 numbers: in an L-shaped mesh of squares of side 3/128, the path between
two points of the mesh cuts the corner. (All coordinates are binary32 numbers; `exact` gives their values.) -/
theorem C53_false_f32 : ∃ (m : Mesh B32) (src dst : Coords B32) (start goal : Vec2 ℚ) (p : Path B32)
    (ws : List (Vec2 ℚ)), Conforming m.exact ∧ src = Coords.onMesh src.pos ∧ dst = Coords.onMesh dst.pos ∧
    src.pos.exact = start.fin ∧ dst.pos.exact = goal.fin ∧
    InPolygon m.exact 1 start ∧ InPolygon m.exact 2 goal ∧
    m.pathOnLayers everyIndex maxHeap ⟨false⟩ src dst [] = .ok (some p) ∧
    p.path.map Vec2.exact = ws.map Vec2.fin ∧ ¬ Walkable m.exact start ws := by
  have h : resIs ((fMesh (3 / 128)).pathOnLayers everyIndex maxHeap ⟨false⟩ (Coords.onMesh (f2 (9 / 256) (3 / 256)))
    (Coords.onMesh (f2 (9 / 512) (9 / 256))) [])
    (fun r => r.any (fun p => p.path = [f2 (9 / 512) (9 / 256)])) = true := by decide +kernel
  obtain ⟨r, hr, hp⟩ := of_resIs h
  cases r with
  | none => simp at hp
  | some p =>
    simp only [Option.any_some, decide_eq_true_iff] at hp
    refine ⟨fMesh (3 / 128), Coords.onMesh (f2 (9 / 256) (3 / 256)), Coords.onMesh (f2 (9 / 512) (9 / 256)),
      ⟨9 / 256, 3 / 256⟩, ⟨9 / 512, 9 / 256⟩, p, [⟨9 / 512, 9 / 256⟩], conforms_of_check (by decide +kernel), rfl, rfl,
      by decide +kernel, by decide +kernel, inPolygon_of_check (by decide +kernel),
      inPolygon_of_check (by decide +kernel), hr, ?_, ?_⟩
    · rw [hp]; decide +kernel
    intro hw
    obtain ⟨id, hin⟩ := hw (⟨9 / 256, 3 / 256⟩, ⟨9 / 512, 9 / 256⟩) (by simp [Legs]) ⟨63 / 2560, 66 / 2560⟩
      ⟨3 / 5, by norm_num, by norm_num, by simp only [along]; norm_num⟩
    have hid : id = 0 ∨ id = 1 ∨ id = 2 := by
      obtain ⟨ps, ⟨l, q, ⟨hl, hq⟩, -⟩, -⟩ := hin
      have h0 : idLayer id = 0 := by
        have := (List.getElem?_eq_some_iff.1 hl).1
        simp [Mesh.exact, fMesh, Mesh.ofLayers] at this
        exact this
      rw [h0] at hl
      have hl' : l.polygons.length = 3 := by
        simp [Mesh.exact, fMesh, Mesh.ofLayers] at hl
        rw [← hl]; rfl
      have h1 : idPolygon id < 3 := by
        have := (List.getElem?_eq_some_iff.1 hq).1
        omega
      unfold idLayer at h0
      unfold idPolygon at h1
      have h2 : id.toNat < 3 := by omega
      rcases (by omega : id.toNat = 0 ∨ id.toNat = 1 ∨ id.toNat = 2) with h | h | h
      · exact .inl (UInt32.toNat_inj.1 h)
      · exact .inr (.inl (UInt32.toNat_inj.1 h))
      · exact .inr (.inr (UInt32.toNat_inj.1 h))
    rcases hid with rfl | rfl | rfl
    · obtain ⟨ps, hps⟩ : ∃ ps, ringOf (fMesh (3 / 128)).exact 0 = some ps :=
        Option.isSome_iff_exists.1 (by decide +kernel)
      exact absurd ((inPolygon_iff_check hps).1 hin) (by decide +kernel)
    · obtain ⟨ps, hps⟩ : ∃ ps, ringOf (fMesh (3 / 128)).exact 1 = some ps :=
        Option.isSome_iff_exists.1 (by decide +kernel)
      exact absurd ((inPolygon_iff_check hps).1 hin) (by decide +kernel)
    · obtain ⟨ps, hps⟩ : ∃ ps, ringOf (fMesh (3 / 128)).exact 2 = some ps :=
        Option.isSome_iff_exists.1 (by decide +kernel)
      exact absurd ((inPolygon_iff_check hps).1 hin) (by decide +kernel)

/-- The mesh of `C55_false`, in binary32. -/
def fCircMesh : Mesh B32 := Mesh.ofLayers [(Layer.mk'
  [ Vertex.new (f2 0 0) [0, u32Max], Vertex.new (f2 8 0) [0, 1, u32Max], Vertex.new (f2 16 0) [1, 4, 5, u32Max],
    Vertex.new (f2 24 0) [4, 5, u32Max], Vertex.new (f2 0 8) [0, 3, u32Max], Vertex.new (f2 8 8) [0, 1, 2, 3],
    Vertex.new (f2 16 8) [1, 2, 4, u32Max], Vertex.new (f2 24 8) [4, u32Max], Vertex.new (f2 0 16) [3, u32Max],
    Vertex.new (f2 8 16) [2, 3, u32Max], Vertex.new (f2 16 16) [2, u32Max], Vertex.new (f2 16 (-8)) [5, 6, u32Max],
    Vertex.new (f2 24 (-8)) [5, 6, u32Max], Vertex.new (f2 16 (-16)) [6, u32Max],
    Vertex.new (f2 24 (-16)) [6, u32Max] ]
  [ Polygon.new [0, 1, 5, 4] false, Polygon.new [1, 2, 6, 5] false, Polygon.new [5, 6, 10, 9] false,
    Polygon.new [4, 5, 9, 8] false, Polygon.new [2, 3, 7, 6] false, Polygon.new [11, 12, 3, 2] false,
    Polygon.new [13, 14, 12, 11] false ]).bakePolygonFinder]

/-- C55 is false of the program with binary32 numbers: there is a walk from (8, 8) to (20, -12), but `path` returns
nothing. -/
theorem C55_false_f32 : Conforming fCircMesh.exact ∧
    Walk fCircMesh.exact 0 ⟨8, 8⟩ 6 ⟨20, -12⟩ [⟨16, 0⟩, ⟨20, -12⟩] ∧
    (f2 8 8).exact = (⟨8, 8⟩ : Vec2 ℚ).fin ∧ (f2 20 (-12)).exact = (⟨20, -12⟩ : Vec2 ℚ).fin ∧
    Located fCircMesh everyIndex (Coords.onMesh (f2 8 8)) 0 ∧
    Located fCircMesh everyIndex (Coords.onMesh (f2 20 (-12))) 6 ∧
    fCircMesh.path everyIndex maxHeap ⟨false⟩ (Coords.onMesh (f2 8 8)) (Coords.onMesh (f2 20 (-12))) = .ok none := by
  refine ⟨conforms_of_check (by decide +kernel), ?_, by decide +kernel, by decide +kernel,
    endpointPolygon_located.1 (by decide +kernel), endpointPolygon_located.1 (by decide +kernel), ?_⟩
  · refine .cons (s' := 1) (straight_of_check (cs := [(⟨0, 1, 1, 5⟩, 1, 0)]) (by decide +kernel))
      (.cons (s' := 6) (straight_of_check (cs := [(⟨1, 4, 2, 6⟩, 0, 0), (⟨4, 5, 2, 3⟩, 0, 0),
        (⟨5, 6, 11, 12⟩, 1 / 3, 2 / 3)]) (by decide +kernel)) (.nil (inPolygon_of_check (by decide +kernel))))
  · have h : resIs (fCircMesh.path everyIndex maxHeap ⟨false⟩ (Coords.onMesh (f2 8 8))
      (Coords.onMesh (f2 20 (-12)))) (fun r => r.isNone) = true := by decide +kernel
    obtain ⟨r, hr, hn⟩ := of_resIs h
    rw [hr, Option.isNone_iff_eq_none.1 hn]

end Polyanya
