import Verif.Proofs.Accuracy32
import Verif.Proofs.Found
import Verif.Props.Sorted
/-
C75: accuracy of the reported length with binary32 numbers.
-/

namespace Polyanya

open B32

/-- C75, one distance: if the computed distance of two points with finite coordinates is finite, it is the exact distance
up to rounding. -/
theorem C75_distance {a b : Vec2 B32} (ha : a.IsFinite) (hb : b.IsFinite) (h : Finite (a.distance b)) :
    Accurate 1 (a.distance b) (dist2 a.toReal b.toReal) := by
  have h1 := within_distance ha.canon hb.canon h
  refine Within.accurate (k := 1) ?_ (dist2_nonneg _ _) (by norm_num)
  obtain ⟨l, r⟩ := h1
  have hd := dist2_nonneg a.toReal b.toReal
  constructor
  · refine le_trans ?_ l
    have : (1 - (2⁻¹ : ℝ) ^ 24) ^ (1 + 3) ≤ (1 - 2⁻¹ ^ 24) ^ 3 :=
      pow_le_pow_of_le_one (by norm_num) (by norm_num) (by norm_num)
    have := mul_le_mul_of_nonneg_right this hd
    linarith
  · refine le_trans r ?_
    exact mul_le_mul_of_nonneg_right (pow_le_pow_right₀ (by norm_num) (by norm_num)) (by positivity)

theorem val_of_eq {x y : B32} (h : B32.eq x y = true) : val x = val y := by
  cases x <;> cases y <;> simp only [B32.eq, decide_eq_true_eq, Bool.false_eq_true] at h <;> try rfl
  rw [val_fin, val_fin, h]

theorem real_of_beq {a b : Vec2 B32} (h : a.beq b = true) : a.toReal = b.toReal := by
  simp only [Vec2.beq, Bool.and_eq_true] at h
  have h1 := val_of_eq h.1
  have h2 := val_of_eq h.2
  simp [Vec2.toReal, h1, h2]

theorem canon_vadd (a b : Vec2 B32) : (a + b).IsCanon := ⟨canon_add _ _, canon_add _ _⟩

theorem onEdge_canon {A B x : Vec2 B32} (hA : A.IsCanon) (hB : B.IsCanon) (h : OnEdge A B x) : x.IsCanon := by
  cases h with
  | left => exact hA
  | right => exact hB
  | between => exact canon_vadd _ _

theorem canon_distance (a b : Vec2 B32) : Canon (a.distance b) := canon_sqrt (canon_add _ _)

theorem val_nonneg_of_le {x : B32} (h : (Scalar.lit 0 0 <=. x) = true) : 0 ≤ val x := by
  cases x with
  | nan => simp [val]
  | inf a => simp [val]
  | fin a m =>
    have h1 : 0 ≤ signed a m := (nonneg_iff a m).1 h
    rw [val_fin]
    have : (0 : ℚ) ≤ (signed a m : Int) := by exact_mod_cast h1
    positivity

/-- All numbers of a node are numbers of the format. -/
structure NodeCanon (n : SearchNode B32) : Prop where
  root : n.root.IsCanon
  left : n.interval.1.IsCanon
  right : n.interval.2.IsCanon
  dist : Canon n.distanceStartToRoot
  heur : Canon n.heuristic

theorem canon_heuristic (root goal : Vec2 B32) (i : Vec2 B32 × Vec2 B32) : Canon (heuristic root goal i) := by
  unfold heuristic
  simp only
  split
  · exact canon_distance _ _
  · split
    · exact canon_add _ _
    · split
      · exact canon_add _ _
      · exact canon_distance _ _

theorem added_canon {q : Query B32} {root : Vec2 B32} {o : UInt32} {start stop : Vec2 B32 × UInt32}
    {node n : SearchNode B32} (h : Added q root o start stop node n) (hd : Canon node.distanceStartToRoot)
    (hr : root.IsCanon) (h1 : start.1.IsCanon) (h2 : stop.1.IsCanon) : NodeCanon n := by
  obtain ⟨newF, hh, hf, hhe, -, -, rfl⟩ := h
  refine ⟨hr, h1, h2, ?_, ?_⟩
  · simp only [mkNode]
    unfold newDistance at hf
    split at hf
    · simp only [Except.ok.injEq] at hf; exact hf ▸ hd
    · split at hf
      · simp only [bind_eq_ok, Except.ok.injEq] at hf
        obtain ⟨l, -, rfl⟩ := hf
        exact canon_add _ _
      · simp only [Except.ok.injEq] at hf
        subst hf
        exact canon_add _ _
  · simp only [mkNode]
    unfold newHeuristic at hhe
    split at hhe
    · simp only [bind_eq_ok, Except.ok.injEq] at hhe
      obtain ⟨l0, -, l1, -, rfl⟩ := hhe
      exact canon_heuristic _ _ _
    · simp only [Except.ok.injEq] at hhe
      subst hhe
      exact canon_heuristic _ _ _

theorem canon_zero : Canon (Scalar.lit 0 0 : B32) := by
  intro a m _; exact (nearest_zero false).1

theorem gen_canon {q : Query B32} (hs : q.src.1.IsFinite) {n : SearchNode B32} (h : Gen q n) : NodeCanon n := by
  induction h with
  | setup h =>
    obtain ⟨_, _, _, _, _, _, -, -, -, -, -, -, -, -, hA⟩ := h.ex
    exact added_canon hA canon_zero hs.canon (canon_vadd _ _) (canon_vadd _ _)
  | @child node n _ h ih =>
    obtain ⟨layer, succs, s, start, stop, root, -, -, he, hm, -, -, -, -, -, -, hr, -, hA⟩ := h.ex
    obtain ⟨_, _, -, -, hon⟩ := edgesBetween_on he
    obtain ⟨-, va, vb, -, -, ho1, ho2⟩ := hon s hm
    have hroot : root.IsCanon := by
      unfold successorRoot at hr
      split at hr
      · split at hr
        · simp at hr
        · simp only [bind_eq_ok, idx_eq_ok] at hr
          obtain ⟨_, -, _, -, hr⟩ := hr
          split at hr
          · simp only [Except.ok.injEq, Option.some.injEq] at hr; exact hr ▸ ih.left
          · simp at hr
      · simp only [Except.ok.injEq, Option.some.injEq] at hr; exact hr ▸ ih.root
      · split at hr
        · simp at hr
        · simp only [bind_eq_ok, idx_eq_ok] at hr
          obtain ⟨_, -, _, -, hr⟩ := hr
          split at hr
          · simp only [Except.ok.injEq, Option.some.injEq] at hr; exact hr ▸ ih.right
          · simp at hr
    exact added_canon hA ih.dist hroot (onEdge_canon (canon_vadd _ _) (canon_vadd _ _) ho1)
      (onEdge_canon (canon_vadd _ _) (canon_vadd _ _) ho2)

/-- The known part of a node is the exact length of its polyline, up to rounding. -/
def NodeAccurate (src : Vec2 B32) (n : SearchNode B32) : Prop :=
  ((src :: n.path).getLast (by simp)).toReal = n.root.toReal ∧
  (Finite n.distanceStartToRoot → Within (n.path.length + 3) n.path.length (val n.distanceStartToRoot)
    (polyLen (src.toReal :: n.path.map Vec2.toReal)))

theorem getLast_map_real (src : Vec2 B32) (l : List (Vec2 B32)) :
    (src.toReal :: l.map Vec2.toReal).getLast (by simp) = ((src :: l).getLast (by simp)).toReal := by
  have : src.toReal :: l.map Vec2.toReal = (src :: l).map Vec2.toReal := rfl
  simp only [this, List.getLast_map]

theorem added_accurate {q : Query B32} (hc : q.cfg.detailed = false) {root : Vec2 B32} {o : UInt32}
    {start stop : Vec2 B32 × UInt32} {node n : SearchNode B32} (h : Added q root o start stop node n)
    (hcn : Canon node.distanceStartToRoot) (hr : root.IsCanon) (hnr : node.root.IsCanon)
    (h0 : NonNegative node.distanceStartToRoot) (ha : NodeAccurate q.src.1 node) : NodeAccurate q.src.1 n := by
  obtain ⟨newF, hh, hf, -, hn, -, rfl⟩ := h
  simp only [newDistance, hc, Bool.false_eq_true, if_false] at hf
  simp only [NodeAccurate, mkNode]
  split at hf
  · rename_i hb
    simp only [Except.ok.injEq] at hf
    simp only [hb, if_true]
    refine ⟨by rw [ha.1, real_of_beq hb], ?_⟩
    rw [← hf]
    exact ha.2
  · rename_i hb
    simp only [Except.ok.injEq] at hf
    simp only [hb]
    refine ⟨by simp, ?_⟩
    intro hfin
    rw [← hf] at hfin ⊢
    obtain ⟨f1, f2⟩ := finite_of_add hcn (canon_distance _ _) hfin
    have hw := ha.2 f1
    have hl := within_distance hnr hr f2
    have hd0 : 0 ≤ val (node.root.distance root) := by
      refine val_nonneg_of_le (distance_nonneg _ _ ?_).2
      revert f2
      generalize node.root.distance root = d
      intro f2
      cases d <;> first | exact f2.elim | rfl
    have := hw.add hl (by omega) (dist2_nonneg _ _) hcn (canon_distance _ _) (val_nonneg_of_le h0.2) hd0 hfin
    have e := polyLen_snoc q.src.1.toReal (node.path.map Vec2.toReal) root.toReal
    rw [getLast_map_real, ha.1] at e
    have e2 : q.src.1.toReal :: (node.path ++ [root]).map Vec2.toReal =
        (q.src.1.toReal :: node.path.map Vec2.toReal) ++ [root.toReal] := by simp
    have e3 : (node.path ++ [root]).length = node.path.length + 1 := by simp
    simp only [Bool.false_eq_true, if_false]
    rw [e2, e, e3, show node.path.length + 1 + 3 = node.path.length + 3 + 1 from by omega]
    exact this

theorem gen_accurate {q : Query B32} (hc : q.cfg.detailed = false) (hs : q.src.1.IsFinite) {n : SearchNode B32}
    (h : Gen q n) : NodeAccurate q.src.1 n := by
  induction h with
  | setup h =>
    obtain ⟨_, _, _, _, _, _, -, -, -, -, -, -, -, -, hA⟩ := h.ex
    refine added_accurate hc hA canon_zero hs.canon hs.canon zero_nonNegative ⟨rfl, fun _ => ?_⟩
    have : Within 3 0 (0 : ℝ) 0 := within_zero
    simpa [emptyNode, polyLen, Scalar.lit, B32.lit, val] using this
  | @child node n hg h ih =>
    have hcanon := gen_canon hs hg
    have hchild := gen_canon hs (Gen.child hg h)
    obtain ⟨layer, succs, s, start, stop, root, -, -, he, hm, -, -, -, -, -, -, hr, -, hA⟩ := h.ex
    have hroot : n.root = root := (added_fields hA).2.2.2.2.2
    exact added_accurate hc hA hcanon.dist (hroot ▸ hchild.root) hcanon.root (gen_sane hg).1 ih

/-- The exact length of the part of the path before its last leg is not more than what is reported, up to rounding. -/
theorem foundBy_bends {q : Query B32} (hc : q.cfg.detailed = false) (hs : q.src.1.IsFinite) {p : Path B32}
    (h : FoundBy q p) (hl : Finite p.length) :
    ∃ bends tail, p.path = bends ++ tail ∧ tail.length ≤ 2 ∧ tail.getLast? = some q.dst.1 ∧
      polyLen (q.src.1.toReal :: bends.map Vec2.toReal) ≤ val p.length +
        ((p.path.length + 3) * 2⁻¹ ^ 23 * polyLen (q.src.1.toReal :: bends.map Vec2.toReal) + p.path.length * 2⁻¹ ^ 72) := by
  obtain ⟨inst, n, hi, hg, hto, hp⟩ := h
  obtain ⟨hsh, hlen, -⟩ := foundPath_shape hp
  obtain ⟨extra, he, hel, -⟩ := pathEnd_shape inst n
  have htail : (pathEnd inst n).map (·.1) = extra ++ [q.dst.1] := by
    rw [he, ← hi.goal]; simp [Function.comp_def]
  rw [htail] at hsh
  refine ⟨n.path, extra ++ [q.dst.1], hsh, by simp; omega, by simp, ?_⟩
  have hcan := gen_canon hs hg
  rw [(hlen hc).1] at hl ⊢
  obtain ⟨f1, f2⟩ := finite_of_add hcan.dist hcan.heur hl
  have hw := (gen_accurate hc hs hg).2 f1
  have hsane := gen_sane hg
  have hd0 : (0 : ℝ) ≤ val n.distanceStartToRoot := by exact_mod_cast val_nonneg_of_le hsane.1.2
  have hh0 : (0 : ℝ) ≤ val n.heuristic := by exact_mod_cast val_nonneg_of_le hsane.2.2
  have es := add_error hcan.dist hcan.heur hl
  obtain ⟨s1, -⟩ := between_of_error (e := 0) (by rw [add_zero]; exact es) (add_nonneg hd0 hh0)
  have hplen : n.path.length + 1 ≤ p.path.length := by rw [hsh]; simp
  obtain ⟨y, hy⟩ : ∃ y, y = polyLen (q.src.1.toReal :: n.path.map Vec2.toReal) := ⟨_, rfl⟩
  have hy0 : 0 ≤ y := by rw [hy]; exact polyLen_nonneg _
  rw [← hy] at hw ⊢
  obtain ⟨w1, -⟩ := hw
  have hplr : ((n.path.length : ℝ) + 1) ≤ p.path.length := by exact_mod_cast hplen
  change y ≤ ((val (add n.distanceStartToRoot n.heuristic) : ℚ) : ℝ) + _
  have hu0 : (0 : ℝ) ≤ 2⁻¹ ^ 24 := by positivity
  have hu1 : (2⁻¹ : ℝ) ^ 24 ≤ 1 := pow_le_one₀ (by norm_num) (by norm_num)
  have b2 : 1 - ((n.path.length + 4 : Nat) : ℝ) * 2⁻¹ ^ 24 ≤ (1 - 2⁻¹ ^ 24) ^ (n.path.length + 4) := by
    have := one_add_mul_le_pow (a := (-(2⁻¹ : ℝ) ^ 24)) (by norm_num) (n.path.length + 4)
    rw [← sub_eq_add_neg] at this
    refine le_trans (le_of_eq ?_) this
    ring
  have hτ0 : (0 : ℝ) ≤ 2⁻¹ ^ 74 := by positivity
  have e1 : (2⁻¹ : ℝ) ^ 23 = 2 * 2⁻¹ ^ 24 := by norm_num
  have e2 : (2⁻¹ : ℝ) ^ 72 = 4 * 2⁻¹ ^ 74 := by norm_num
  rw [e1, e2]
  clear es e1 e2 hy
  rw [sub_zero] at s1
  generalize ((val (add n.distanceStartToRoot n.heuristic) : ℚ) : ℝ) = L at *
  push_cast at b2
  generalize (2⁻¹ : ℝ) ^ 24 = u at *
  generalize (2⁻¹ : ℝ) ^ 74 = τ at *
  have t1 : (1 - u) ^ (n.path.length + 4) * y - n.path.length * τ ≤ L := by
    have t2 := mul_le_mul_of_nonneg_left
      (show (1 - u) ^ (n.path.length + 3) * y - n.path.length * τ ≤ val n.distanceStartToRoot + val n.heuristic by linarith)
      (show 0 ≤ 1 - u by linarith)
    have e : (1 - u) * ((1 - u) ^ (n.path.length + 3) * y - n.path.length * τ) =
        (1 - u) ^ (n.path.length + 4) * y - (1 - u) * (n.path.length * τ) := by
      rw [show n.path.length + 4 = n.path.length + 3 + 1 from rfl, pow_succ _ (n.path.length + 3)]; ring
    have hnτ : (0 : ℝ) ≤ n.path.length * τ := by positivity
    have : (1 - u) * (n.path.length * τ) ≤ n.path.length * τ := by nlinarith
    linarith
  have t3 := mul_le_mul_of_nonneg_right b2 hy0
  have t4 : ((n.path.length : ℝ) + 4) * u * y ≤ (p.path.length + 3) * (2 * u) * y := by
    refine mul_le_mul_of_nonneg_right ?_ hy0
    have : (0 : ℝ) ≤ n.path.length := by positivity
    nlinarith
  have t5 : (n.path.length : ℝ) * τ ≤ p.path.length * (4 * τ) := by
    have : (0 : ℝ) ≤ n.path.length := by positivity
    nlinarith
  linarith

/-- **C75** (default features, blocking queries). The start is a point with finite coordinates and the reported length is
finite. If both points are in the same polygon, the reported length is the exact distance up to rounding. If they are
not, then the exact length of the returned polyline without its last leg (at most the last two points are missing) is,
up to rounding, at most what is reported. -/
theorem C75_length (bvh : Bvh B32) (heap : Heap B32) (cfg : Cfg) (hc : cfg.detailed = false)
    (m : Mesh B32) (src dst : Coords B32) (blocked : List UInt8) (p : Path B32)
    (hs : src.pos.IsFinite) (hd : dst.pos.IsFinite) (hl : Finite p.length)
    (h : m.pathOnLayers bvh heap cfg src dst blocked = .ok (some p)) :
    (p.path = [dst.pos] ∧ Accurate 1 p.length (dist2 src.pos.toReal dst.pos.toReal)) ∨
    ∃ bends tail, p.path = bends ++ tail ∧ tail.length ≤ 2 ∧ tail.getLast? = some dst.pos ∧
      polyLen (src.pos.toReal :: bends.map Vec2.toReal) ≤ val p.length +
        ((p.path.length + 3) * 2⁻¹ ^ 23 * polyLen (src.pos.toReal :: bends.map Vec2.toReal) +
          p.path.length * 2⁻¹ ^ 72) := by
  obtain ⟨s, e, -, -, h⟩ := pathOnLayers_some h
  rcases pathBetween_some h with ⟨-, rfl⟩ | ⟨-, hf⟩
  · exact .inl ⟨rfl, C75_distance hs hd hl⟩
  · exact .inr (foundBy_bends hc hs hf hl)

/-- **C75**, asynchronous query. -/
theorem C75_future (bvh : Bvh B32) (heap : Heap B32) (cfg : Cfg) (hc : cfg.detailed = false)
    (m : Mesh B32) (src dst : Vec2 B32) (p : Path B32) (hs : src.IsFinite) (hd : dst.IsFinite) (hl : Finite p.length)
    (h : Resolves bvh heap cfg m (Mesh.getPath src dst) (some p)) :
    (p.path = [dst] ∧ Accurate 1 p.length (dist2 src.toReal dst.toReal)) ∨
    ∃ bends tail, p.path = bends ++ tail ∧ tail.length ≤ 2 ∧ tail.getLast? = some dst ∧
      polyLen (src.toReal :: bends.map Vec2.toReal) ≤ val p.length +
        ((p.path.length + 3) * 2⁻¹ ^ 23 * polyLen (src.toReal :: bends.map Vec2.toReal) + p.path.length * 2⁻¹ ^ 72) := by
  obtain ⟨s, e, -, -, -, -, h⟩ := resolves_found h
  rcases h with ⟨-, rfl⟩ | ⟨-, hf⟩
  · exact .inl ⟨rfl, C75_distance hs hd hl⟩
  · exact .inr (foundBy_bends (q := ⟨cfg, m, (src, s), (dst, e), []⟩) hc hs hf hl)

/-! ### With `detailed-layers` -/

theorem val_mul_one {x : B32} (hx : Finite x) : val (mul x (Scalar.lit 1 0)) = val x ∧ Finite (mul x (Scalar.lit 1 0)) := by
  have h1 : Finite (Scalar.lit 1 0 : B32) := by
    rw [show (Scalar.lit 1 0 : B32) = .fin false (1 * 2 ^ 149) from by decide +kernel]
    exact ⟨⟨1, 149, by norm_num, rfl⟩, by
      rw [one_mul]; exact Nat.pow_lt_pow_right (by norm_num) (by norm_num)⟩
  have hv : val (Scalar.lit 1 0 : B32) = 1 := by decide +kernel
  have h2 := mul_rounded hx h1
  rw [hv, mul_one] at h2
  have h3 := h2.exact hx rfl
  have hf : Finite (mul x (Scalar.lit 1 0)) := by
    have hcan := canon_mul x (Scalar.lit 1 0)
    revert h3 hcan
    generalize mul x (Scalar.lit 1 0) = y
    intro h3 hcan
    cases y with
    | nan => simp [exact] at h3
    | inf a => simp [exact] at h3
    | fin a m => exact hcan a m rfl
  refine ⟨?_, hf⟩
  revert h3 hf
  generalize mul x (Scalar.lit 1 0) = y
  intro h3 hf
  cases y with
  | nan => exact hf.elim
  | inf a => exact hf.elim
  | fin a m => exact Ext.fin.inj h3

/-- The exact sum of the legs of a polyline, each between the points scaled (with rounding) by the layer of its first
point. -/
noncomputable def exactScaled (m : Mesh B32) : Vec2 B32 × UInt8 → List (Vec2 B32 × UInt8) → ℝ
  | _, [] => 0
  | cur, p :: rest =>
    dist2 (cur.1.cmul (scaleOf m cur.2)).toReal (p.1.cmul (scaleOf m cur.2)).toReal + exactScaled m p rest

theorem exactScaled_nonneg (m : Mesh B32) : ∀ (l : List (Vec2 B32 × UInt8)) (cur : Vec2 B32 × UInt8),
    0 ≤ exactScaled m cur l
  | [], _ => le_refl _
  | p :: l, cur => add_nonneg (dist2_nonneg _ _) (exactScaled_nonneg m l p)

theorem canon_cmul (a b : Vec2 B32) : (a.cmul b).IsCanon := ⟨canon_mul _ _, canon_mul _ _⟩

theorem detailedLength_canon (m : Mesh B32) : ∀ (l : List (Vec2 B32 × UInt8)) (acc : B32) (cur : Vec2 B32 × UInt8)
    (len : B32), Canon acc → detailedLength m acc cur l = .ok len → Finite len → Finite acc
  | [], acc, _, len, hc, h, hf => by
    simp only [detailedLength, Except.ok.injEq] at h
    exact h ▸ hf
  | p :: l, acc, cur, len, hc, h, hf => by
    simp only [detailedLength, bind_eq_ok] at h
    obtain ⟨lay, -, h⟩ := h
    exact (finite_of_add hc (canon_distance _ _) (detailedLength_canon m l _ p len (canon_add _ _) h hf)).1

theorem detailedLength_within (m : Mesh B32) : ∀ (l : List (Vec2 B32 × UInt8)) (acc : B32) (cur : Vec2 B32 × UInt8)
    (len : B32) (k : Nat) (y : ℝ), Canon acc → 0 ≤ val acc → Within (k + 3) k (val acc) y →
    detailedLength m acc cur l = .ok len → Finite len →
    Within (k + l.length + 3) (k + l.length) (val len) (y + exactScaled m cur l)
  | [], acc, cur, len, k, y, hc, h0, hw, h, hf => by
    simp only [detailedLength, Except.ok.injEq] at h
    subst h
    simpa [exactScaled] using hw
  | p :: l, acc, cur, len, k, y, hc, h0, hw, h, hf => by
    simp only [detailedLength, bind_eq_ok, idx_eq_ok] at h
    obtain ⟨lay, hlay, h⟩ := h
    have hsc : scaleOf m cur.2 = lay.scale := by
      unfold scaleOf; rw [hlay]; rfl
    have hfin := detailedLength_canon m l _ p len (canon_add _ _) h hf
    have hfd := (finite_of_add hc (canon_distance _ _) hfin).2
    have hl := within_distance (canon_cmul _ _) (canon_cmul _ _) hfd
    have hd0 : 0 ≤ val ((cur.1.cmul lay.scale).distance (p.1.cmul lay.scale)) := by
      refine val_nonneg_of_le (distance_nonneg _ _ ?_).2
      revert hfd
      generalize (cur.1.cmul lay.scale).distance (p.1.cmul lay.scale) = d
      intro f2
      cases d <;> first | exact f2.elim | rfl
    have hstep := hw.add hl (by omega) (dist2_nonneg _ _) hc (canon_distance _ _) h0 hd0 hfin
    have := detailedLength_within m l _ p len (k + 1) _ (canon_add _ _)
      (val_add_nonneg hc (canon_distance _ _) hfin h0 hd0)
      (by rw [show k + 1 + 3 = k + 3 + 1 from by omega]; exact hstep) h hf
    have e : y + exactScaled m cur (p :: l) =
        y + dist2 (cur.1.cmul lay.scale).toReal (p.1.cmul lay.scale).toReal + exactScaled m p l := by
      simp only [exactScaled, hsc]; ring
    rw [e]
    rw [show k + (p :: l).length + 3 = k + 1 + l.length + 3 from by simp; omega,
      show k + (p :: l).length = k + 1 + l.length from by simp; omega]
    exact this

/-- **C75** (`detailed-layers`). Between different polygons, a finite reported length is the exact length of the
polyline `path_with_layers` (each leg scaled by its layer) up to rounding. -/
theorem C75_detailed (bvh : Bvh B32) (heap : Heap B32) (cfg : Cfg) (hc : cfg.detailed = true)
    (m : Mesh B32) (src dst : Coords B32) (blocked : List UInt8) (p : Path B32)
    (hs : src.pos.IsFinite) (hd : dst.pos.IsFinite)
    (hl : Finite p.length) (hk : p.pathWithLayers.length + 3 ≤ 2 ^ 24)
    (h : m.pathOnLayers bvh heap cfg src dst blocked = .ok (some p)) :
    ∃ s e, Located m bvh src s ∧ Located m bvh dst e ∧
      (s = e → Accurate 1 p.length (dist2 src.pos.toReal dst.pos.toReal)) ∧
      (s ≠ e → ∃ i : UInt8, i.toNat = idLayer s ∧
        Accurate p.pathWithLayers.length p.length (exactScaled m (src.pos, i) p.pathWithLayers)) := by
  obtain ⟨s, e, hls, hle, h⟩ := pathOnLayers_some h
  refine ⟨s, e, endpointPolygon_located.1 hls, endpointPolygon_located.1 hle, ?_, ?_⟩
  · intro heq
    rcases pathBetween_some h with ⟨-, rfl⟩ | ⟨hne, -⟩
    · exact C75_distance hs hd hl
    · exact absurd heq hne
  · intro hne
    rcases pathBetween_some h with ⟨heq, -⟩ | ⟨-, hf⟩
    · exact absurd heq hne
    · obtain ⟨inst, n, hi, hg, hto, hp⟩ := hf
      obtain ⟨-, -, hdl⟩ := foundPath_shape hp
      have hdl := (hdl hc).1
      rw [hi.start] at hdl
      refine ⟨layerOf s, layerOf_toNat s, ?_⟩
      have := detailedLength_within m _ _ _ _ 0 0 canon_zero (val_nonneg_of_le zero_nonNegative.2)
        (by
          have : Within 3 0 (0 : ℝ) 0 := within_zero
          simpa [Scalar.lit, B32.lit, val] using this) hdl hl
      rw [zero_add, zero_add] at this
      exact this.accurate (exactScaled_nonneg _ _ _) hk

/-- Without scales, the scaled length is the length of the polyline. -/
theorem exactScaled_unit {m : Mesh B32} (hu : ∀ i, scaleOf m i = ⟨Scalar.lit 1 0, Scalar.lit 1 0⟩) :
    ∀ (l : List (Vec2 B32 × UInt8)) (cur : Vec2 B32 × UInt8), cur.1.IsFinite → (∀ w ∈ l, w.1.IsFinite) →
    exactScaled m cur l = polyLen (cur.1.toReal :: l.map (fun w => w.1.toReal))
  | [], cur, _, _ => by simp [exactScaled, polyLen]
  | p :: l, cur, hc, h => by
    have hp := h p (by simp)
    have e : ∀ v : Vec2 B32, v.IsFinite → (v.cmul ⟨Scalar.lit 1 0, Scalar.lit 1 0⟩).toReal = v.toReal := by
      intro v hv
      simp only [Vec2.toReal, Vec2.cmul]
      have h1 := (val_mul_one hv.1).1
      have h2 := (val_mul_one hv.2).1
      change (⟨((mul v.x (Scalar.lit 1 0)).val : ℝ), ((mul v.y (Scalar.lit 1 0)).val : ℝ)⟩ : Vec2 ℝ) = _
      rw [h1, h2]
    simp only [exactScaled, hu, List.map_cons, polyLen]
    rw [e _ hc, e _ hp, exactScaled_unit hu l p hp (fun w hw => h w (by simp [hw]))]

/-- **C75** (`detailed-layers`, all scales 1). The reported length is the exact length of the polyline through the points
of `path_with_layers` up to rounding. -/
theorem C75_detailed_unit (bvh : Bvh B32) (heap : Heap B32) (cfg : Cfg) (hc : cfg.detailed = true)
    (m : Mesh B32) (hu : ∀ l ∈ m.layers, l.scale = ⟨Scalar.lit 1 0, Scalar.lit 1 0⟩)
    (src dst : Coords B32) (blocked : List UInt8) (p : Path B32)
    (hs : src.pos.IsFinite) (hd : dst.pos.IsFinite) (hpts : ∀ w ∈ p.pathWithLayers, w.1.IsFinite)
    (hl : Finite p.length) (hk : p.pathWithLayers.length + 3 ≤ 2 ^ 24)
    (h : m.pathOnLayers bvh heap cfg src dst blocked = .ok (some p)) :
    Accurate p.pathWithLayers.length p.length
      (polyLen (src.pos.toReal :: p.pathWithLayers.map (fun w => w.1.toReal))) := by
  have hu' : ∀ i, scaleOf m i = ⟨Scalar.lit 1 0, Scalar.lit 1 0⟩ := by
    intro i
    unfold scaleOf
    cases hi : m.layers[i.toNat]? with
    | none => rfl
    | some l => exact hu l (List.mem_of_getElem? hi)
  obtain ⟨s, e, hls, hle, h⟩ := pathOnLayers_some h
  rcases pathBetween_some h with ⟨heq, hp⟩ | ⟨-, hf⟩
  · have e1 : p.pathWithLayers.map (fun w => w.1.toReal) = [dst.pos.toReal] ∧ p.pathWithLayers.length = 1 := by
      rw [hp, hc]; simp
    rw [e1.1, e1.2]
    have e2 : p.length = src.pos.distance dst.pos := by rw [hp]
    simp only [polyLen, add_zero]
    rw [e2] at hl ⊢
    exact C75_distance hs hd hl
  · obtain ⟨inst, n, hi, hg, hto, hp⟩ := hf
    obtain ⟨-, -, hdl⟩ := foundPath_shape hp
    have hdl := (hdl hc).1
    rw [hi.start] at hdl
    have := detailedLength_within m _ _ _ _ 0 0 canon_zero (val_nonneg_of_le zero_nonNegative.2)
      (by
        have : Within 3 0 (0 : ℝ) 0 := within_zero
        simpa [Scalar.lit, B32.lit, val] using this) hdl hl
    rw [zero_add, zero_add, exactScaled_unit hu' _ _ hs hpts] at this
    exact this.accurate (polyLen_nonneg _) hk

/-! ### Examples -/

theorem finite_of_mag {a : Bool} {m : Nat} (k e : Nat) (h : m = k * 2 ^ e) (hk : k < 2 ^ 24) (he : e ≤ 253) :
    Finite (.fin a m) := by
  refine ⟨⟨k, e, hk, h⟩, ?_⟩
  rw [h]
  calc k * 2 ^ e < 2 ^ 24 * 2 ^ e := Nat.mul_lt_mul_of_pos_right hk (by positivity)
    _ = 2 ^ (24 + e) := (pow_add _ _ _).symm
    _ ≤ 2 ^ 277 := Nat.pow_le_pow_right (by norm_num) (by omega)

theorem finite_example_length : Finite (B32.ofRat (1327627 / 131072)) := by
  rw [show B32.ofRat (1327627 / 131072) = .fin false (1327627 * 2 ^ 132) from by decide +kernel]
  exact finite_of_mag _ _ rfl (by norm_num) (by norm_num)

/-- Non-vacuity of C75: in the L-shaped mesh of squares of side 8, default features. -/
theorem C75_example : ∃ p, (fMesh 8).pathOnLayers everyIndex maxHeap ⟨false⟩ (Coords.onMesh (f2 12 4))
    (Coords.onMesh (f2 6 12)) [] = .ok (some p) ∧ p.path = [f2 8 8, f2 6 12] ∧ Finite p.length ∧
    (f2 12 4).IsFinite ∧ (f2 6 12).IsFinite := by
  obtain ⟨p, h1, h2, h3, h4, h5⟩ := C70_example
  exact ⟨p, h1, h2, by rw [h3]; exact finite_example_length, h4, h5⟩

/-- Non-vacuity of C75 with `detailed-layers`. The exact length is `√32 + √20`. -/
theorem C75_detailed_example : ∃ p, (fMesh 8).pathOnLayers everyIndex maxHeap ⟨true⟩ (Coords.onMesh (f2 12 4))
    (Coords.onMesh (f2 6 12)) [] = .ok (some p) ∧ p.pathWithLayers = [(f2 8 8, 0), (f2 6 12, 0)] ∧ Finite p.length ∧
    (∀ w ∈ p.pathWithLayers, w.1.IsFinite) ∧
    (∀ l ∈ (fMesh 8).layers, l.scale = ⟨Scalar.lit 1 0, Scalar.lit 1 0⟩) ∧
    Accurate 2 p.length (polyLen ((f2 12 4).toReal :: [(f2 8 8).toReal, (f2 6 12).toReal])) := by
  have h : resIs ((fMesh 8).pathOnLayers everyIndex maxHeap ⟨true⟩ (Coords.onMesh (f2 12 4))
      (Coords.onMesh (f2 6 12)) []) (fun r => match r with
        | some p => decide (p.pathWithLayers = [(f2 8 8, 0), (f2 6 12, 0)] ∧ p.length = B32.ofRat (1327627 / 131072))
        | none => false) = true := by decide +kernel
  obtain ⟨r, h1, h2⟩ := of_resIs h
  cases r with
  | none => simp at h2
  | some p =>
    obtain ⟨h2, h3⟩ := of_decide_eq_true h2
    obtain ⟨-, -, -, -, f1, f2'⟩ := C70_example
    have f3 : (f2 8 8).IsFinite := by
      constructor
      · rw [show (f2 8 8).x = .fin false (8 * 2 ^ 149) from by decide +kernel]
        exact finite_of_mag _ _ rfl (by norm_num) (by norm_num)
      · rw [show (f2 8 8).y = .fin false (8 * 2 ^ 149) from by decide +kernel]
        exact finite_of_mag _ _ rfl (by norm_num) (by norm_num)
    have hfin : Finite p.length := by rw [h3]; exact finite_example_length
    have hpts : ∀ w ∈ p.pathWithLayers, w.1.IsFinite := by
      rw [h2]; simp only [List.mem_cons, List.not_mem_nil, or_false, forall_eq_or_imp, forall_eq]
      exact ⟨f3, f2'⟩
    have hu : ∀ l ∈ (fMesh 8).layers, l.scale = ⟨Scalar.lit 1 0, Scalar.lit 1 0⟩ := by
      intro l hl
      simp only [fMesh, Mesh.ofLayers, List.mem_singleton] at hl
      subst hl
      rfl
    refine ⟨p, h1, h2, hfin, hpts, hu, ?_⟩
    have := C75_detailed_unit everyIndex maxHeap ⟨true⟩ rfl (fMesh 8) hu (Coords.onMesh (f2 12 4))
      (Coords.onMesh (f2 6 12)) [] p f1 f2' hpts hfin (by rw [h2]; norm_num) h1
    rw [h2] at this
    exact this

end Polyanya
