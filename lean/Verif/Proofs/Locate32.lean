import Verif.Proofs.Exact32
import Verif.Spec.Grid32
/-
Point location in binary32, for coordinates on a grid: all intermediate results are exact.
-/

namespace Polyanya

/-- A unit of at least 1/64 (and at most 2^52), and coordinates of at most 1024 units. -/
structure GoodUnit (k : Nat) : Prop where
  lower : 143 ≤ k
  upper : k ≤ 201

namespace B32

theorem Mult.of {k : Nat} {x : B32} {z : Int} (h : B32.exact x = Ext.fin ((z : ℚ) * 2 ^ k / 2 ^ 149)) : Mult k x z := h

theorem exact_eps : ∃ e : ℚ, (epsilon : B32).exact = Ext.fin e ∧ 0 < e ∧ e ≤ 1 / 4096 := by
  refine ⟨val (epsilon : B32), ?_, ?_, ?_⟩
  · have h : (match (epsilon : B32) with | fin _ _ => true | _ => false) = true := by decide +kernel
    revert h
    cases (epsilon : B32) <;> simp [exact_fin]
  · decide +kernel
  · decide +kernel

end B32

open B32

/-- The signed area computed in binary32 is exact. -/
theorem perp_mult {k j : Nat} (hk : k ≤ 253) (hj : j ≤ 253) (hkj : k + k = 149 + j) {ax ay bx by' px py : B32}
    {zax zay zbx zby zpx zpy : Int}
    (h1 : Mult k ax zax) (h2 : Mult k ay zay) (h3 : Mult k bx zbx) (h4 : Mult k by' zby) (h5 : Mult k px zpx)
    (h6 : Mult k py zpy)
    (b1 : zax.natAbs ≤ 1024) (b2 : zay.natAbs ≤ 1024) (b3 : zbx.natAbs ≤ 1024) (b4 : zby.natAbs ≤ 1024)
    (b5 : zpx.natAbs ≤ 2048) (b6 : zpy.natAbs ≤ 2048) :
    Mult j (Vec2.perpDot ((⟨bx, by'⟩ : Vec2 B32) - ⟨ax, ay⟩) ((⟨px, py⟩ : Vec2 B32) - ⟨ax, ay⟩))
      ((zbx - zax) * (zpy - zay) - (zby - zay) * (zpx - zax)) := by
  have e1 := sub_mult hk h3 h1 (by omega) (by omega) (by omega)
  have e2 := sub_mult hk h4 h2 (by omega) (by omega) (by omega)
  have e3 := sub_mult hk h5 h1 (by omega) (by omega) (by omega)
  have e4 := sub_mult hk h6 h2 (by omega) (by omega) (by omega)
  have m1 : ((zbx - zax) * (zpy - zay)).natAbs ≤ 2048 * 3072 := by
    rw [Int.natAbs_mul]; exact Nat.mul_le_mul (by omega) (by omega)
  have m2 : ((zby - zay) * (zpx - zax)).natAbs ≤ 2048 * 3072 := by
    rw [Int.natAbs_mul]; exact Nat.mul_le_mul (by omega) (by omega)
  have e5 := mul_mult hk hj hkj e1 e4 (by omega) (by omega) (by omega)
  have e6 := mul_mult hk hj hkj e2 e3 (by omega) (by omega) (by omega)
  exact sub_mult hj e5 e6 (by omega) (by omega) (by omega)

theorem onGrid_fin {k n : Nat} {v : Vec2 B32} (h : v.OnGrid k n) : ∃ p : Vec2 ℚ, v.exact = p.fin := by
  obtain ⟨⟨z, -, hx⟩, ⟨w, -, hy⟩⟩ := h
  exact ⟨⟨_, _⟩, by unfold Vec2.exact Vec2.fin; rw [hx, hy]⟩

/-- `side` gives in binary32 what it gives in exact arithmetic. -/
theorem side_exact {k : Nat} (hk : GoodUnit k) {a b p : Vec2 B32} (ha : a.OnGrid k 1024) (hb : b.OnGrid k 1024)
    (hp : p.OnGrid k 2048) : side p.exact (a.exact, b.exact) = side p (a, b) := by
  obtain ⟨⟨zax, b1, h1⟩, zay, b2, h2⟩ := ha
  obtain ⟨⟨zbx, b3, h3⟩, zby, b4, h4⟩ := hb
  obtain ⟨⟨zpx, b5, h5⟩, zpy, b6, h6⟩ := hp
  have hl := hk.lower
  have hu := hk.upper
  obtain ⟨j, hkj⟩ : ∃ j, k + k = 149 + j := ⟨k + k - 149, by omega⟩
  have hm := perp_mult (ax := a.x) (ay := a.y) (bx := b.x) (by' := b.y) (px := p.x) (py := p.y) (by omega)
    (by omega) hkj h1 h2 h3 h4 h5 h6 b1 b2 b3 b4 b5 b6
  set w := (zbx - zax) * (zpy - zay) - (zby - zay) * (zpx - zax) with hw
  -- the value
  have hv : tri (⟨(zax : ℚ) * 2 ^ k / 2 ^ 149, (zay : ℚ) * 2 ^ k / 2 ^ 149⟩ : Vec2 ℚ)
      ⟨(zbx : ℚ) * 2 ^ k / 2 ^ 149, (zby : ℚ) * 2 ^ k / 2 ^ 149⟩
      ⟨(zpx : ℚ) * 2 ^ k / 2 ^ 149, (zpy : ℚ) * 2 ^ k / 2 ^ 149⟩ = (w : ℚ) * 2 ^ j / 2 ^ 149 := by
    have e : (2 : ℚ) ^ k * 2 ^ k = 2 ^ 149 * 2 ^ j := by rw [← pow_add, ← pow_add, hkj]
    rw [eq_div_iff (by positivity)]
    have e' : (2 : ℚ) ^ k / 2 ^ 149 * (2 ^ k / 2 ^ 149) * 2 ^ 149 = 2 ^ j := by
      rw [div_mul_div_comm, e]; field_simp
    rw [← e', hw]
    simp only [tri]
    push_cast
    ring
  have hgap : w ≠ 0 → (1 : ℚ) / 4096 ≤ |(w : ℚ) * 2 ^ j / 2 ^ 149| := by
    intro h0
    have h1 : (1 : ℚ) ≤ |(w : ℚ)| := by
      have : (1 : Int) ≤ |w| := Int.one_le_abs h0
      exact_mod_cast this
    have h2 : (2 : ℚ) ^ 137 ≤ 2 ^ j := pow_le_pow_right₀ (by norm_num) (by omega)
    rw [abs_div, abs_mul, abs_of_pos (show (0 : ℚ) < 2 ^ j by positivity),
      abs_of_pos (show (0 : ℚ) < 2 ^ 149 by positivity), div_le_div_iff₀ (by norm_num) (by positivity)]
    nlinarith
  have hj0 : (0 : ℚ) < 2 ^ j := by positivity
  have hpos : 0 < (w : ℚ) * 2 ^ j / 2 ^ 149 ↔ 0 < w := by
    rw [div_pos_iff_of_pos_right (by positivity), mul_pos_iff_of_pos_right hj0, Int.cast_pos]
  -- binary32
  have h32 : side p (a, b) = if w = 0 then .edge else if 0 < w then .left else .right := by
    obtain ⟨e, he, he0, he1⟩ := exact_eps
    unfold side
    simp only
    have hx : B32.exact (Vec2.perpDot (b - a) (p - a)) = Ext.fin ((w : ℚ) * 2 ^ j / 2 ^ 149) := hm
    rw [← exact_lt, exact_abs, hx, he, ← exact_lt, hx, exact_zero]
    have t1 : ((Scalar.abs (Ext.fin ((w : ℚ) * 2 ^ j / 2 ^ 149)) : Ext ℚ) <. Ext.fin e) = true ↔ w = 0 := by
      change ((Ext.fin (Scalar.abs ((w : ℚ) * 2 ^ j / 2 ^ 149)) : Ext ℚ) <. Ext.fin e) = true ↔ w = 0
      rw [ext_lt, ExactField.abs]
      constructor
      · intro h
        by_contra h0
        have := hgap h0
        linarith
      · rintro h; rw [h]; simpa using he0
    have t2 : ((Scalar.lit 0 0 : Ext ℚ) <. Ext.fin ((w : ℚ) * 2 ^ j / 2 ^ 149)) = true ↔ 0 < w := by
      rw [ext_zero, ext_lt, hpos]
    simp only [t1, t2]
  rw [h32]
  have ea : a.exact = (⟨(zax : ℚ) * 2 ^ k / 2 ^ 149, (zay : ℚ) * 2 ^ k / 2 ^ 149⟩ : Vec2 ℚ).fin := by
    unfold Vec2.exact Vec2.fin; rw [h1, h2]
  have eb : b.exact = (⟨(zbx : ℚ) * 2 ^ k / 2 ^ 149, (zby : ℚ) * 2 ^ k / 2 ^ 149⟩ : Vec2 ℚ).fin := by
    unfold Vec2.exact Vec2.fin; rw [h3, h4]
  have ep : p.exact = (⟨(zpx : ℚ) * 2 ^ k / 2 ^ 149, (zpy : ℚ) * 2 ^ k / 2 ^ 149⟩ : Vec2 ℚ).fin := by
    unfold Vec2.exact Vec2.fin; rw [h5, h6]
  rw [ea, eb, ep, fin_side, hv]
  have t1 : |(w : ℚ) * 2 ^ j / 2 ^ 149| < 1 / 10000 ↔ w = 0 := by
    constructor
    · intro h
      by_contra h0
      have := hgap h0
      linarith
    · intro h; rw [h]; norm_num
  simp only [t1, hpos]

theorem onSegment_exact {k : Nat} (hk : GoodUnit k) {a b p : Vec2 B32} (ha : a.OnGrid k 1024) (hb : b.OnGrid k 1024)
    (hp : p.OnGrid k 2048) : onSegment p.exact (a.exact, b.exact) = onSegment p (a, b) := by
  unfold onSegment
  rw [side_exact hk ha hb hp]
  simp only [Vec2.exact, ← exact_fmin, ← exact_fmax, exact_inRange]

/-- A point and the vertices of a layer are on the grid. -/
structure LayerGrid (k : Nat) (l : Layer B32) : Prop where
  unit : GoodUnit k
  vertices : ∀ v ∈ l.vertices, v.coords.OnGrid k 1024

theorem pointInEdges_exact {k : Nat} {l : Layer B32} (hl : LayerGrid k l) {p : Vec2 B32} (hp : p.OnGrid k 2048) :
    ∀ es, l.exact.pointInEdges p.exact es = l.pointInEdges p es
  | [] => rfl
  | e :: es => by
    have hlen : l.exact.vertices.length = l.vertices.length := by simp [Layer.exact]
    have hget : ∀ i : Nat, l.exact.vertices[i]? = l.vertices[i]?.map Vertex.exact := by intro i; simp [Layer.exact]
    unfold Layer.pointInEdges
    rw [hlen, pointInEdges_exact hl hp es]
    split
    · rfl
    · cases h1 : l.vertices[e.1.toNat]? with
      | none =>
        unfold idxUnchecked
        rw [hget, h1]; rfl
      | some v =>
        rw [idxUnchecked_eq_ok.2 h1, idxUnchecked_eq_ok.2 (by rw [hget, h1]; rfl), res_bind_ok, res_bind_ok]
        cases h2 : l.vertices[e.2.toNat]? with
        | none =>
          unfold idxUnchecked
          rw [hget, h2]; rfl
        | some w =>
          rw [idxUnchecked_eq_ok.2 h2, idxUnchecked_eq_ok.2 (by rw [hget, h2]; rfl), res_bind_ok, res_bind_ok]
          have hv := hl.vertices v (List.mem_of_getElem? h1)
          have hw := hl.vertices w (List.mem_of_getElem? h2)
          have e1 : side p.exact (v.exact.coords, w.exact.coords) = _ := side_exact hl.unit hv hw hp
          have e2 : onSegment p.exact (v.exact.coords, w.exact.coords) = _ := onSegment_exact hl.unit hv hw hp
          simp only [e1, e2]

theorem pointInPolygon_exact {k : Nat} {l : Layer B32} (hl : LayerGrid k l) {p : Vec2 B32} (hp : p.OnGrid k 2048)
    (q : Polygon) : l.exact.pointInPolygon p.exact q = l.pointInPolygon p q := by
  unfold Layer.pointInPolygon
  cases q.edgesIndex with
  | error f => rfl
  | ok es => rw [res_bind_ok, res_bind_ok, pointInEdges_exact hl hp]

/-! ### Bounding boxes -/

theorem aabb_exact (l : Layer B32) : ∀ (vs : List UInt32) (b : Aabb B32),
    vs.foldl l.exact.aabbVertex (b.1.exact, b.2.exact) = ((vs.foldl l.aabbVertex b).1.exact,
      (vs.foldl l.aabbVertex b).2.exact)
  | [], b => rfl
  | v :: vs, b => by
    rw [List.foldl_cons, List.foldl_cons]
    have : l.exact.aabbVertex (b.1.exact, b.2.exact) v = ((l.aabbVertex b v).1.exact, (l.aabbVertex b v).2.exact) := by
      unfold Layer.aabbVertex
      have hget : l.exact.vertices[v.toNat]? = l.vertices[v.toNat]?.map Vertex.exact := by simp [Layer.exact]
      rw [hget]
      cases l.vertices[v.toNat]? with
      | none => rfl
      | some w =>
        simp only [Option.map_some, aabbStep, Vertex.exact, Vec2.exact, exact_lt]
        refine Prod.ext ?_ ?_ <;> simp only [Vec2.mk.injEq] <;> constructor <;> split <;> rfl
    rw [this]
    exact aabb_exact l vs _

theorem polygonAabb_exact (l : Layer B32) (q : Polygon) :
    l.exact.polygonAabb q = ((l.polygonAabb q).1.exact, (l.polygonAabb q).2.exact) := by
  unfold Layer.polygonAabb
  rw [← aabb_exact]
  congr 1
  simp only [Vec2.exact, exact_maxVal, Vec2.zero, exact_zero]

theorem inBox_exact {b : Aabb B32} {p : Vec2 B32} (h : InBox (b.1.exact, b.2.exact) p.exact) : InBox b p := by
  obtain ⟨h1, h2, h3, h4⟩ := h
  simp only [Vec2.exact, exact_le] at h1 h2 h3 h4
  exact ⟨h1, h2, h3, h4⟩

/-! ### Layers -/

theorem sub_onGrid {k : Nat} (hk : GoodUnit k) {p o : Vec2 B32} (hp : p.OnGrid k 1024) (ho : o.OnGrid k 1024) :
    (p - o).OnGrid k 2048 ∧ (p - o).exact = p.exact - o.exact := by
  obtain ⟨⟨zpx, b1, h1⟩, zpy, b2, h2⟩ := hp
  obtain ⟨⟨zox, b3, h3⟩, zoy, b4, h4⟩ := ho
  have hu := hk.upper
  have e1 : Mult k (p.x -. o.x) (zpx - zox) := sub_mult (by omega) h1 h3 (by omega) (by omega) (by omega)
  have e2 : Mult k (p.y -. o.y) (zpy - zoy) := sub_mult (by omega) h2 h4 (by omega) (by omega) (by omega)
  refine ⟨⟨⟨_, by omega, e1⟩, _, by omega, e2⟩, ?_⟩
  have t : ∀ (z w : Int), ((z - w : Int) : ℚ) * 2 ^ k / 2 ^ 149 = (z : ℚ) * 2 ^ k / 2 ^ 149 - w * 2 ^ k / 2 ^ 149 := by
    intro z w; push_cast; ring
  have f1 : p.exact = (⟨(zpx : ℚ) * 2 ^ k / 2 ^ 149, (zpy : ℚ) * 2 ^ k / 2 ^ 149⟩ : Vec2 ℚ).fin := by
    unfold Vec2.exact Vec2.fin; rw [h1, h2]
  have f2' : o.exact = (⟨(zox : ℚ) * 2 ^ k / 2 ^ 149, (zoy : ℚ) * 2 ^ k / 2 ^ 149⟩ : Vec2 ℚ).fin := by
    unfold Vec2.exact Vec2.fin; rw [h3, h4]
  rw [f1, f2', fin_sub]
  unfold Vec2.fin
  simp only
  rw [← t, ← t]
  exact congrArg₂ Vec2.mk e1 e2

/-- The point is a point of the grid; no corner line is nearly but not exactly met. -/
theorem sharp_exact {k : Nat} (hk : GoodUnit k) {m : Mesh B32} (hm : m.OnGrid k 1024) {p : Vec2 B32}
    (hp : p.OnGrid k 1024) {x : Vec2 ℚ} (hx : p.exact = x.fin) : Sharp m.exact x := by
  have key : ∀ (i : UInt32) (l : Layer B32) (_ : l ∈ m.layers) (X : Vec2 ℚ), VertexAt l.exact i X →
      ∃ zx zy : Int, X = ⟨(zx : ℚ) * 2 ^ k / 2 ^ 149, (zy : ℚ) * 2 ^ k / 2 ^ 149⟩ := by
    intro i l hl X hX
    obtain ⟨v, c, o, hv, hc, ho, rfl⟩ := hX.finite
    obtain ⟨hog, hvg⟩ := hm l hl
    have hget : l.exact.vertices[i.toNat]? = l.vertices[i.toNat]?.map Vertex.exact := by simp [Layer.exact]
    rw [hget, Option.map_eq_some_iff] at hv
    obtain ⟨w, hw, rfl⟩ := hv
    obtain ⟨⟨z1, -, h1⟩, z2, -, h2⟩ := hvg w (List.mem_of_getElem? hw)
    obtain ⟨⟨z3, -, h3⟩, z4, -, h4⟩ := hog
    have c1 : (⟨(z1 : ℚ) * 2 ^ k / 2 ^ 149, (z2 : ℚ) * 2 ^ k / 2 ^ 149⟩ : Vec2 ℚ) = c := by
      apply Vec2.fin_injective
      rw [← hc]
      simp only [Vertex.exact, Vec2.exact, Vec2.fin, h1, h2]
    have c2 : (⟨(z3 : ℚ) * 2 ^ k / 2 ^ 149, (z4 : ℚ) * 2 ^ k / 2 ^ 149⟩ : Vec2 ℚ) = o := by
      apply Vec2.fin_injective
      rw [← ho]
      simp only [Layer.exact, Vec2.exact, Vec2.fin, h3, h4]
    refine ⟨z1 + z3, z2 + z4, ?_⟩
    rw [← c1, ← c2]
    simp only [Vec2.mk.injEq]
    push_cast
    constructor <;> ring
  obtain ⟨⟨zx, -, h1⟩, zy, -, h2⟩ := hp
  have ex : x = ⟨(zx : ℚ) * 2 ^ k / 2 ^ 149, (zy : ℚ) * 2 ^ k / 2 ^ 149⟩ := by
    apply Vec2.fin_injective
    rw [← hx]
    simp only [Vec2.exact, Vec2.fin, h1, h2]
  rintro A B ⟨id, ps, ⟨l, q, hh, hring⟩, i, hi, hA, hB⟩ hlt
  have hl' := hh.1
  simp only [Mesh.exact, List.getElem?_map, Option.map_eq_some_iff] at hl'
  obtain ⟨l', hl', rfl⟩ := hl'
  have hmem := List.mem_of_getElem? hl'
  obtain ⟨a, -, ha⟩ := forall₂_getElem' hring hA
  obtain ⟨b, -, hb⟩ := forall₂_getElem' hring hB
  obtain ⟨z1, z2, rfl⟩ := key a l' hmem A ha
  obtain ⟨z3, z4, rfl⟩ := key b l' hmem B hb
  subst ex
  have e : tri (⟨(z1 : ℚ) * 2 ^ k / 2 ^ 149, (z2 : ℚ) * 2 ^ k / 2 ^ 149⟩ : Vec2 ℚ)
      ⟨(z3 : ℚ) * 2 ^ k / 2 ^ 149, (z4 : ℚ) * 2 ^ k / 2 ^ 149⟩
      ⟨(zx : ℚ) * 2 ^ k / 2 ^ 149, (zy : ℚ) * 2 ^ k / 2 ^ 149⟩ =
      (((z3 - z1) * (zy - z2) - (z4 - z2) * (zx - z1) : Int) : ℚ) * (2 ^ k / 2 ^ 149 * (2 ^ k / 2 ^ 149)) := by
    simp only [tri]
    push_cast
    ring
  rw [e] at hlt ⊢
  set w := (z3 - z1) * (zy - z2) - (z4 - z2) * (zx - z1)
  by_contra h0
  have hw : w ≠ 0 := by intro h; rw [h] at h0; simp at h0
  have h1 : (1 : ℚ) ≤ |(w : ℚ)| := by
    have : (1 : Int) ≤ |w| := Int.one_le_abs hw
    exact_mod_cast this
  have h2 : (1 : ℚ) / 64 ≤ 2 ^ k / 2 ^ 149 := by
    rw [div_le_div_iff₀ (by norm_num) (by positivity)]
    have : (2 : ℚ) ^ 143 ≤ 2 ^ k := pow_le_pow_right₀ (by norm_num) hk.lower
    linarith
  set g := (2 : ℚ) ^ k / 2 ^ 149
  have h3 : (1 : ℚ) / 4096 ≤ g * g := by nlinarith
  rw [abs_mul, abs_of_pos (by linarith : (0 : ℚ) < g * g)] at hlt
  nlinarith

/-- Lookup in a layer. -/
theorem locate_f32 {k : Nat} (hk : GoodUnit k) {bvh : Bvh B32} (hb : bvh.Complete) {m : Mesh B32}
    (hm : m.Searchable32) (hg : m.OnGrid k 1024) (hc : Conforming m.exact) {p : Vec2 B32} (hp : p.OnGrid k 1024)
    {x : Vec2 ℚ} (hx : p.exact = x.fin) {j : Nat} {l : Layer B32} (hl : m.layers[j]? = some l) {pt : Vec2 B32}
    (hpt : pt.OnGrid k 2048) (hpe : pt.exact = x.fin - l.offset.exact) :
    ∃ r, l.locate bvh pt = .ok r ∧ (r ≠ u32Max ↔ InLayer m.exact j x) ∧
      (r ≠ u32Max → InPolygon m.exact (packId (UInt8.ofNat j) r) x) := by
  have hmem := List.mem_of_getElem? hl
  obtain ⟨hfind, hfin⟩ := hm.layer l hmem
  have hlg : LayerGrid k l := ⟨hk, (hg l hmem).2⟩
  have hle : m.exact.layers[j]? = some l.exact := by simp [Mesh.exact, hl]
  have hj := (List.getElem?_eq_some_iff.1 hl).1
  have hm' := hm.layers
  have hs := hfind.sized
  have hpack : ∀ (i : Nat) (q : Polygon), l.polygons[i]? = some q →
      HasPolygon m.exact (packId (UInt8.ofNat j) (UInt32.ofNat i)) l.exact q := by
    intro i q hi
    have hil := (List.getElem?_eq_some_iff.1 hi).1
    have e1 : (UInt8.ofNat j).toNat = j := UInt8.toNat_ofNat_of_lt' (show j < 256 by omega)
    have e2 : (UInt32.ofNat i).toNat = i := UInt32.toNat_ofNat_of_lt' (show i < 4294967296 by omega)
    refine ⟨?_, ?_⟩
    · rw [idLayer_packId _ _ (by omega), e1]; exact hle
    · rw [idPolygon_packId _ _ (by omega), e2]; exact hi
  have hpoly : ∀ (i : Nat) (q : Polygon), l.polygons[i]? = some q → ∃ ps,
      Ring m.exact (packId (UInt8.ofNat j) (UInt32.ofNat i)) ps ∧ List.Forall₂ (VertexAt l.exact) q.vertices ps ∧
      StrictlyConvex ps ∧
      ((l.pointInPolygon pt q = .ok true ∧ Inside ps x) ∨ (l.pointInPolygon pt q = .ok false ∧ ¬ Inside ps x)) := by
    intro i q hi
    have hh := hpack i q hi
    obtain ⟨ps, hr, hconv⟩ := hc.convex _ l.exact q hh
    obtain ⟨l', q', hh', hring⟩ := hr
    obtain ⟨rfl, rfl⟩ : l' = l.exact ∧ q' = q := by
      have e1 := hh'.1
      rw [hh.1] at e1
      cases e1
      have e2 := hh'.2
      rw [hh.2] at e2
      cases e2
      exact ⟨rfl, rfl⟩
    refine ⟨ps, ⟨_, _, hh, hring⟩, hring, hconv, ?_⟩
    have := pointInPolygon_ext (x := x) hring hconv
      (fun A B hAB => sharp_exact hk hg hp hx A B ⟨_, ps, ⟨_, _, hh, hring⟩, hAB⟩)
    have e : x.fin - l.exact.offset = pt.exact := hpe.symm
    rw [e, pointInPolygon_exact hlg hpt] at this
    exact this
  obtain ⟨r, hr, hiff⟩ := locate_iff_of_box hb hfind hfin pt (by
    intro q hq hin
    obtain ⟨i, hi⟩ := List.mem_iff_getElem?.1 hq
    obtain ⟨ps, -, h1, h2, h3⟩ := hpoly i q hi
    rcases h3 with ⟨-, h3⟩ | ⟨h3, -⟩
    · have := inside_inBox h1 h2 h3
      have e : x.fin - l.exact.offset = pt.exact := hpe.symm
      rw [e, polygonAabb_exact] at this
      exact inBox_exact this
    · rw [hin] at h3; simp at h3)
  have hin : r ≠ u32Max → InPolygon m.exact (packId (UInt8.ofNat j) r) x := by
    intro hne
    obtain ⟨i, q, hi, rfl, hpt⟩ := locate_found hr hne
    obtain ⟨ps, h1, -, -, h3⟩ := hpoly i q hi
    rcases h3 with ⟨-, h3⟩ | ⟨h3, -⟩
    · exact ⟨ps, h1, h3⟩
    · rw [hpt] at h3; simp at h3
  refine ⟨r, hr, ⟨fun hne => ?_, ?_⟩, hin⟩
  · have hlt := locate_lt hfind.sized hr hne
    refine ⟨_, ?_, hin hne⟩
    rw [idLayer_packId _ _ (by omega)]
    exact UInt8.toNat_ofNat_of_lt' (show j < 256 by omega)
  · rintro ⟨id, hid, ps, hring, hins⟩
    rw [hiff]
    obtain ⟨l', q, hh, hfor⟩ := hring
    have e1 := hh.1
    rw [hid, hle] at e1
    cases e1
    refine ⟨q, List.mem_of_getElem? hh.2, ?_⟩
    obtain ⟨ps', h1, h2, h3, h4⟩ := hpoly _ q hh.2
    have : ps' = ps := by
      have hring1 : Ring m.exact id ps' := ⟨_, q, hh, h2⟩
      exact hring1.unique ⟨_, q, hh, hfor⟩
    subst this
    rcases h4 with ⟨h4, -⟩ | ⟨-, h4⟩
    · exact h4
    · exact absurd hins h4

/-! ### The first sample -/

theorem zero_mult (k : Nat) {x : B32} (h : x.exact = Ext.fin 0) : Mult k x 0 := by
  unfold Mult; rw [h]; simp

theorem finite_zero (a : Bool) : B32.Finite (.fin a 0) := ((nearest_zero a).1)

theorem mul_zero_exact {x y : B32} (hx : x.Finite) (hy : y.Finite) (h0 : B32.val x = 0 ∨ B32.val y = 0) :
    (x *. y).exact = Ext.fin 0 := by
  have h := mul_rounded hx hy
  have hv : B32.val x * B32.val y = 0 := by rcases h0 with h | h <;> simp [h]
  rw [hv] at h
  exact Rounded.exact h (finite_zero false) (by simp [B32.val])

theorem finite_of_exact_zero {x : B32} (h : x.exact = Ext.fin 0) : x.Finite ∧ B32.val x = 0 := by
  refine ⟨(zero_mult 0 h).finite (by simp) (by simp), ?_⟩
  have := (zero_mult 0 h).val
  simpa using this

theorem finite_of_exact {x : B32} {q : ℚ} {y : B32} (hy : y.Finite) (hq : B32.val y = q) (hx : Rounded q x) :
    x.Finite := by
  rcases hx with hx | ⟨hb, hx⟩
  · exact hx.1
  · have := Rounded.exact (.inr ⟨hb, hx⟩ : Rounded q x) hy hq
    rw [hx] at this
    simp [B32.exact] at this

/-- The first sample is the point itself (except for the signs of zeros). -/
theorem ringSample_f32 {k : Nat} (hk : GoodUnit k) {pt : Vec2 B32} (hp : pt.OnGrid k 2048) {d : B32} (hd : d.Finite) :
    (ringSample pt d 0 0).OnGrid k 2048 ∧ (ringSample pt d 0 0).exact = pt.exact := by
  have hu := hk.upper
  have hang : ((Scalar.ofNat 0 *. Scalar.tau) /. Scalar.ofNat (10 * (0 + 1)) : B32) = .fin false 0 := by
    decide +kernel
  have hsin : (Scalar.sin (B32.fin false 0)) = B32.fin false 0 := by decide +kernel
  have hcos : (Scalar.cos (B32.fin false 0)) = B32.fin false (2 ^ 149) := by decide +kernel
  have h0 : (Scalar.ofNat 0 : B32) = .fin false 0 := by decide +kernel
  have z1 : ((B32.fin false 0) *. d).exact = Ext.fin 0 := mul_zero_exact (finite_zero _) hd (.inl (by simp [B32.val]))
  have z2 : (((B32.fin false 0) *. d) *. (B32.fin false 0)).exact = Ext.fin 0 :=
    mul_zero_exact (finite_of_exact_zero z1).1 (finite_zero _) (.inr (by simp [B32.val]))
  have hone : B32.Finite (.fin false (2 ^ 149)) := ⟨⟨1, 149, by norm_num, by norm_num⟩, by
    unfold B32.overflow; exact Nat.pow_lt_pow_right (by norm_num) (by norm_num)⟩
  have hv1 : B32.val (.fin false (2 ^ 149)) = 1 := by decide +kernel
  have f1 : ((B32.fin false (2 ^ 149)) *. d).Finite := by
    have := mul_rounded hone hd
    rw [hv1, one_mul] at this
    exact finite_of_exact hd rfl this
  have z3 : (((B32.fin false (2 ^ 149)) *. d) *. (B32.fin false 0)).exact = Ext.fin 0 :=
    mul_zero_exact f1 (finite_zero _) (.inr (by simp [B32.val]))
  obtain ⟨⟨zx, bx, hx⟩, zy, by', hy⟩ := hp
  have ax := add_mult (k := k) (by omega) hx (zero_mult k z2) (by omega) (by omega) (by omega)
  have ay := add_mult (k := k) (by omega) hy (zero_mult k z3) (by omega) (by omega) (by omega)
  have e : ringSample pt d 0 0 = ⟨pt.x +. (((B32.fin false 0) *. d) *. (B32.fin false 0)),
      pt.y +. (((B32.fin false (2 ^ 149)) *. d) *. (B32.fin false 0))⟩ := by
    unfold ringSample
    simp only [hang, hsin, hcos, h0]; rfl
  rw [e]
  rw [add_zero] at ax ay
  refine ⟨⟨⟨zx, bx, ax⟩, zy, by', ay⟩, ?_⟩
  exact congrArg₂ Vec2.mk (ax.trans hx.symm) (ay.trans hy.symm)

/-- What the lookup of the first sample gives. -/
theorem locate_sample {k : Nat} (hk : GoodUnit k) {bvh : Bvh B32} (hb : bvh.Complete) {m : Mesh B32}
    (hm : m.Searchable32) (hg : m.OnGrid k 1024) (hc : Conforming m.exact) {p : Vec2 B32} (hp : p.OnGrid k 1024)
    {x : Vec2 ℚ} (hx : p.exact = x.fin) {j : Nat} {l : Layer B32} (hl : m.layers[j]? = some l) :
    ∃ r, l.locate bvh (ringSample (p - l.offset) m.searchDelta 0 0) = .ok r ∧ (r ≠ u32Max ↔ InLayer m.exact j x) ∧
      (r ≠ u32Max → InPolygon m.exact (packId (UInt8.ofNat j) r) x) := by
  obtain ⟨h1, h2⟩ := sub_onGrid hk hp (hg l (List.mem_of_getElem? hl)).1
  obtain ⟨h3, h4⟩ := ringSample_f32 hk h1 hm.delta
  exact locate_f32 hk hb hm hg hc hp hx hl h3 (by rw [h4, h2, hx])

theorem closestPoint_f32 {k : Nat} (hk : GoodUnit k) {bvh : Bvh B32} (hb : bvh.Complete) {m : Mesh B32}
    (hm : m.Searchable32) (hg : m.OnGrid k 1024) (hc : Conforming m.exact) {q : Coords B32} {x : Vec2 ℚ}
    (hq : q.pos.OnGrid k 1024) (hx : q.pos.exact = x.fin)
    (hin : ∃ j, Allowed q j ∧ InLayer m.exact j x) {c : Coords B32}
    (h : m.getClosestPoint bvh q = .ok (some c)) : InPolygon m.exact c.polygonIndex x := by
  obtain ⟨j, hal, hj⟩ := hin
  obtain ⟨l, hl⟩ : ∃ l, m.layers[j]? = some l := by
    obtain ⟨id, hid, ps, ⟨l, p, hh, -⟩, -⟩ := hj
    have := hh.1
    rw [hid] at this
    simp only [Mesh.exact, List.getElem?_map, Option.map_eq_some_iff] at this
    obtain ⟨l', hl', -⟩ := this
    exact ⟨l', hl'⟩
  obtain ⟨step, j0, l0, np, r, hs, hl0, hal0, hi, rfl, hfirst⟩ := closestLoop_first h
  have hhit : l.closestInner bvh (q.pos - l.offset) m.searchDelta 0 ≠ .ok none := by
    intro hn
    have := closestInner_none hn 0 (by omega)
    obtain ⟨r', h1, h2, -⟩ := locate_sample hk hb hm hg hc hq hx hl
    rw [this] at h1
    cases h1
    exact h2.2 hj rfl
  have hstep : step = 0 ∧ j0 ≤ j := by
    by_contra hcon
    exact hhit (hfirst 0 j l (by omega) hl hal)
  obtain ⟨rfl, -⟩ := hstep
  obtain ⟨i, hi0, rfl, hloc, hne, -⟩ := closestInner_first hi
  have hi0 : i = 0 := by omega
  subst hi0
  obtain ⟨r', h1, -, h3⟩ := locate_sample hk hb hm hg hc hq hx hl0
  rw [hloc] at h1
  cases h1
  exact h3 hne

end Polyanya
