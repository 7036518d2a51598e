import Verif.Proofs.LocateExt
import Verif.Props.Location
import Verif.Props.Safety
import Verif.Proofs.Checks
/-
C77: which points are found by `point_in_mesh`, `get_point_layer` and the lookup of `get_path`, exactly.
-/

namespace Polyanya

section
variable {F : Type} [Field F] [LinearOrder F] [Scalar F] [ExactField F] [IsStrictOrderedRing F]

/-- A point is looked up at nine places: itself, and its neighbours at distance `δ` to the left or right, above or below, or
both. -/
def Probe (δ : F) (x y : Vec2 F) : Prop :=
  (y.x = x.x ∨ y.x = x.x + δ ∨ y.x = x.x - δ) ∧ (y.y = x.y ∨ y.y = x.y + δ ∨ y.y = x.y - δ)

/-- The places as they are computed. -/
theorem probeOffsets_iff {δ : F} {x o : Vec2 F} {q : Vec2 (Ext F)} :
    (∃ d ∈ probeOffsets (Ext.fin δ), q = (x.fin - o.fin) + d) ↔ ∃ y, Probe δ x y ∧ q = y.fin - o.fin := by
  have e0 : (Scalar.lit 0 0 : Ext F) = Ext.fin 0 := ext_zero
  have en : (Scalar.neg (Ext.fin δ) : Ext F) = Ext.fin (-δ) := by
    change Ext.fin (Scalar.neg δ) = _
    rw [ExactField.neg]
  have key : ∀ a b : F, (x.fin - o.fin) + (⟨Ext.fin a, Ext.fin b⟩ : Vec2 (Ext F)) = (⟨x.x + a, x.y + b⟩ : Vec2 F).fin - o.fin := by
    intro a b
    have : (⟨Ext.fin a, Ext.fin b⟩ : Vec2 (Ext F)) = (⟨a, b⟩ : Vec2 F).fin := rfl
    rw [this, fin_sub, fin_add, fin_sub]
    congr 1
    simp only [Vec2.mk.injEq]
    constructor <;> ring
  unfold probeOffsets
  simp only [e0, en, List.mem_cons, List.not_mem_nil, or_false]
  constructor
  · rintro ⟨d, hd, rfl⟩
    rcases hd with rfl | rfl | rfl | rfl | rfl | rfl | rfl | rfl | rfl <;> rw [key] <;>
      refine ⟨_, ⟨?_, ?_⟩, rfl⟩ <;> simp [sub_eq_add_neg]
  · rintro ⟨⟨y1, y2⟩, ⟨h1, h2⟩, rfl⟩
    simp only at h1 h2
    have go : ∀ a b : F, y1 = x.x + a → y2 = x.y + b → (⟨y1, y2⟩ : Vec2 F).fin - o.fin = (x.fin - o.fin) +
        (⟨Ext.fin a, Ext.fin b⟩ : Vec2 (Ext F)) := by
      rintro a b rfl rfl
      exact (key a b).symm
    rcases h1 with h1 | h1 | h1 <;> rcases h2 with h2 | h2 | h2
    · exact ⟨_, .inl rfl, go 0 0 (by rw [h1, add_zero]) (by rw [h2, add_zero])⟩
    · exact ⟨_, .inr (.inr (.inr (.inl rfl))), go 0 δ (by rw [h1, add_zero]) h2⟩
    · exact ⟨_, .inr (.inr (.inr (.inr (.inr (.inr (.inr (.inl rfl))))))), go 0 (-δ) (by rw [h1, add_zero]) (by rw [h2]; ring)⟩
    · exact ⟨_, .inr (.inl rfl), go δ 0 h1 (by rw [h2, add_zero])⟩
    · exact ⟨_, .inr (.inr (.inl rfl)), go δ δ h1 h2⟩
    · exact ⟨_, .inr (.inr (.inr (.inr (.inr (.inr (.inr (.inr rfl))))))), go δ (-δ) h1 (by rw [h2]; ring)⟩
    · exact ⟨_, .inr (.inr (.inr (.inr (.inr (.inl rfl))))), go (-δ) 0 (by rw [h1]; ring) (by rw [h2, add_zero])⟩
    · exact ⟨_, .inr (.inr (.inr (.inr (.inl rfl)))), go (-δ) δ (by rw [h1]; ring) h2⟩
    · exact ⟨_, .inr (.inr (.inr (.inr (.inr (.inr (.inl rfl)))))), go (-δ) (-δ) (by rw [h1]; ring) (by rw [h2]; ring)⟩

/-- Lookup in a layer, at the nine places. -/
theorem layer_probes {bvh : Bvh (Ext F)} (hb : bvh.Complete) {m : Mesh (Ext F)} (hm : m.Searchable) (hc : Conforming m)
    {x : Vec2 F} {δ : F} (hδ : m.searchDelta = Ext.fin δ) (hx : ∀ y, Probe δ x y → Sharp m y) {j : Nat} {l : Layer (Ext F)}
    (hl : m.layers[j]? = some l) {o : Vec2 F} (ho : l.offset = o.fin) :
    ((∃ p, NearLayer l bvh (x.fin - l.offset) m.searchDelta p) ↔ ∃ y, Probe δ x y ∧ InLayer m j y) ∧
    ∀ p, NearLayer l bvh (x.fin - l.offset) m.searchDelta p →
      ∃ y, Probe δ x y ∧ InPolygon m (packId (UInt8.ofNat j) p) y := by
  have hlook : ∀ d ∈ probeOffsets m.searchDelta, ∃ y r, Probe δ x y ∧ l.locate bvh (x.fin - l.offset + d) = .ok r ∧
      (r ≠ u32Max ↔ InLayer m j y) ∧ (r ≠ u32Max → InPolygon m (packId (UInt8.ofNat j) r) y) := by
    intro d hd
    rw [hδ] at hd
    obtain ⟨y, hy, he⟩ := probeOffsets_iff.1 ⟨d, hd, rfl⟩
    obtain ⟨r, h1, h2, h3⟩ := locate_ext hb hm hc (hx y hy) hl
    rw [ho] at h1 ⊢
    exact ⟨y, r, hy, by rw [he]; exact h1, h2, h3⟩
  have hsecond : ∀ p, NearLayer l bvh (x.fin - l.offset) m.searchDelta p →
      ∃ y, Probe δ x y ∧ InPolygon m (packId (UInt8.ofNat j) p) y ∧ InLayer m j y := by
    rintro p ⟨before, d, after, hl', hd, hne, -⟩
    obtain ⟨y, r, h1, h2, h3, h4⟩ := hlook d (by rw [hl']; simp)
    rw [h2] at hd
    cases hd
    exact ⟨y, h1, h4 hne, h3.1 hne⟩
  refine ⟨⟨?_, ?_⟩, fun p hp => ?_⟩
  · rintro ⟨p, hp⟩
    obtain ⟨y, h1, -, h3⟩ := hsecond p hp
    exact ⟨y, h1, h3⟩
  · rintro ⟨y, hy, hin⟩
    obtain ⟨d, hd, he⟩ := (probeOffsets_iff (x := x) (o := o)).2 ⟨y, hy, rfl⟩
    obtain ⟨r, hr, -⟩ := findFirst_ok (f := fun d => do
      let p ← l.locate bvh (x.fin - l.offset + d)
      .ok (if p ≠ u32Max then some p else none)) (l := probeOffsets m.searchDelta) (fun _ => True) (by
        intro d hd
        obtain ⟨y, r, -, h2, -⟩ := hlook d hd
        rw [h2, res_bind_ok]
        exact ⟨_, rfl, fun _ _ => trivial⟩)
    cases r with
    | some p => exact ⟨p, layer_getPointLocation_some hr⟩
    | none =>
      exfalso
      rw [findFirst_none] at hr
      have h0 := hr d (by rw [hδ]; exact hd)
      obtain ⟨r, h1, h2, -⟩ := locate_ext hb hm hc (hx y hy) hl
      rw [ho] at h0 h1
      rw [← he, h1, res_bind_ok, if_pos (h2.2 hin)] at h0
      simp at h0
  · obtain ⟨y, h1, h2, -⟩ := hsecond p hp
    exact ⟨y, h1, h2⟩

/-- **C77** (`get_point_layer`). In exact arithmetic, the layers listed for a point are exactly the allowed layers with a polygon
that contains the point or one of its eight neighbours at distance `search_delta`, and the polygon given for a layer contains one
of these nine points. -/
theorem C77_point_layer (bvh : Bvh (Ext F)) (hb : bvh.Complete) (m : Mesh (Ext F)) (hm : m.Searchable) (hc : Conforming m)
    (ho : ∀ l ∈ m.layers, ∃ o : Vec2 F, l.offset = o.fin) (δ : F) (hδ : m.searchDelta = Ext.fin δ)
    (c : Coords (Ext F)) (x : Vec2 F) (hpos : c.pos = x.fin) (hx : ∀ y, Probe δ x y → Sharp m y) :
    ∃ cs, m.getPointLayer bvh c = .ok cs ∧
      (∀ j : Nat, j < m.layers.length →
        ((∃ k ∈ cs, k.layer = some (UInt8.ofNat j)) ↔ Allowed c j ∧ ∃ y, Probe δ x y ∧ InLayer m j y)) ∧
      ∀ k ∈ cs, ∃ y, Probe δ x y ∧ InPolygon m k.polygonIndex y := by
  have hsz : m.Sized := fun l hl => (hm.layer l hl).1.sized
  obtain ⟨cs, hcs⟩ := (C10_point_queries bvh m c hb.inRange (fun l hl =>
    ⟨(hm.layer l hl).1.nonempty, (hm.layer l hl).1.sized, (hm.layer l hl).1.baked⟩)).2.1
  refine ⟨cs, hcs, ?_⟩
  obtain ⟨js, rfl, -, hjs⟩ := getPointLayer_shape hsz hm.layers hcs
  have hlay := hm.layers
  constructor
  · intro j hj
    constructor
    · rintro ⟨k, hk, hkj⟩
      simp only [List.mem_map] at hk
      obtain ⟨⟨j', p⟩, hmem, rfl⟩ := hk
      obtain ⟨hal, l, hl, hn⟩ := (hjs j' p).1 hmem
      have hj' := (List.getElem?_eq_some_iff.1 hl).1
      have hjj : j' = j := by
        simp only [Option.some.injEq] at hkj
        have := congrArg UInt8.toNat hkj
        simp only [UInt8.toNat_ofNat'] at this
        omega
      subst hjj
      obtain ⟨o, hol⟩ := ho l (List.mem_of_getElem? hl)
      rw [hpos] at hn
      exact ⟨hal, (layer_probes hb hm hc hδ hx hl hol).1.1 ⟨p, hn⟩⟩
    · rintro ⟨hal, hy⟩
      obtain ⟨o, hol⟩ := ho _ (List.getElem_mem hj)
      obtain ⟨p, hp⟩ := (layer_probes hb hm hc hδ hx (List.getElem?_eq_getElem hj) hol).1.2 hy
      refine ⟨_, List.mem_map.2 ⟨(j, p), (hjs j p).2 ⟨hal, _, List.getElem?_eq_getElem hj, by rw [hpos]; exact hp⟩, rfl⟩, rfl⟩
  · intro k hk
    simp only [List.mem_map] at hk
    obtain ⟨⟨j', p⟩, hmem, rfl⟩ := hk
    obtain ⟨hal, l, hl, hn⟩ := (hjs j' p).1 hmem
    obtain ⟨o, hol⟩ := ho l (List.mem_of_getElem? hl)
    rw [hpos] at hn
    exact (layer_probes hb hm hc hδ hx hl hol).2 p hn

/-- **C77** (`point_in_mesh`). In exact arithmetic, a point is in the mesh exactly if the point or one of its eight neighbours at
distance `search_delta` is in a polygon of an allowed layer. -/
theorem C77_point_in_mesh (bvh : Bvh (Ext F)) (hb : bvh.Complete) (m : Mesh (Ext F)) (hm : m.Searchable) (hc : Conforming m)
    (ho : ∀ l ∈ m.layers, ∃ o : Vec2 F, l.offset = o.fin) (δ : F) (hδ : m.searchDelta = Ext.fin δ)
    (c : Coords (Ext F)) (x : Vec2 F) (hpos : c.pos = x.fin) (hx : ∀ y, Probe δ x y → Sharp m y) :
    ∃ b, m.pointInMesh bvh c = .ok b ∧
      (b = true ↔ ∃ j y, j < m.layers.length ∧ Allowed c j ∧ Probe δ x y ∧ InLayer m j y) := by
  have hsz : m.Sized := fun l hl => (hm.layer l hl).1.sized
  obtain ⟨cs, hcs, h1, -⟩ := C77_point_layer bvh hb m hm hc ho δ hδ c x hpos hx
  refine ⟨_, C15_point_in_mesh bvh m c cs hsz hcs, ?_⟩
  constructor
  · intro h
    cases cs with
    | nil => simp at h
    | cons k cs =>
      obtain ⟨js, hk, -, hjs⟩ := getPointLayer_shape hsz hm.layers hcs
      cases js with
      | nil => simp at hk
      | cons jp js =>
        simp only [List.map_cons, List.cons.injEq] at hk
        obtain ⟨-, l, hl, -⟩ := (hjs jp.1 jp.2).1 (by simp)
        have hj := (List.getElem?_eq_some_iff.1 hl).1
        obtain ⟨hal, y, hy, hin⟩ := (h1 jp.1 hj).1 ⟨k, by simp, by rw [hk.1]⟩
        exact ⟨jp.1, y, hj, hal, hy, hin⟩
  · rintro ⟨j, y, hj, hal, hy, hin⟩
    obtain ⟨k, hk, -⟩ := (h1 j hj).2 ⟨hal, y, hy, hin⟩
    cases cs with
    | nil => cases hk
    | cons _ _ => rfl

end

end Polyanya
