import Verif.Spec.Narrower
import Verif.Props.Blocked
import Verif.Props.Metric
import Verif.Props.Stitching
/-
C74: closing ways never makes a path shorter, and opening ways never makes it disappear.
-/

namespace Polyanya

section
variable {F : Type} [Field F] [LinearOrder F] [IsStrictOrderedRing F] [Scalar F]
variable {m m' : Mesh (Ext F)}

theorem Narrower.inPolygon (hn : Narrower m' m) {id : UInt32} {x : Vec2 F} (h : InPolygon m' id x) :
    InPolygon m id x := by
  obtain ⟨ps, h1, h2⟩ := h
  exact ⟨ps, hn.rings id ps h1, h2⟩

theorem Narrower.straight (hn : Narrower m' m) {s e : UInt32} {p q : Vec2 F} (h : Straight m' s p e q) :
    Straight m s p e q := by
  induction h with
  | stay h1 h2 => exact .stay (hn.inPolygon h1) (hn.inPolygon h2)
  | cross h1 h2 h3 h4 h5 _ ih =>
    obtain ⟨k1, k2⟩ := hn.ways _ h2 _ _ h3
    exact .cross (hn.inPolygon h1) k1 k2 h4 h5 ih

/-- **C74** (walks). What can be walked in the narrower mesh can be walked in the other. -/
theorem C74_walks (hn : Narrower m' m) {s e : UInt32} {p q : Vec2 F} {ws : List (Vec2 F)} (h : Walk m' s p e q ws) :
    Walk m s p e q ws := by
  induction h with
  | nil h1 => exact .nil (hn.inPolygon h1)
  | cons h1 _ ih => exact .cons (hn.straight h1) ih

theorem StraightAvoiding.mono {B B' : List UInt8} (hB : B ⊆ B') {s e : UInt32} {p q : Vec2 F}
    (h : StraightAvoiding m B' s p e q) : StraightAvoiding m B s p e q := by
  induction h with
  | stay h1 h2 => exact .stay h1 h2
  | cross h1 h2 hu h3 h4 h5 _ ih => exact .cross h1 h2 (fun b hb => hu b (hB hb)) h3 h4 h5 ih

theorem WalkAvoiding.mono {B B' : List UInt8} (hB : B ⊆ B') {s e : UInt32} {p q : Vec2 F} {ws : List (Vec2 F)}
    (h : WalkAvoiding m B' s p e q ws) : WalkAvoiding m B s p e q ws := by
  induction h with
  | nil h1 => exact .nil h1
  | cons h1 _ ih => exact .cons (h1.mono hB) ih

end

/-- **C74** (closing ways). The path in the narrower mesh is at least as long as the path in the other. -/
theorem C74_longer (bvh bvh' : Bvh (Ext ℝ)) (heap heap' : Heap (Ext ℝ)) (hmax : heap.Max) (hmax' : heap'.Max)
    (cfg : Cfg) (m m' : Mesh (Ext ℝ)) (hn : Narrower m' m) (hsize : m.Sized)
    (hsize' : m'.Sized) (hc : Conforming m) (hc' : Conforming m') (a a' b b' : Coords (Ext ℝ)) (start goal : Vec2 ℝ)
    (hcfg : cfg.Plain m start goal) (hcfg' : cfg.Plain m' start goal) (s e : UInt32) (hq : ExactQuery m bvh a start s b goal e) (hq' : ExactQuery m' bvh' a' start s b' goal e)
    (p p' : Path (Ext ℝ)) (h : m.path bvh heap cfg a b = .ok (some p))
    (h' : m'.path bvh' heap' cfg a' b' = .ok (some p')) :
    ∃ l l' : ℝ, p.length = .fin l ∧ p'.length = .fin l' ∧ l ≤ l' := by
  obtain ⟨ws, -, l1, -, o1⟩ := hq.shortest hmax hsize hc hcfg h
  obtain ⟨ws', -, l2, w2, -⟩ := hq'.shortest hmax' hsize' hc' hcfg' h'
  exact ⟨_, _, l1, l2, o1 _ (C74_walks hn w2)⟩

/-- **C74** (opening ways). If there is a path in the narrower mesh, then the query in the other mesh returns one, that
is not longer, unless its steps are used up. -/
theorem C74_found (bvh bvh' : Bvh (Ext ℝ)) (heap heap' : Heap (Ext ℝ)) (hmax : heap.Max) (hmax' : heap'.Max)
    (cfg : Cfg) (m m' : Mesh (Ext ℝ)) (hn : Narrower m' m) (hsize : m.Sized)
    (hsize' : m'.Sized) (hc : Conforming m) (hc' : Conforming m') (hisl : m.layers.length = 1 → m.IslandsTrue)
    (a a' b b' : Coords (Ext ℝ)) (start goal : Vec2 ℝ)
    (hcfg : cfg.Plain m start goal) (hcfg' : cfg.Plain m' start goal) (s e : UInt32) (hq : ExactQuery m bvh a start s b goal e)
    (hq' : ExactQuery m' bvh' a' start s b' goal e) (p' : Path (Ext ℝ)) (r : Option (Path (Ext ℝ)))
    (h' : m'.path bvh' heap' cfg a' b' = .ok (some p')) (h : m.path bvh heap cfg a b = .ok r) :
    (∃ p, r = some p ∧ ∃ l l' : ℝ, p.length = .fin l ∧ p'.length = .fin l' ∧ l ≤ l') ∨
    (r = none ∧ BudgetUsedUp heap cfg m a.pos b.pos s e) := by
  obtain ⟨ws', -, l2, w2, -⟩ := hq'.shortest hmax' hsize' hc' hcfg' h'
  rcases C76_either_complete bvh heap hmax cfg m hsize hc hisl a b start goal hcfg hq.start_pos hq.goal_pos s e hq.start_loc
    hq.goal_loc hq.start_in hq.navigable hq.goal_in hq.noNearMiss _ (C74_walks hn w2) r h with ⟨p, rfl, -⟩ | hb
  · exact .inl ⟨p, rfl, C74_longer bvh bvh' heap heap' hmax hmax' cfg m m' hn hsize hsize' hc hc' a a' b b' start
      goal hcfg hcfg' s e hq hq' p p' h h'⟩
  · exact .inr hb

theorem located_unique {m : Mesh (Ext ℝ)} {bvh : Bvh (Ext ℝ)} {c : Coords (Ext ℝ)} {x y : UInt32}
    (h1 : Located m bvh c x) (h2 : Located m bvh c y) : x = y := by
  simpa using (endpointPolygon_located.2 h1).symm.trans (endpointPolygon_located.2 h2)

theorem ExactAvoiding.shortest {m : Mesh (Ext ℝ)} {B : List UInt8} {bvh : Bvh (Ext ℝ)} {heap : Heap (Ext ℝ)}
    (hmax : heap.Max) {cfg : Cfg} (hsize : m.Sized) (hone : m.OneOtherSide)
    (hc : Conforming m) {a b : Coords (Ext ℝ)} {start goal : Vec2 ℝ} (hcfg : cfg.Plain m start goal) {s e : UInt32}
    (h : ExactAvoiding m B bvh a start s b goal e) {p : Path (Ext ℝ)}
    (hp : m.pathOnLayers bvh heap cfg a b B = .ok (some p)) : ShortestAvoiding m B s start e goal p := by
  obtain ⟨s', e', h1, h2, h3⟩ := C59_shortest bvh heap hmax cfg m hsize hone hc B a b start goal hcfg h.start_pos
    h.goal_pos (fun x hx => located_unique h.start_loc hx ▸ h.start_in)
    (fun x hx => located_unique h.goal_loc hx ▸ h.goal_in)
    (fun x y hx hy => located_unique h.start_loc hx ▸ located_unique h.goal_loc hy ▸ h.navigable) h.noNearMiss p hp
  rw [located_unique h.start_loc h1, located_unique h.goal_loc h2]
  exact h3

/-- **C74** (blocking layers). Blocking more layers never makes a path shorter. -/
theorem C74_blocked (bvh : Bvh (Ext ℝ)) (heap heap' : Heap (Ext ℝ)) (hmax : heap.Max) (hmax' : heap'.Max)
    (cfg : Cfg) (m : Mesh (Ext ℝ)) (hsize : m.Sized) (hone : m.OneOtherSide)
    (hc : Conforming m) (B B' : List UInt8) (hB : B ⊆ B') (a b : Coords (Ext ℝ)) (start goal : Vec2 ℝ)
    (hcfg : cfg.Plain m start goal) (s e : UInt32)
    (hq : ExactAvoiding m B bvh a start s b goal e) (hq' : ExactAvoiding m B' bvh a start s b goal e)
    (p p' : Path (Ext ℝ)) (h : m.pathOnLayers bvh heap cfg a b B = .ok (some p))
    (h' : m.pathOnLayers bvh heap' cfg a b B' = .ok (some p')) :
    ∃ l l' : ℝ, p.length = .fin l ∧ p'.length = .fin l' ∧ l ≤ l' := by
  obtain ⟨ws, -, l1, -, o1⟩ := hq.shortest hmax hsize hone hc hcfg h
  obtain ⟨ws', -, l2, w2, -⟩ := hq'.shortest hmax' hsize hone hc hcfg h'
  exact ⟨_, _, l1, l2, o1 _ (w2.mono hB)⟩

/-- **C74** (blocking fewer layers). If there is a path with the layers of `B'` blocked, then with fewer layers blocked
the query returns one too, that is not longer, unless its steps are used up. -/
theorem C74_blocked_found (bvh : Bvh (Ext ℝ)) (heap heap' : Heap (Ext ℝ)) (hmax : heap.Max) (hmax' : heap'.Max)
    (cfg : Cfg) (m : Mesh (Ext ℝ)) (hsize : m.Sized) (hone : m.OneOtherSide)
    (hc : Conforming m) (hisl : m.layers.length = 1 → ∀ l ∈ m.layers, l.islands = none) (B B' : List UInt8)
    (hB : B ⊆ B') (a b : Coords (Ext ℝ)) (start goal : Vec2 ℝ)
    (hcfg : cfg.Plain m start goal) (s e : UInt32)
    (hq : ExactAvoiding m B bvh a start s b goal e) (hq' : ExactAvoiding m B' bvh a start s b goal e)
    (p' : Path (Ext ℝ)) (r : Option (Path (Ext ℝ))) (h' : m.pathOnLayers bvh heap' cfg a b B' = .ok (some p'))
    (h : m.pathOnLayers bvh heap cfg a b B = .ok r) :
    (∃ p, r = some p ∧ ∃ l l' : ℝ, p.length = .fin l ∧ p'.length = .fin l' ∧ l ≤ l') ∨
    (r = none ∧ BudgetUsedUp heap cfg (m.cutOff B) a.pos b.pos s e) := by
  obtain ⟨ws', -, l2, w2, -⟩ := hq'.shortest hmax' hsize hone hc hcfg h'
  rcases C59_complete bvh heap hmax cfg m hsize hone hc hisl B a b start goal hcfg hq.start_pos hq.goal_pos s e
    hq.start_loc hq.goal_loc hq.start_in hq.navigable hq.goal_in hq.noNearMiss _ (w2.mono hB) r h with ⟨p, rfl, -⟩ | hb
  · exact .inl ⟨p, rfl, C74_blocked bvh heap heap' hmax hmax' cfg m hsize hone hc B B' hB a b start goal hcfg s e hq hq'
      p p' h h'⟩
  · exact .inr hb

/-! ### Fewer stitches -/

section
variable {F : Type} [Field F] [LinearOrder F] [IsStrictOrderedRing F] [Scalar F]

theorem forall₂_left {α β : Type} {R : α → β → Prop} {xs : List α} {ys : List β} (h : List.Forall₂ R xs ys) {i : Nat}
    {x : α} (hx : xs[i]? = some x) : ∃ y, ys[i]? = some y ∧ R x y := by
  induction h generalizing i with
  | nil => simp at hx
  | cons h1 _ ih =>
    cases i with
    | zero => simp only [List.getElem?_cons_zero, Option.some.injEq] at hx ⊢; exact ⟨_, rfl, hx ▸ h1⟩
    | succ i => simp only [List.getElem?_cons_succ] at hx ⊢; exact ih hx

theorem forall₂_right {α β : Type} {R : α → β → Prop} {xs : List α} {ys : List β} (h : List.Forall₂ R xs ys) {i : Nat}
    {y : β} (hy : ys[i]? = some y) : ∃ x, xs[i]? = some x ∧ R x y := by
  obtain ⟨x, h1, h2⟩ := forall₂_left h.flip hy
  exact ⟨x, h1, h2⟩

theorem SameButNeighbours.vertexAt {l l' : Layer (Ext F)} (h : SameButNeighbours l l') {i : UInt32} {x : Vec2 F}
    (hv : VertexAt l i x) : VertexAt l' i x := by
  obtain ⟨v, h1, h2⟩ := hv
  have hc := congrArg (·[i.toNat]?) h.coords
  simp only [List.getElem?_map, h1, Option.map_some, Option.map_eq_some_iff] at hc
  obtain ⟨v', h3, h4⟩ := hc
  exact ⟨v', h3, by rw [h4, h.offset]; exact h2⟩

theorem SameButNeighbours.back {l l' : Layer (Ext F)} (h : SameButNeighbours l l') : SameButNeighbours l' l :=
  ⟨h.polygons.symm, h.offset.symm, h.scale.symm, h.baked.symm, h.islands.symm, h.coords.symm⟩

theorem SameButNeighbours.then {l l' l'' : Layer (Ext F)} (h : SameButNeighbours l l') (h' : SameButNeighbours l' l'') :
    SameButNeighbours l l'' :=
  ⟨h'.polygons.trans h.polygons, h'.offset.trans h.offset, h'.scale.trans h.scale, h'.baked.trans h.baked,
    h'.islands.trans h.islands, h'.coords.trans h.coords⟩

/-- Meshes with the same layers, in which the vertices of one list no more polygons than those of the other. -/
theorem narrower_of_lists {m₀ m m' : Mesh (Ext F)} (h1 : SameShape m₀ m) (h2 : SameShape m₀ m')
    (hl : ∀ a i id, id ≠ u32Max → Lists m' a i id → Lists m a i id) : Narrower m' m := by
  have hlay : ∀ (a : Nat) (l' : Layer (Ext F)), m'.layers[a]? = some l' → ∃ l, m.layers[a]? = some l ∧ SameButNeighbours l' l := by
    intro a l' h
    obtain ⟨l₀, k1, k2⟩ := forall₂_right h2.2 h
    obtain ⟨l, k3, k4⟩ := forall₂_left h1.2 k1
    exact ⟨l, k3, k2.back.then k4⟩
  have hpoly : ∀ id l' p, HasPolygon m' id l' p → ∃ l, HasPolygon m id l p ∧ SameButNeighbours l' l := by
    rintro id l' p ⟨k1, k2⟩
    obtain ⟨l, k3, k4⟩ := hlay _ _ k1
    exact ⟨l, ⟨k3, by rw [k4.polygons]; exact k2⟩, k4⟩
  constructor
  · rintro id ps ⟨l', p, k1, k2⟩
    obtain ⟨l, k3, k4⟩ := hpoly _ _ _ k1
    exact ⟨l, p, k3, k2.imp fun _ _ h => k4.vertexAt h⟩
  · rintro c ⟨l', p, va, vb, k1, k2, k3, k4, k5, k6, k7, k8⟩ A B ⟨l'', j1, j2, j3⟩
    obtain ⟨l, q1, q2⟩ := hpoly _ _ _ k1
    obtain ⟨l₁, va', i1, i2, i3⟩ := hl _ _ _ k7 ⟨l', va, k1.1, k3, k5⟩
    obtain ⟨l₂, vb', i4, i5, i6⟩ := hl _ _ _ k7 ⟨l', vb, k1.1, k4, k6⟩
    obtain rfl : l = l₁ := by simpa [q1.1] using i1
    obtain rfl : l = l₂ := by simpa [q1.1] using i4
    obtain rfl : l' = l'' := by simpa [k1.1] using j1
    exact ⟨⟨l, p, va', vb', q1, k2, i2, i5, i3, i6, k7, k8⟩, l, q1.1, q2.vertexAt j2, q2.vertexAt j3⟩

/-- **C74** (fewer stitches). If the same layers are stitched by two lists, and the first links no vertices that the
second does not link, then the first mesh is narrower. -/
theorem C74_stitches (m : Mesh (Ext F)) (hm : m.Unstitched) (s s' : StitchVertices) (oneWay oneWay' : Bool)
    (hs : StitchesExist m s) (hs' : StitchesExist m s')
    (hl : ∀ a i b j, Linked s' oneWay' a i b j → Linked s oneWay a i b j)
    (sorter : Sorter) (hsort : sorter.Ok) :
    ∃ wide narrow, m.stitchAtVertices sorter s oneWay = .ok wide ∧ m.stitchAtVertices sorter s' oneWay' = .ok narrow ∧
      Narrower narrow wide := by
  obtain ⟨m1, e1, sh1, by1, -⟩ := C20_stitch m hm s hs oneWay sorter hsort
  obtain ⟨m2, e2, sh2, by2, -⟩ := C20_stitch m hm s' hs' oneWay' sorter hsort
  refine ⟨m1, m2, e1, e2, narrower_of_lists sh1 sh2 fun a i id hid h => ?_⟩
  rcases (by2 a i id hid).1 h with h | ⟨j, h1, h2⟩
  · exact (by1 a i id hid).2 (.inl h)
  · exact (by1 a i id hid).2 (.inr ⟨j, hl _ _ _ _ h1, h2⟩)

/-- **C74** (one way). Stitching one way gives a mesh that is narrower than stitching both ways by the same list, and
by a longer list. -/
theorem C74_one_way (m : Mesh (Ext F)) (hm : m.Unstitched) (s s' : StitchVertices) (hsub : s' ⊆ s)
    (hs : StitchesExist m s) (oneWay : Bool) (sorter : Sorter) (hsort : sorter.Ok) :
    ∃ wide narrow, m.stitchAtVertices sorter s false = .ok wide ∧ m.stitchAtVertices sorter s' oneWay = .ok narrow ∧
      Narrower narrow wide := by
  refine C74_stitches m hm s s' false oneWay hs (fun e he => hs e (hsub he)) ?_ sorter hsort
  rintro a i b j ⟨e, he, h | ⟨-, h⟩⟩
  · exact ⟨e, hsub he, .inl h⟩
  · exact ⟨e, hsub he, .inr ⟨rfl, h⟩⟩

end

end Polyanya
