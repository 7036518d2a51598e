import Verif.Spec.Reframed
import Verif.Proofs.MovedLoc
/-
Layers that are described in other coordinates (C66).
-/

namespace Polyanya

set_option linter.unusedSectionVars false

variable {K : Type} [Scalar K] {d : Vec2 K}

theorem onSegment_frame (hd : Frame d) (p : Vec2 K) (s : Vec2 K × Vec2 K) :
    onSegment (p + d) (mv2 d s) = onSegment p s := by
  have hx : ∀ a b : K, fmin (a +. d.x) (b +. d.x) = fmin a b +. d.x := by
    intro a b; unfold fmin; rw [hd.ltx]; split <;> rfl
  have hy : ∀ a b : K, fmin (a +. d.y) (b +. d.y) = fmin a b +. d.y := by
    intro a b; unfold fmin; rw [hd.lty]; split <;> rfl
  have hx' : ∀ a b : K, fmax (a +. d.x) (b +. d.x) = fmax a b +. d.x := by
    intro a b; unfold fmax; rw [hd.ltx]; split <;> rfl
  have hy' : ∀ a b : K, fmax (a +. d.y) (b +. d.y) = fmax a b +. d.y := by
    intro a b; unfold fmax; rw [hd.lty]; split <;> rfl
  unfold onSegment
  rw [side_moved hd.shift]
  change (inRange (fmin (s.1.x +. d.x) (s.2.x +. d.x)) (fmax (s.1.x +. d.x) (s.2.x +. d.x)) (p.x +. d.x) &&
    inRange (fmin (s.1.y +. d.y) (s.2.y +. d.y)) (fmax (s.1.y +. d.y) (s.2.y +. d.y)) (p.y +. d.y) && _) = _
  rw [hx, hy, hx', hy']
  unfold inRange
  rw [hd.lex, hd.lex, hd.ley, hd.ley]

theorem idxUnchecked_reframed (l : Layer K) (i : Nat) :
    RR (fun a b => b = ({ a with coords := a.coords + d } : Vertex K)) (idxUnchecked l.vertices i)
      (idxUnchecked (l.reframed d).vertices i) := by
  unfold Layer.reframed idxUnchecked
  simp only [List.getElem?_map]
  cases l.vertices[i]? with
  | none => exact .error _
  | some x => exact .ok rfl

theorem pointInEdges_reframed (hd : Frame d) (l : Layer K) (pt : Vec2 K) : ∀ es,
    (l.reframed d).pointInEdges (pt + d) es = l.pointInEdges pt es
  | [] => rfl
  | e :: es => by
    unfold Layer.pointInEdges
    rw [show (l.reframed d).vertices.length = l.vertices.length from List.length_map _, pointInEdges_reframed hd l pt es]
    split
    · rfl
    · refine RR.eq ((idxUnchecked_reframed l _).bind ?_)
      rintro x _ rfl
      refine (idxUnchecked_reframed l _).bind ?_
      rintro y _ rfl
      have h1 := side_moved hd.shift pt (x.coords, y.coords)
      have h2 := onSegment_frame hd pt (x.coords, y.coords)
      simp only [mv2] at h1 h2
      simp only [h1, h2]
      exact RR.refl _

theorem pointInPolygon_reframed (hd : Frame d) (l : Layer K) (pt : Vec2 K) (p : Polygon) :
    (l.reframed d).pointInPolygon (pt + d) p = l.pointInPolygon pt p := by
  unfold Layer.pointInPolygon
  simp only [pointInEdges_reframed hd]

theorem scanPolygons_reframed (hd : Frame d) (l : Layer K) (pt : Vec2 K) : ∀ (ps : List Polygon) (i : Nat),
    (l.reframed d).scanPolygons (pt + d) i ps = l.scanPolygons pt i ps
  | [], _ => rfl
  | p :: ps, i => by
    unfold Layer.scanPolygons
    simp only [pointInPolygon_reframed hd, scanPolygons_reframed hd l pt ps]

theorem pointInEdges_baked (l : Layer K) (b : Option (List (Aabb K))) (pt : Vec2 K) : ∀ es,
    Layer.pointInEdges { l with baked := b } pt es = l.pointInEdges pt es
  | [] => rfl
  | e :: es => by
    unfold Layer.pointInEdges
    simp only [pointInEdges_baked l b pt es]

theorem pointInPolygon_baked (l : Layer K) (b : Option (List (Aabb K))) (pt : Vec2 K) (p : Polygon) :
    Layer.pointInPolygon { l with baked := b } pt p = l.pointInPolygon pt p := by
  unfold Layer.pointInPolygon
  simp only [pointInEdges_baked]

theorem scanPolygons_baked (l : Layer K) (b : Option (List (Aabb K))) (pt : Vec2 K) : ∀ (ps : List Polygon) (i : Nat),
    Layer.scanPolygons { l with baked := b } pt i ps = l.scanPolygons pt i ps
  | [], _ => rfl
  | p :: ps, i => by
    unfold Layer.scanPolygons
    simp only [pointInPolygon_baked, scanPolygons_baked l b pt ps]

/-- What is used of `SameInWorld` in the searches for a point. -/
structure FramedBy (bvh : Bvh K) (d : Vec2 K) (l l' : Layer K) : Prop where
  frame : Frame d
  locate : ∀ pt, l'.locate bvh (pt + d) = l.locate bvh pt
  offset : l'.offset = l.offset - d

theorem SameInWorld.framed {bvh : Bvh K} {l l' : Layer K} (h : SameInWorld bvh l l') : ∃ d, FramedBy bvh d l l' := by
  obtain ⟨d, hd, h1, h2⟩ := h
  refine ⟨d, hd, fun pt => ?_, by rw [h1]; rfl⟩
  have hp : ∀ p, l'.pointInPolygon (pt + d) p = l.pointInPolygon pt p := by
    intro p
    rw [h1, pointInPolygon_baked, pointInPolygon_reframed hd]
  have hpol : l'.polygons = l.polygons := by rw [h1]; rfl
  unfold Layer.locate
  rcases h2 with ⟨h3, h4⟩ | ⟨b, b', h3, h4, h5⟩
  · rw [h3, h4]
    simp only
    unfold Layer.locationUnit
    rw [hpol, h1, scanPolygons_baked, scanPolygons_reframed hd]
  · rw [h3, h4]
    simp only
    unfold Layer.locationUnitBaked
    simp only [h5, hpol, hp]

variable {m m' : Mesh K} {bvh : Bvh K}

theorem SameWorld.numbered (h : SameWorld bvh m m') :
    List.Forall₂ (fun a b => b.1 = a.1 ∧ SameInWorld bvh a.2 b.2) m.numbered m'.numbered := by
  unfold Mesh.numbered
  rw [List.forall₂_map_left_iff, List.forall₂_map_right_iff]
  exact (forall₂_zipIdx h.layers 0).imp fun a b h => ⟨by rw [h.2], h.1⟩

theorem SameWorld.layer? (h : SameWorld bvh m m') (i : Nat) :
    (m.layers[i]? = none ∧ m'.layers[i]? = none) ∨
    ∃ l l', m.layers[i]? = some l ∧ m'.layers[i]? = some l' ∧ SameInWorld bvh l l' := by
  by_cases hi : i < m.layers.length
  · have hi' : i < m'.layers.length := h.layers.length_eq ▸ hi
    exact .inr ⟨_, _, List.getElem?_eq_getElem hi, List.getElem?_eq_getElem hi', List.Forall₂.get h.layers hi hi'⟩
  · exact .inl ⟨List.getElem?_eq_none (by omega), List.getElem?_eq_none (by rw [← h.layers.length_eq]; omega)⟩

theorem locationInLayer_framed (h : SameWorld bvh m m') (pos : Vec2 K) (i : UInt8) {l l' : Layer K}
    (hl : SameInWorld bvh l l') : m'.locationInLayer bvh pos i l' = m.locationInLayer bvh pos i l := by
  obtain ⟨d, hf⟩ := hl.framed
  unfold Mesh.locationInLayer Layer.getPointLocation
  simp only [h.searchDelta, hf.offset, hf.frame.query, hf.frame.shift.add, hf.locate]

theorem getPointLocation_framed (h : SameWorld bvh m m') (c : Coords K) :
    m'.getPointLocation bvh c = m.getPointLocation bvh c := by
  unfold Mesh.getPointLocation
  cases c.layer with
  | some i =>
    simp only
    rcases h.layer? i.toNat with ⟨h1, h2⟩ | ⟨l, l', h1, h2, hl⟩
    · rw [h1, h2]
    · rw [h1, h2]
      simp only [locationInLayer_framed h _ _ hl]
  | none =>
    simp only
    rw [findFirst_alike h.numbered fun a b hab => ?_]
    rw [hab.1, locationInLayer_framed h _ _ hab.2]

theorem getPointLocations_framed (h : SameWorld bvh m m') (c : Coords K) :
    m'.getPointLocations bvh c = m.getPointLocations bvh c := by
  unfold Mesh.getPointLocations
  cases c.layer with
  | some i =>
    simp only
    rcases h.layer? i.toNat with ⟨h1, h2⟩ | ⟨l, l', h1, h2, hl⟩
    · rw [h1, h2]
    · rw [h1, h2]
      simp only [locationInLayer_framed h _ _ hl]
  | none =>
    simp only
    have : RR (List.Forall₂ Eq) (m.numbered.mapM fun il => m.locationInLayer bvh c.pos il.1 il.2)
        (m'.numbered.mapM fun il => m'.locationInLayer bvh c.pos il.1 il.2) := by
      refine RR.mapM h.numbered fun a b hab => ?_
      rw [hab.1, locationInLayer_framed h _ _ hab.2]
      exact RR.refl _
    rw [this.listEq]

theorem closestInLayer_framed {f g : Layer K → Res (Option (Vec2 K × UInt32))} (i : UInt8) {l l' : Layer K}
    (hf : FramedBy bvh d l l') (hfg : RR (fun x y => y = x.map fun np => (np.1 + d, np.2)) (f l) (g l')) :
    closestInLayer g i l' = closestInLayer f i l := by
  unfold closestInLayer
  refine RR.eq (hfg.bind ?_)
  rintro r _ rfl
  cases r with
  | none => exact .ok rfl
  | some np => simp only [Option.map_some, hf.offset, hf.frame.place]; exact .ok rfl

theorem closestLoop_framed (h : SameWorld bvh m m') (layer : Option UInt8)
    {f g : Nat → Layer K → Res (Option (Vec2 K × UInt32))}
    (hfg : ∀ d l l', FramedBy bvh d l l' → ∀ n, RR (fun x y => y = x.map fun np => (np.1 + d, np.2)) (f n l) (g n l')) :
    m'.closestLoop layer g = m.closestLoop layer f := by
  have hc : ∀ n i l l', SameInWorld bvh l l' → closestInLayer (g n) i l' = closestInLayer (f n) i l := by
    intro n i l l' hl
    obtain ⟨d, hf⟩ := hl.framed
    exact closestInLayer_framed i hf (hfg d l l' hf n)
  unfold Mesh.closestLoop
  rw [h.searchSteps]
  cases layer with
  | some i =>
    refine RR.eq ((RR.idx h.layers _).bind fun l l' hl => ?_)
    simp only [hc _ _ _ _ hl]
    exact RR.refl _
  | none =>
    simp only
    have : ∀ step, findFirst (fun (il : UInt8 × Layer K) => closestInLayer (g step) il.1 il.2) m'.numbered =
        findFirst (fun (il : UInt8 × Layer K) => closestInLayer (f step) il.1 il.2) m.numbered := by
      intro step
      exact findFirst_alike h.numbered fun a b hab => by rw [hab.1, hc _ _ _ _ hab.2]
    simp only [this]

theorem getClosestPoint_framed (h : SameWorld bvh m m') (c : Coords K) :
    m'.getClosestPoint bvh c = m.getClosestPoint bvh c := by
  unfold Mesh.getClosestPoint
  refine closestLoop_framed h _ fun d l l' hf n => ?_
  unfold Layer.closestInner
  refine findFirst_map (R := Eq) _ (List.forall₂_refl _) ?_
  rintro i _ rfl
  have : ringSample (c.pos - l'.offset) m'.searchDelta n i = ringSample (c.pos - l.offset) m.searchDelta n i + d := by
    unfold ringSample
    simp only [hf.offset, hf.frame.query, hf.frame.shift.add, h.searchDelta]
  simp only [this, hf.locate]
  refine RR.bindEq fun p => .ok ?_
  split <;> rfl

theorem getClosestPointTowards_framed (h : SameWorld bvh m m') (c : Coords K) (w : Vec2 K) :
    m'.getClosestPointTowards bvh c w = m.getClosestPointTowards bvh c w := by
  unfold Mesh.getClosestPointTowards
  refine closestLoop_framed h _ fun d l l' hf n => ?_
  unfold Layer.towardsInner
  simp only [hf.offset, hf.frame.query, hf.frame.shift.add, h.searchDelta, hf.locate]
  refine RR.bindEq fun p => .ok ?_
  split <;> rfl

/-- No polygon names a vertex that does not exist. -/
def Mesh.InRange (m : Mesh K) : Prop :=
  ∀ l ∈ m.layers, ∀ p ∈ l.polygons, ∀ v ∈ p.vertices, v.toNat < l.vertices.length

theorem SameWorld.alike (h : SameWorld bvh m m') (hr : m.InRange) (cfg : Cfg) : MeshAlike cfg m m' := by
  have key : ∀ ls ls' : List (Layer K), (∀ l ∈ ls, ∀ p ∈ l.polygons, ∀ v ∈ p.vertices, v.toNat < l.vertices.length) →
      List.Forall₂ (SameInWorld bvh) ls ls' → List.Forall₂ (LayerAlike cfg) ls ls' := by
    intro ls ls' hr h
    induction h with
    | nil => exact .nil
    | @cons l l' ls ls' hl _ ih =>
      refine .cons ?_ (ih fun k hk => hr k (List.mem_cons_of_mem _ hk))
      obtain ⟨d, hd, h1, -⟩ := hl
      refine ⟨?_, by rw [h1]; rfl, by rw [h1]; rfl⟩
      rw [show l'.polygons = l.polygons from by rw [h1]; rfl]
      refine List.forall₂_same.2 fun p hp => ⟨rfl, List.forall₂_same.2 fun v hv => ⟨?_, fun _ => rfl⟩⟩
      have hlt := hr l (List.mem_cons_self ..) p hp v hv
      refine ⟨l.vertices[v.toNat], { l.vertices[v.toNat] with coords := l.vertices[v.toNat].coords + d },
        List.getElem?_eq_getElem hlt, ?_, ?_, rfl, rfl⟩
      · rw [h1]
        change (l.vertices.map _)[v.toNat]? = _
        rw [List.getElem?_map, List.getElem?_eq_getElem hlt]
        rfl
      · rw [show l'.offset = l.offset - d from by rw [h1]; rfl]
        exact hd.place _ _
  exact key _ _ hr h.layers

theorem poll_framed {cfg : Cfg} (h : SameWorld bvh m m') (hm : MeshAlike cfg m m') {heap : Heap K} (hh : heap.ByCost)
    {f f' : FuturePath K} (hf : FutureAlike cfg m m' f f') :
    RR (fun r r' => r'.1 = r.1 ∧ FutureAlike cfg m m' r.2 r'.2) (f.poll bvh heap cfg m) (f'.poll bvh heap cfg m') := by
  have hs : f'.src = f.src := by rw [hf.rest]
  have hd : f'.dst = f.dst := by rw [hf.rest]
  unfold FuturePath.poll
  rcases hf.inst with ⟨h1, h2⟩ | ⟨i, i', h1, h2, hi⟩
  · rw [h1, h2]
    simp only
    rw [hs, hd, getPointLocation_framed h]
    refine RR.bindEq fun s => ?_
    split
    · exact .ok ⟨rfl, hf⟩
    rw [getPointLocation_framed h]
    refine RR.bindEq fun e => ?_
    split
    · exact .ok ⟨rfl, hf⟩
    rw [islandsDifferAsync_alike hm]
    refine RR.bindEq fun b => ?_
    split
    · exact .ok ⟨rfl, hf⟩
    split
    · exact .ok ⟨rfl, hf⟩
    refine (setup_alike hm _ _ _).bind fun i i' hi => .ok ⟨rfl, rfl, .inr ⟨_, _, rfl, rfl, hi⟩⟩
  · rw [h1, h2]
    simp only
    refine (pollSteps_alike hh hm 3 hi).bind ?_
    rintro ⟨r, j⟩ ⟨r', j'⟩ ⟨hr, hj⟩
    simp only at hr
    subst hr
    have hff : FutureAlike cfg m m' { f with instance? := some j } { f' with instance? := some j' } :=
      ⟨by rw [hf.rest], .inr ⟨_, _, rfl, rfl, hj⟩⟩
    cases r' with
    | some p => exact .ok ⟨rfl, hff⟩
    | none => exact .ok ⟨rfl, hff⟩

/-! ### The laws in exact arithmetic -/

section
variable {F : Type} [Field F] [LinearOrder F] [IsStrictOrderedRing F] [Scalar F] [ExactField F]

theorem ext_lt_move (a b : Ext F) (t : F) : ((a +. .fin t) <. (b +. .fin t)) = (a <. b) := by
  cases a <;> cases b <;> simp only [Scalar.add, Scalar.lt, Ext.add, Ext.lt]
  rw [Bool.eq_iff_iff, ExactField.lt, ExactField.lt, ExactField.add, ExactField.add]
  exact add_lt_add_iff_right t

theorem ext_le_move (a b : Ext F) (t : F) : ((a +. .fin t) <=. (b +. .fin t)) = (a <=. b) := by
  cases a <;> cases b <;> simp only [Scalar.add, Scalar.le, Ext.add, Ext.le]
  rw [Bool.eq_iff_iff, ExactField.le, ExactField.le, ExactField.add, ExactField.add]
  exact add_le_add_iff_right t

theorem ext_place (c o : Ext F) (t : F) : (c +. .fin t) +. (o -. .fin t) = c +. o := by
  cases c <;> cases o <;> simp only [Scalar.add, Scalar.sub, Ext.add, Ext.sub, Ext.neg]
  congr 1
  simp only [ExactField.add, ExactField.sub]
  ring

theorem ext_query (p o : Ext F) (t : F) : p -. (o -. .fin t) = (p -. o) +. .fin t := by
  cases p <;> cases o <;> simp only [Scalar.add, Scalar.sub, Ext.add, Ext.sub, Ext.neg]
  · congr 1
    simp only [ExactField.add, ExactField.sub]
    ring
  · split <;> rfl

/-- In exact arithmetic, changing the coordinates by a finite vector loses nothing. -/
theorem frame_ext (d : Vec2 F) : Frame d.fin where
  shift := shift_ext d
  ltx a b := ext_lt_move a b d.x
  lty a b := ext_lt_move a b d.y
  lex a b := ext_le_move a b d.x
  ley a b := ext_le_move a b d.y
  place c o := vec_ext (ext_place _ _ _) (ext_place _ _ _)
  query p o := vec_ext (ext_query _ _ _) (ext_query _ _ _)

end

end Polyanya
