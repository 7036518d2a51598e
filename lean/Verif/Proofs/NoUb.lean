import Verif.Proofs.Safe
/-
Out-of-bounds accesses: which meshes can cause one.
-/

namespace Polyanya

variable {K : Type} [Scalar K] {α β σ : Type}

/-- The computation performs no out-of-bounds access (it may panic). -/
structure NoUb (x : Res α) : Prop where
  ne : x ≠ .error .ub

theorem noUb_ok (a : α) : NoUb (.ok a : Res α) := ⟨by simp⟩
theorem noUb_panic : NoUb (.error .panic : Res α) := ⟨by simp⟩
theorem noUb_fuel : NoUb (.error .fuel : Res α) := ⟨by simp⟩

theorem noUb_bind {x : Res α} {f : α → Res β} (hx : NoUb x)
    (hf : ∀ a, x = .ok a → NoUb (f a)) : NoUb (x >>= f) := by
  cases x with
  | error e => exact ⟨by simpa using hx.ne⟩
  | ok a => exact hf a rfl

theorem noUb_idx (l : List α) (i : Nat) : NoUb (idx l i) := by
  unfold idx; split
  · exact noUb_ok _
  · exact noUb_panic

theorem noUb_idxUnchecked {l : List α} {i : Nat} (h : i < l.length) : NoUb (idxUnchecked l i) := by
  rw [show idxUnchecked l i = .ok l[i] from idxUnchecked_eq_ok.2 (List.getElem?_eq_getElem h)]
  exact noUb_ok _

theorem noUb_findFirst {f : α → Res (Option β)} (l : List α) (h : ∀ a ∈ l, NoUb (f a)) :
    NoUb (findFirst f l) := by
  induction l with
  | nil => exact noUb_ok _
  | cons a l ih =>
    refine noUb_bind (h a (List.mem_cons_self ..)) (fun r _ => ?_)
    cases r with
    | some b => exact noUb_ok _
    | none => exact ih (fun x hx => h x (List.mem_cons_of_mem _ hx))

theorem noUb_mapM {f : α → Res β} (l : List α) (h : ∀ a ∈ l, NoUb (f a)) :
    NoUb (l.mapM f) := by
  induction l with
  | nil => simpa using noUb_ok _
  | cons a l ih =>
    rw [List.mapM_cons]
    refine noUb_bind (h a (List.mem_cons_self ..)) (fun _ _ => ?_)
    exact noUb_bind (ih (fun x hx => h x (List.mem_cons_of_mem _ hx))) (fun _ _ => noUb_ok _)

theorem noUb_foldlM {f : σ → α → Res σ} (l : List α) (s : σ)
    (h : ∀ s, ∀ a ∈ l, NoUb (f s a)) : NoUb (l.foldlM f s) := by
  induction l generalizing s with
  | nil => exact noUb_ok _
  | cons a l ih =>
    rw [List.foldlM_cons]
    exact noUb_bind (h s a (List.mem_cons_self ..))
      (fun s' _ => ih s' (fun s x hx => h s x (List.mem_cons_of_mem _ hx)))

theorem noUb_edgesIndex (p : Polygon) : NoUb p.edgesIndex := by
  unfold Polygon.edgesIndex; split
  · exact noUb_panic
  · exact noUb_ok _

theorem noUb_addNode (cfg : Cfg) (m : Mesh K) (inst : Inst K) (root : Vec2 K) (o : UInt32)
    (start stop : Vec2 K × UInt32) (node : SearchNode K) :
    NoUb (inst.addNode cfg m root o start stop node) := by
  unfold Inst.addNode
  refine noUb_bind ?_ (fun _ _ => noUb_bind ?_ (fun _ _ => ?_))
  · unfold newDistance
    split
    · exact noUb_ok _
    · split
      · exact noUb_bind (noUb_idx _ _) (fun _ _ => noUb_ok _)
      · exact noUb_ok _
  · unfold newHeuristic
    split
    · exact noUb_bind (noUb_idx _ _) (fun _ _ => noUb_bind (noUb_idx _ _)
        (fun _ _ => noUb_ok _))
    · exact noUb_ok _
  · split
    · exact noUb_ok _
    · simp only
      split
      · split <;> exact noUb_ok _
      · exact noUb_ok _

theorem noUb_setup (cfg : Cfg) (m : Mesh K) (src dst : Vec2 K × UInt32) (blocked : List UInt8) :
    NoUb (Inst.setup cfg m src dst blocked) := by
  unfold Inst.setup
  refine noUb_bind (noUb_idx _ _) (fun _ _ => noUb_bind (noUb_idx _ _) (fun _ _ =>
    noUb_bind (noUb_edgesIndex _) (fun _ _ => noUb_bind ?_ (fun _ _ => noUb_ok _))))
  refine noUb_foldlM _ _ (fun inst e _ => ?_)
  unfold setupEdge
  split
  · simp only
    split
    · exact noUb_ok _
    · refine noUb_bind ?_ (fun _ _ => ?_)
      · split
        · exact noUb_ok _
        · split
          · exact noUb_ok _
          · exact noUb_bind (noUb_idx _ _) (fun _ _ => noUb_bind (noUb_idx _ _)
              (fun _ _ => noUb_ok _))
      · split
        · exact noUb_addNode ..
        · exact noUb_ok _
  · exact noUb_ok _

theorem noUb_rightIndex (l : Layer K) (p : Polygon) (e : Vec2 K) : NoUb (rightIndex l p e) := by
  unfold rightIndex
  refine noUb_bind (noUb_findFirst _ (fun _ _ => noUb_bind (noUb_idx _ _)
    (fun _ _ => noUb_ok _))) (fun r _ => ?_)
  cases r with
  | some i => exact noUb_ok _
  | none =>
    refine noUb_bind (noUb_mapM _ (fun _ _ => noUb_bind (noUb_idx _ _)
      (fun _ _ => noUb_ok _))) (fun ds _ => ?_)
    split
    · exact noUb_panic
    · split
      · exact noUb_ok _
      · exact noUb_panic

theorem noUb_edgesBetween {m : Mesh K} (hm : NoBoundaryIndex m) (node : SearchNode K) :
    NoUb (edgesBetween m node) := by
  unfold edgesBetween
  refine noUb_bind (noUb_idx _ _) (fun layer hl => noUb_bind (noUb_idx _ _) (fun p hp =>
    noUb_bind (noUb_idx _ _) (fun _ _ => noUb_bind (noUb_idx _ _) (fun _ _ =>
    noUb_bind (noUb_rightIndex _ _ _) (fun _ _ => noUb_bind ?_ (fun es hes =>
    noUb_bind ?_ (fun _ _ => noUb_ok _)))))))
  · exact noUb_bind (noUb_edgesIndex _) (fun _ _ => noUb_ok _)
  · refine noUb_foldlM _ _ (fun _ e he => ?_)
    unfold Polygon.circularEdgesIndex at hes
    simp only [bind_eq_ok, Except.ok.injEq] at hes
    obtain ⟨es', hes', rfl⟩ := hes
    have he' := List.mem_of_mem_drop (List.mem_of_mem_take he)
    rw [List.mem_append, or_self] at he'
    obtain ⟨m1, m2⟩ := isEdge_mem ((mem_edgesIndex hes' e.1 e.2).1 he')
    have hl' := List.mem_of_getElem? (idx_eq_ok.1 hl)
    have hp' := List.mem_of_getElem? (idx_eq_ok.1 hp)
    have r1 := hm layer hl' p hp' _ m1
    have r2 := hm layer hl' p hp' _ m2
    unfold edgesBetweenStep
    split
    · exact noUb_ok _
    · rename_i hg
      rw [max_toNat] at hg
      exact noUb_bind (noUb_idxUnchecked (by omega)) (fun _ _ => noUb_bind
        (noUb_idxUnchecked (by omega)) (fun _ _ => noUb_ok _))

theorem noUb_successorRoot (m : Mesh K) (b : List UInt8) (node : SearchNode K) (layer : Layer K)
    (start stop : Vertex K) (s : Successor K) : NoUb (successorRoot m b node layer start stop s) := by
  unfold successorRoot
  split
  · split
    · exact noUb_ok _
    · refine noUb_bind (noUb_idx _ _) (fun _ _ => noUb_bind (noUb_idx _ _) (fun _ _ => ?_))
      split <;> exact noUb_ok _
  · exact noUb_ok _
  · split
    · exact noUb_ok _
    · refine noUb_bind (noUb_idx _ _) (fun _ _ => noUb_bind (noUb_idx _ _) (fun _ _ => ?_))
      split <;> exact noUb_ok _

theorem noUb_expandOne (cfg : Cfg) (m : Mesh K) (node : SearchNode K) (inst : Inst K)
    {succs : List (Successor K)} (he : edgesBetween m node = .ok succs) (s : Successor K)
    (hs : s ∈ succs) : NoUb (expandOne cfg m node inst s) := by
  obtain ⟨layer, poly, hl, -, hon⟩ := edgesBetween_on he
  obtain ⟨-, va, vb, hva, hvb, -⟩ := hon s hs
  unfold expandOne
  refine noUb_bind (noUb_idx _ _) (fun l2 hl2 => ?_)
  rw [idx_eq_ok, hl] at hl2
  obtain rfl := Option.some.inj hl2
  refine noUb_bind (noUb_idxUnchecked (lt_of_getElem? hva)) (fun _ _ =>
    noUb_bind (noUb_idxUnchecked (lt_of_getElem? hvb)) (fun _ _ => ?_))
  simp only
  split
  · exact noUb_ok _
  split
  · exact noUb_ok _
  refine noUb_bind ?_ (fun _ _ => ?_)
  · split
    · exact noUb_bind (noUb_idx _ _) (fun _ _ => noUb_bind (noUb_idx _ _)
        (fun _ _ => noUb_ok _))
    · exact noUb_ok _
  split
  · exact noUb_ok _
  split
  · exact noUb_ok _
  refine noUb_bind (noUb_successorRoot ..) (fun r _ => ?_)
  cases r with
  | none => exact noUb_ok _
  | some root =>
    simp only
    split
    · exact noUb_ok _
    · exact noUb_addNode ..

theorem noUb_successorsLoop {cfg : Cfg} {m : Mesh K} (hm : NoBoundaryIndex m) : ∀ (fuel : Nat)
    (visited : List UInt32) (node : SearchNode K) (inst : Inst K),
    NoUb (successorsLoop cfg m fuel visited node inst) := by
  intro fuel
  induction fuel with
  | zero => intro visited node inst; exact noUb_fuel
  | succ fuel ih =>
    intro visited node inst
    unfold successorsLoop
    refine noUb_bind (noUb_edgesBetween hm _) (fun succs he => noUb_bind
      (noUb_foldlM _ _ (fun _ s hs => noUb_expandOne _ _ _ _ he s hs)) (fun inst1 hf => ?_))
    split
    · split
      · simp only
        split
        · exact noUb_ok _
        · split
          · exact noUb_ok _
          · exact ih _ _ _
      · exact noUb_ok _
    · exact noUb_ok _

theorem noUb_detailedLength (m : Mesh K) : ∀ (l : List (Vec2 K × UInt8)) (acc : K)
    (cur : Vec2 K × UInt8), NoUb (detailedLength m acc cur l)
  | [], _, _ => noUb_ok _
  | _ :: l, _, _ => noUb_bind (noUb_idx _ _) (fun _ _ => noUb_detailedLength m l _ _)

theorem noUb_next (heap : Heap K) (cfg : Cfg) {m : Mesh K} (hm : NoBoundaryIndex m) (inst : Inst K) :
    NoUb (inst.next heap cfg m) := by
  unfold Inst.next
  split
  · exact noUb_ok _
  · simp only
    split
    · exact noUb_ok _
    · split
      · refine noUb_bind ?_ (fun _ _ => noUb_ok _)
        unfold foundPath
        simp only
        split
        · exact noUb_bind (noUb_detailedLength ..) (fun _ _ => noUb_ok _)
        · exact noUb_ok _
      · refine noUb_bind ?_ (fun _ _ => noUb_ok _)
        unfold Inst.successors
        exact noUb_bind (noUb_successorsLoop hm _ _ _ _)
          (fun _ _ => noUb_ok _)

theorem noUb_searchLoop (heap : Heap K) (cfg : Cfg) {m : Mesh K} (hm : NoBoundaryIndex m) : ∀ (n : Nat) (inst : Inst K)
    (paths : List (Path K)), NoUb (searchLoop heap cfg m n inst paths) := by
  intro n
  induction n with
  | zero => intro _ _; exact noUb_ok _
  | succ n ih =>
    intro inst paths
    unfold searchLoop
    refine noUb_bind (noUb_next _ _ hm ..) (fun r _ => ?_)
    obtain ⟨st, inst'⟩ := r
    cases st with
    | found p =>
      simp only
      split
      · exact ih _ _
      · exact noUb_ok _
    | notFound =>
      simp only
      split
      · exact ih _ _
      · exact ih _ _
    | «continue» => exact ih _ _

theorem noUb_pointInEdges (l : Layer K) (pt : Vec2 K) (es : List (UInt32 × UInt32)) :
    NoUb (l.pointInEdges pt es) := by
  obtain ⟨b, hb⟩ := safe_pointInEdges l pt es
  rw [hb]
  exact noUb_ok _

theorem noUb_pointInPolygon (l : Layer K) (pt : Vec2 K) (p : Polygon) :
    NoUb (l.pointInPolygon pt p) :=
  noUb_bind (noUb_edgesIndex _) (fun _ _ => noUb_pointInEdges _ _ _)

theorem noUb_scanPolygons (l : Layer K) (pt : Vec2 K) : ∀ ps i, NoUb (l.scanPolygons pt i ps)
  | [], _ => noUb_ok _
  | p :: ps, i => by
    unfold Layer.scanPolygons
    refine noUb_bind (noUb_pointInPolygon ..) (fun b _ => ?_)
    split
    · exact noUb_ok _
    · exact noUb_scanPolygons l pt ps _

theorem noUb_locate (l : Layer K) (bvh : Bvh K) (pt : Vec2 K) : NoUb (l.locate bvh pt) := by
  unfold Layer.locate
  split
  · exact noUb_scanPolygons ..
  · unfold Layer.locationUnitBaked
    refine noUb_bind (noUb_findFirst _ (fun i _ => ?_)) (fun _ _ => noUb_ok _)
    refine noUb_bind (noUb_idx _ _) (fun _ _ => noUb_bind (noUb_pointInPolygon ..)
      (fun _ _ => ?_))
    split <;> exact noUb_ok _

theorem noUb_getPointLocation (m : Mesh K) (bvh : Bvh K) (c : Coords K) :
    NoUb (m.getPointLocation bvh c) := by
  have h : ∀ i l, NoUb (m.locationInLayer bvh c.pos i l) := by
    intro i l
    unfold Mesh.locationInLayer
    refine noUb_bind (noUb_findFirst _ (fun d _ => ?_)) (fun _ _ => noUb_ok _)
    exact noUb_bind (noUb_locate ..) (fun _ _ => noUb_ok _)
  unfold Mesh.getPointLocation
  split
  · split
    · exact noUb_bind (h _ _) (fun _ _ => noUb_ok _)
    · exact noUb_ok _
  · refine noUb_bind (noUb_findFirst _ (fun il _ => ?_)) (fun _ _ => noUb_ok _)
    exact noUb_bind (h _ _) (fun _ _ => noUb_ok _)

theorem noUb_closestLoop (m : Mesh K) (layer : Option UInt8)
    (inner : Nat → Layer K → Res (Option (Vec2 K × UInt32))) (h : ∀ s l, NoUb (inner s l)) :
    NoUb (m.closestLoop layer inner) := by
  have h' : ∀ s i l, NoUb (closestInLayer (inner s) i l) :=
    fun s i l => noUb_bind (h s l) (fun _ _ => noUb_ok _)
  unfold Mesh.closestLoop
  split
  · exact noUb_bind (noUb_idx _ _) (fun _ _ => noUb_findFirst _ (fun _ _ => h' _ _ _))
  · exact noUb_findFirst _ (fun _ _ => noUb_findFirst _ (fun _ _ => h' _ _ _))

theorem noUb_getClosestPoint (m : Mesh K) (bvh : Bvh K) (c : Coords K) :
    NoUb (m.getClosestPoint bvh c) := by
  refine noUb_closestLoop _ _ _ (fun s l => ?_)
  unfold Layer.closestInner
  refine noUb_findFirst _ (fun _ _ => ?_)
  exact noUb_bind (noUb_locate ..) (fun _ _ => noUb_ok _)

theorem noUb_endpointPolygon (m : Mesh K) (bvh : Bvh K) (c : Coords K) :
    NoUb (m.endpointPolygon bvh c) := by
  unfold Mesh.endpointPolygon
  split
  · exact noUb_ok _
  · exact noUb_bind (noUb_getClosestPoint ..) (fun _ _ => noUb_ok _)

theorem noUb_pathBetween (heap : Heap K) (cfg : Cfg) {m : Mesh K} (hm : NoBoundaryIndex m) (src dst : Vec2 K) (s e : UInt32)
    (blocked : List UInt8) : NoUb (m.pathBetween heap cfg src dst s e blocked) := by
  unfold Mesh.pathBetween
  refine noUb_bind ?_ (fun b _ => ?_)
  · unfold Mesh.islandsDiffer
    split
    · refine noUb_bind (noUb_idx _ _) (fun _ _ => ?_)
      split
      · exact noUb_ok _
      · split <;> exact noUb_ok _
    · exact noUb_ok _
  · split
    · exact noUb_ok _
    · split
      · exact noUb_ok _
      · refine noUb_bind (noUb_setup ..) (fun _ _ => noUb_bind (noUb_searchLoop _ _ hm ..)
          (fun r _ => ?_))
        cases r with
        | inl p => exact noUb_ok _
        | inr ps =>
          simp only [pickPath]
          split
          · split
            · exact noUb_panic
            · exact noUb_ok _
          · exact noUb_ok _

theorem noUb_pollSteps (heap : Heap K) (cfg : Cfg) {m : Mesh K} (hm : NoBoundaryIndex m) : ∀ (n : Nat) (inst : Inst K),
    NoUb (pollSteps heap cfg m n inst) := by
  intro n
  induction n with
  | zero => intro _; exact noUb_ok _
  | succ n ih =>
    intro inst
    unfold pollSteps
    refine noUb_bind (noUb_next _ _ hm ..) (fun r _ => ?_)
    obtain ⟨st, inst'⟩ := r
    cases st with
    | found p => exact noUb_ok _
    | notFound => exact noUb_ok _
    | «continue» => exact ih _

theorem noUb_poll (bvh : Bvh K) (heap : Heap K) (cfg : Cfg) {m : Mesh K} (hm : NoBoundaryIndex m) (f : FuturePath K) :
    NoUb (f.poll bvh heap cfg m) := by
  unfold FuturePath.poll
  split
  · refine noUb_bind (noUb_pollSteps _ _ hm ..) (fun r _ => ?_)
    obtain ⟨o, inst⟩ := r
    simp only
    split <;> exact noUb_ok _
  · refine noUb_bind (noUb_getPointLocation ..) (fun s _ => ?_)
    split
    · exact noUb_ok _
    · refine noUb_bind (noUb_getPointLocation ..) (fun e _ => ?_)
      split
      · exact noUb_ok _
      · refine noUb_bind ?_ (fun b _ => ?_)
        · unfold Mesh.islandsDifferAsync
          split
          · refine noUb_bind (noUb_idx _ _) (fun _ _ => ?_)
            split
            · exact noUb_ok _
            · split <;> exact noUb_ok _
          · exact noUb_ok _
        · split
          · exact noUb_ok _
          · split
            · exact noUb_ok _
            · exact noUb_bind (noUb_setup ..) (fun _ _ => noUb_ok _)

end Polyanya
