import Verif.Proofs.Corridor
import Mathlib.Data.List.Nodup
import Mathlib.Data.List.Perm.Subperm
/-
Termination: no query runs out of fuel.
-/

namespace Polyanya

variable {K : Type} [Scalar K] {α β σ : Type}

/-- The computation does not run out of fuel (it may panic). -/
structure NoFuel (x : Res α) : Prop where
  ne : x ≠ .error .fuel

theorem noFuel_ok (a : α) : NoFuel (.ok a : Res α) := ⟨by simp⟩
theorem noFuel_panic : NoFuel (.error .panic : Res α) := ⟨by simp⟩
theorem noFuel_ub : NoFuel (.error .ub : Res α) := ⟨by simp⟩

theorem noFuel_bind {x : Res α} {f : α → Res β} (hx : NoFuel x)
    (hf : ∀ a, x = .ok a → NoFuel (f a)) : NoFuel (x >>= f) := by
  cases x with
  | error e => exact ⟨by simpa using hx.ne⟩
  | ok a => exact hf a rfl

theorem noFuel_idx (l : List α) (i : Nat) : NoFuel (idx l i) := by
  unfold idx; split
  · exact noFuel_ok _
  · exact noFuel_panic

theorem noFuel_idxUnchecked (l : List α) (i : Nat) : NoFuel (idxUnchecked l i) := by
  unfold idxUnchecked; split
  · exact noFuel_ok _
  · exact noFuel_ub

theorem noFuel_findFirst {f : α → Res (Option β)} (l : List α) (h : ∀ a ∈ l, NoFuel (f a)) :
    NoFuel (findFirst f l) := by
  induction l with
  | nil => exact noFuel_ok _
  | cons a l ih =>
    refine noFuel_bind (h a (List.mem_cons_self ..)) (fun r _ => ?_)
    cases r with
    | some b => exact noFuel_ok _
    | none => exact ih (fun x hx => h x (List.mem_cons_of_mem _ hx))

theorem noFuel_mapM {f : α → Res β} (l : List α) (h : ∀ a ∈ l, NoFuel (f a)) :
    NoFuel (l.mapM f) := by
  induction l with
  | nil => simpa using noFuel_ok _
  | cons a l ih =>
    rw [List.mapM_cons]
    refine noFuel_bind (h a (List.mem_cons_self ..)) (fun _ _ => ?_)
    exact noFuel_bind (ih (fun x hx => h x (List.mem_cons_of_mem _ hx))) (fun _ _ => noFuel_ok _)

theorem noFuel_foldlM {f : σ → α → Res σ} (l : List α) (s : σ)
    (h : ∀ s, ∀ a ∈ l, NoFuel (f s a)) : NoFuel (l.foldlM f s) := by
  induction l generalizing s with
  | nil => exact noFuel_ok _
  | cons a l ih =>
    rw [List.foldlM_cons]
    exact noFuel_bind (h s a (List.mem_cons_self ..))
      (fun s' _ => ih s' (fun s x hx => h s x (List.mem_cons_of_mem _ hx)))

theorem noFuel_edgesIndex (p : Polygon) : NoFuel p.edgesIndex := by
  unfold Polygon.edgesIndex; split
  · exact noFuel_panic
  · exact noFuel_ok _

theorem noFuel_addNode (cfg : Cfg) (m : Mesh K) (inst : Inst K) (root : Vec2 K) (o : UInt32)
    (start stop : Vec2 K × UInt32) (node : SearchNode K) :
    NoFuel (inst.addNode cfg m root o start stop node) := by
  unfold Inst.addNode
  refine noFuel_bind ?_ (fun _ _ => noFuel_bind ?_ (fun _ _ => ?_))
  · unfold newDistance
    split
    · exact noFuel_ok _
    · split
      · exact noFuel_bind (noFuel_idx _ _) (fun _ _ => noFuel_ok _)
      · exact noFuel_ok _
  · unfold newHeuristic
    split
    · exact noFuel_bind (noFuel_idx _ _) (fun _ _ => noFuel_bind (noFuel_idx _ _)
        (fun _ _ => noFuel_ok _))
    · exact noFuel_ok _
  · split
    · exact noFuel_ok _
    · simp only
      split
      · split <;> exact noFuel_ok _
      · exact noFuel_ok _

theorem noFuel_setup (cfg : Cfg) (m : Mesh K) (src dst : Vec2 K × UInt32) (blocked : List UInt8) :
    NoFuel (Inst.setup cfg m src dst blocked) := by
  unfold Inst.setup
  refine noFuel_bind (noFuel_idx _ _) (fun _ _ => noFuel_bind (noFuel_idx _ _) (fun _ _ =>
    noFuel_bind (noFuel_edgesIndex _) (fun _ _ => noFuel_bind ?_ (fun _ _ => noFuel_ok _))))
  refine noFuel_foldlM _ _ (fun inst e _ => ?_)
  unfold setupEdge
  split
  · simp only
    split
    · exact noFuel_ok _
    · refine noFuel_bind ?_ (fun _ _ => ?_)
      · split
        · exact noFuel_ok _
        · split
          · exact noFuel_ok _
          · exact noFuel_bind (noFuel_idx _ _) (fun _ _ => noFuel_bind (noFuel_idx _ _)
              (fun _ _ => noFuel_ok _))
      · split
        · exact noFuel_addNode ..
        · exact noFuel_ok _
  · exact noFuel_ok _

theorem noFuel_rightIndex (l : Layer K) (p : Polygon) (e : Vec2 K) : NoFuel (rightIndex l p e) := by
  unfold rightIndex
  refine noFuel_bind (noFuel_findFirst _ (fun _ _ => noFuel_bind (noFuel_idx _ _)
    (fun _ _ => noFuel_ok _))) (fun r _ => ?_)
  cases r with
  | some i => exact noFuel_ok _
  | none =>
    refine noFuel_bind (noFuel_mapM _ (fun _ _ => noFuel_bind (noFuel_idx _ _)
      (fun _ _ => noFuel_ok _))) (fun ds _ => ?_)
    split
    · exact noFuel_panic
    · split
      · exact noFuel_ok _
      · exact noFuel_panic

theorem noFuel_edgesBetween (m : Mesh K) (node : SearchNode K) : NoFuel (edgesBetween m node) := by
  unfold edgesBetween
  refine noFuel_bind (noFuel_idx _ _) (fun _ _ => noFuel_bind (noFuel_idx _ _) (fun _ _ =>
    noFuel_bind (noFuel_idx _ _) (fun _ _ => noFuel_bind (noFuel_idx _ _) (fun _ _ =>
    noFuel_bind (noFuel_rightIndex _ _ _) (fun _ _ => noFuel_bind ?_ (fun _ _ =>
    noFuel_bind ?_ (fun _ _ => noFuel_ok _)))))))
  · exact noFuel_bind (noFuel_edgesIndex _) (fun _ _ => noFuel_ok _)
  · refine noFuel_foldlM _ _ (fun _ _ _ => ?_)
    unfold edgesBetweenStep
    split
    · exact noFuel_ok _
    · exact noFuel_bind (noFuel_idxUnchecked _ _) (fun _ _ => noFuel_bind (noFuel_idxUnchecked _ _)
        (fun _ _ => noFuel_ok _))

theorem noFuel_successorRoot (m : Mesh K) (b : List UInt8) (node : SearchNode K) (layer : Layer K)
    (start stop : Vertex K) (s : Successor K) : NoFuel (successorRoot m b node layer start stop s) := by
  unfold successorRoot
  split
  · split
    · exact noFuel_ok _
    · refine noFuel_bind (noFuel_idx _ _) (fun _ _ => noFuel_bind (noFuel_idx _ _) (fun _ _ => ?_))
      split <;> exact noFuel_ok _
  · exact noFuel_ok _
  · split
    · exact noFuel_ok _
    · refine noFuel_bind (noFuel_idx _ _) (fun _ _ => noFuel_bind (noFuel_idx _ _) (fun _ _ => ?_))
      split <;> exact noFuel_ok _

theorem noFuel_expandOne (cfg : Cfg) (m : Mesh K) (node : SearchNode K) (inst : Inst K)
    (s : Successor K) : NoFuel (expandOne cfg m node inst s) := by
  unfold expandOne
  refine noFuel_bind (noFuel_idx _ _) (fun _ _ => noFuel_bind (noFuel_idxUnchecked _ _) (fun _ _ =>
    noFuel_bind (noFuel_idxUnchecked _ _) (fun _ _ => ?_)))
  simp only
  split
  · exact noFuel_ok _
  split
  · exact noFuel_ok _
  refine noFuel_bind ?_ (fun _ _ => ?_)
  · split
    · exact noFuel_bind (noFuel_idx _ _) (fun _ _ => noFuel_bind (noFuel_idx _ _)
        (fun _ _ => noFuel_ok _))
    · exact noFuel_ok _
  split
  · exact noFuel_ok _
  split
  · exact noFuel_ok _
  refine noFuel_bind (noFuel_successorRoot ..) (fun r _ => ?_)
  cases r with
  | none => exact noFuel_ok _
  | some root =>
    simp only
    split
    · exact noFuel_ok _
    · exact noFuel_addNode ..

/-- All polygons of the mesh as (layer, polygon) pairs. -/
def Mesh.allPolygons (m : Mesh K) : List (Nat × Nat) :=
  m.layers.zipIdx.flatMap (fun li => (List.range li.1.polygons.length).map (fun j => (li.2, j)))

/-- The number of polygons of the mesh. -/
def Mesh.numPolygons (m : Mesh K) : Nat := (m.layers.map (·.polygons.length)).sum

theorem allPolygons_length (m : Mesh K) : m.allPolygons.length = m.numPolygons := by
  unfold Mesh.allPolygons Mesh.numPolygons
  rw [List.length_flatMap]
  congr 1
  simp only [List.length_map, List.length_range]
  conv_rhs => rw [← List.zipIdx_map_fst 0 m.layers]
  rw [List.map_map]
  rfl

theorem mem_allPolygons {m : Mesh K} {id : UInt32} (h : Open m id) :
    (idLayer id, idPolygon id) ∈ m.allPolygons := by
  obtain ⟨l, p, h1, h2, -⟩ := h
  rw [layerOf_toNat] at h1
  rw [polygonOf_toNat] at h2
  unfold Mesh.allPolygons
  rw [List.mem_flatMap]
  refine ⟨(l, idLayer id), List.mem_zipIdx_iff_getElem?.2 h1, ?_⟩
  simp only [List.mem_map, List.mem_range, Prod.mk.injEq, true_and, exists_eq_right]
  exact (List.getElem?_eq_some_iff.1 h2).1

theorem id_ext {a b : UInt32} (h1 : idLayer a = idLayer b) (h2 : idPolygon a = idPolygon b) : a = b := by
  apply UInt32.toNat_inj.1
  unfold idLayer at h1
  unfold idPolygon at h2
  omega

/-- A duplicate-free list of existing polygons is no longer than the number of polygons. -/
theorem visited_length {m : Mesh K} {vs : List UInt32} (hn : vs.Nodup) (h : ∀ v ∈ vs, Open m v) :
    vs.length ≤ m.numPolygons := by
  rw [← allPolygons_length, ← List.length_map (f := fun id => (idLayer id, idPolygon id))]
  apply List.Subperm.length_le
  apply List.subperm_of_subset
  · refine hn.map ?_
    intro a b hab
    simp only [Prod.mk.injEq] at hab
    exact id_ext hab.1 hab.2
  · intro x hx
    obtain ⟨id, hid, rfl⟩ := List.mem_map.1 hx
    exact mem_allPolygons (h id hid)

/-- Nodes in the buffer lead to an existing polygon, or to the goal. -/
theorem gen_open {q : Query K} {n : SearchNode K} (h : Gen q n) :
    n.polygonTo = q.dst.2 ∨ Open q.mesh n.polygonTo := by
  cases h with
  | setup hs =>
    obtain ⟨layer, poly, edges, edge, start, stop, hl, hp, he, hm, h0, h1, hb, hgo, hA⟩ := hs
    rw [(added_fields hA).2.1]
    exact hgo.imp id (·.2)
  | child _ hc =>
    obtain ⟨layer, succs, s, start, stop, root, hnd, hl, he, hs, h0, h1, hmax, hb, hgo, -, -, -, hA⟩
      := hc
    rw [(added_fields hA).2.1]
    exact hgo

theorem noFuel_successorsLoop {q : Query K} : ∀ (fuel : Nat) (visited : List UInt32)
    (node : SearchNode K) (inst : Inst K), Gen q node → node.polygonTo ≠ q.dst.2 → InstOk q inst →
    visited.Nodup → (∀ v ∈ visited, Open q.mesh v) →
    q.mesh.numPolygons < fuel + visited.length →
    NoFuel (successorsLoop q.cfg q.mesh fuel visited node inst) := by
  intro fuel
  induction fuel with
  | zero =>
    intro visited node inst _ _ _ hn ho hlt
    have := visited_length hn ho
    omega
  | succ fuel ih =>
    intro visited node inst hg hnd hi hn ho hlt
    unfold successorsLoop
    refine noFuel_bind (noFuel_edgesBetween _ _) (fun succs he => noFuel_bind
      (noFuel_foldlM _ _ (fun _ _ _ => noFuel_expandOne ..)) (fun inst1 hf => ?_))
    have h1 : InstOk q inst1 :=
      foldlM_inv (InstOk q) hi (fun s a s' ha hs hst => expandOne_ok hg hnd he ha hs hst) hf
    split
    · rename_i next hb
      have hnext : Gen q next := h1.buffer next (by simp [hb])
      have h2 : InstOk q { inst1 with nodeBuffer := [] } := { h1 with buffer := by simp }
      split
      · rename_i hne
        rw [h1.polygonTo] at hne
        simp only
        split
        · exact noFuel_ok _
        · split
          · exact noFuel_ok _
          · rename_i hv
            have hopen : Open q.mesh next.polygonTo := (gen_open hnext).resolve_left hne
            refine ih _ _ _ hnext hne h2 ?_ ?_ ?_
            · exact List.nodup_cons.2 ⟨by simpa using hv, hn⟩
            · intro v hv
              rcases List.mem_cons.1 hv with rfl | hv
              · exact hopen
              · exact ho v hv
            · simp only [List.length_cons]; omega
      · exact noFuel_ok _
    · exact noFuel_ok _

theorem successorsLoop_mono {cfg : Cfg} {m : Mesh K} : ∀ (fuel fuel' : Nat) (visited : List UInt32)
    (node : SearchNode K) (inst : Inst K), fuel ≤ fuel' →
    NoFuel (successorsLoop cfg m fuel visited node inst) →
    successorsLoop cfg m fuel' visited node inst = successorsLoop cfg m fuel visited node inst := by
  intro fuel
  induction fuel with
  | zero => intro fuel' visited node inst _ h; exact absurd rfl h.ne
  | succ fuel ih =>
    intro fuel' visited node inst hle h
    obtain ⟨fuel'', rfl⟩ : ∃ k, fuel' = k + 1 := ⟨fuel' - 1, by omega⟩
    unfold successorsLoop at h ⊢
    cases he : edgesBetween m node with
    | error e => rfl
    | ok succs =>
      rw [he] at h
      simp only [res_bind_ok] at h ⊢
      cases hf : succs.foldlM (expandOne cfg m node) inst with
      | error e => rfl
      | ok inst1 =>
        rw [hf] at h
        simp only [res_bind_ok] at h ⊢
        split
        · rename_i next hb
          simp only [hb] at h
          split
          · rename_i hne
            rw [if_pos hne] at h
            split
            · rfl
            · rename_i hr
              rw [if_neg hr] at h
              split
              · rfl
              · rename_i hv
                rw [if_neg hv] at h
                exact ih _ _ _ _ (by omega) h
          · rfl
        · rfl

theorem numPolygons_lt {q : Query K} (h : ∀ l ∈ q.mesh.layers, l.polygons.length ≤ 2 ^ 24)
    (hl : q.mesh.layers.length ≤ 256) : q.mesh.numPolygons < succFuel := by
  unfold Mesh.numPolygons succFuel
  have : ∀ (ls : List (Layer K)), (∀ l ∈ ls, l.polygons.length ≤ 2 ^ 24) →
      (ls.map (·.polygons.length)).sum ≤ ls.length * 2 ^ 24 := by
    intro ls
    induction ls with
    | nil => simp
    | cons l ls ih =>
      intro h
      have h1 := h l (List.mem_cons_self ..)
      have h2 := ih (fun x hx => h x (List.mem_cons_of_mem _ hx))
      simp only [List.map_cons, List.sum_cons, List.length_cons]
      omega
  have := this _ h
  omega

/-- On any mesh: the visited list is duplicate-free, so it cannot exceed `2^32` elements. -/
theorem nodup_u32_length {vs : List UInt32} (hn : vs.Nodup) : vs.length ≤ 2 ^ 32 := by
  have h1 : (vs.map UInt32.toNat).Nodup := hn.map (fun a b h => UInt32.toNat_inj.1 h)
  have h2 : (vs.map UInt32.toNat) ⊆ List.range (2 ^ 32) := by
    intro x hx
    obtain ⟨id, -, rfl⟩ := List.mem_map.1 hx
    rw [List.mem_range]
    exact id.toNat_lt
  have := (List.subperm_of_subset h1 h2).length_le
  rw [List.length_map, List.length_range] at this
  exact this

theorem noFuel_successorsLoop' {cfg : Cfg} {m : Mesh K} : ∀ (fuel : Nat) (visited : List UInt32)
    (node : SearchNode K) (inst : Inst K), visited.Nodup → 2 ^ 32 < fuel + visited.length →
    NoFuel (successorsLoop cfg m fuel visited node inst) := by
  intro fuel
  induction fuel with
  | zero =>
    intro visited node inst hn hlt
    have := nodup_u32_length hn
    omega
  | succ fuel ih =>
    intro visited node inst hn hlt
    unfold successorsLoop
    refine noFuel_bind (noFuel_edgesBetween _ _) (fun succs he => noFuel_bind
      (noFuel_foldlM _ _ (fun _ _ _ => noFuel_expandOne ..)) (fun inst1 hf => ?_))
    split
    · split
      · simp only
        split
        · exact noFuel_ok _
        · split
          · exact noFuel_ok _
          · rename_i hv
            exact ih _ _ _ (List.nodup_cons.2 ⟨by simpa using hv, hn⟩)
              (by simp only [List.length_cons]; omega)
      · exact noFuel_ok _
    · exact noFuel_ok _

theorem noFuel_detailedLength (m : Mesh K) : ∀ (l : List (Vec2 K × UInt8)) (acc : K)
    (cur : Vec2 K × UInt8), NoFuel (detailedLength m acc cur l)
  | [], _, _ => noFuel_ok _
  | _ :: l, _, _ => noFuel_bind (noFuel_idx _ _) (fun _ _ => noFuel_detailedLength m l _ _)

theorem noFuel_next (heap : Heap K) (cfg : Cfg) (m : Mesh K) (inst : Inst K) :
    NoFuel (inst.next heap cfg m) := by
  unfold Inst.next
  split
  · exact noFuel_ok _
  · simp only
    split
    · exact noFuel_ok _
    · split
      · refine noFuel_bind ?_ (fun _ _ => noFuel_ok _)
        unfold foundPath
        simp only
        split
        · exact noFuel_bind (noFuel_detailedLength ..) (fun _ _ => noFuel_ok _)
        · exact noFuel_ok _
      · refine noFuel_bind ?_ (fun _ _ => noFuel_ok _)
        unfold Inst.successors
        exact noFuel_bind (noFuel_successorsLoop' _ _ _ _ List.nodup_nil (by simp [succFuel]))
          (fun _ _ => noFuel_ok _)

theorem noFuel_searchLoop (heap : Heap K) (cfg : Cfg) (m : Mesh K) : ∀ (n : Nat) (inst : Inst K)
    (paths : List (Path K)), NoFuel (searchLoop heap cfg m n inst paths) := by
  intro n
  induction n with
  | zero => intro _ _; exact noFuel_ok _
  | succ n ih =>
    intro inst paths
    unfold searchLoop
    refine noFuel_bind (noFuel_next ..) (fun r _ => ?_)
    obtain ⟨st, inst'⟩ := r
    cases st with
    | found p =>
      simp only
      split
      · exact ih _ _
      · exact noFuel_ok _
    | notFound =>
      simp only
      split
      · exact ih _ _
      · exact ih _ _
    | «continue» => exact ih _ _

theorem noFuel_pointInEdges (l : Layer K) (pt : Vec2 K) : ∀ es, NoFuel (l.pointInEdges pt es)
  | [] => noFuel_ok _
  | e :: es => by
    unfold Layer.pointInEdges
    split
    · exact noFuel_ok _
    · refine noFuel_bind (noFuel_idxUnchecked _ _) (fun _ _ => noFuel_bind (noFuel_idxUnchecked _ _)
        (fun _ _ => ?_))
      simp only
      split
      · exact noFuel_ok _
      · split
        · exact noFuel_ok _
        · exact noFuel_pointInEdges l pt es

theorem noFuel_pointInPolygon (l : Layer K) (pt : Vec2 K) (p : Polygon) :
    NoFuel (l.pointInPolygon pt p) :=
  noFuel_bind (noFuel_edgesIndex _) (fun _ _ => noFuel_pointInEdges _ _ _)

theorem noFuel_scanPolygons (l : Layer K) (pt : Vec2 K) : ∀ ps i, NoFuel (l.scanPolygons pt i ps)
  | [], _ => noFuel_ok _
  | p :: ps, i => by
    unfold Layer.scanPolygons
    refine noFuel_bind (noFuel_pointInPolygon ..) (fun b _ => ?_)
    split
    · exact noFuel_ok _
    · exact noFuel_scanPolygons l pt ps _

theorem noFuel_locate (l : Layer K) (bvh : Bvh K) (pt : Vec2 K) : NoFuel (l.locate bvh pt) := by
  unfold Layer.locate
  split
  · exact noFuel_scanPolygons ..
  · unfold Layer.locationUnitBaked
    refine noFuel_bind (noFuel_findFirst _ (fun i _ => ?_)) (fun _ _ => noFuel_ok _)
    refine noFuel_bind (noFuel_idx _ _) (fun _ _ => noFuel_bind (noFuel_pointInPolygon ..)
      (fun _ _ => ?_))
    split <;> exact noFuel_ok _

theorem noFuel_getPointLocation (m : Mesh K) (bvh : Bvh K) (c : Coords K) :
    NoFuel (m.getPointLocation bvh c) := by
  have h : ∀ i l, NoFuel (m.locationInLayer bvh c.pos i l) := by
    intro i l
    unfold Mesh.locationInLayer
    refine noFuel_bind (noFuel_findFirst _ (fun d _ => ?_)) (fun _ _ => noFuel_ok _)
    exact noFuel_bind (noFuel_locate ..) (fun _ _ => noFuel_ok _)
  unfold Mesh.getPointLocation
  split
  · split
    · exact noFuel_bind (h _ _) (fun _ _ => noFuel_ok _)
    · exact noFuel_ok _
  · refine noFuel_bind (noFuel_findFirst _ (fun il _ => ?_)) (fun _ _ => noFuel_ok _)
    exact noFuel_bind (h _ _) (fun _ _ => noFuel_ok _)

theorem noFuel_closestLoop (m : Mesh K) (layer : Option UInt8)
    (inner : Nat → Layer K → Res (Option (Vec2 K × UInt32))) (h : ∀ s l, NoFuel (inner s l)) :
    NoFuel (m.closestLoop layer inner) := by
  have h' : ∀ s i l, NoFuel (closestInLayer (inner s) i l) :=
    fun s i l => noFuel_bind (h s l) (fun _ _ => noFuel_ok _)
  unfold Mesh.closestLoop
  split
  · exact noFuel_bind (noFuel_idx _ _) (fun _ _ => noFuel_findFirst _ (fun _ _ => h' _ _ _))
  · exact noFuel_findFirst _ (fun _ _ => noFuel_findFirst _ (fun _ _ => h' _ _ _))

theorem noFuel_getClosestPoint (m : Mesh K) (bvh : Bvh K) (c : Coords K) :
    NoFuel (m.getClosestPoint bvh c) := by
  refine noFuel_closestLoop _ _ _ (fun s l => ?_)
  unfold Layer.closestInner
  refine noFuel_findFirst _ (fun _ _ => ?_)
  exact noFuel_bind (noFuel_locate ..) (fun _ _ => noFuel_ok _)

theorem noFuel_endpointPolygon (m : Mesh K) (bvh : Bvh K) (c : Coords K) :
    NoFuel (m.endpointPolygon bvh c) := by
  unfold Mesh.endpointPolygon
  split
  · exact noFuel_ok _
  · exact noFuel_bind (noFuel_getClosestPoint ..) (fun _ _ => noFuel_ok _)

theorem noFuel_pathBetween (heap : Heap K) (cfg : Cfg) (m : Mesh K) (src dst : Vec2 K) (s e : UInt32)
    (blocked : List UInt8) : NoFuel (m.pathBetween heap cfg src dst s e blocked) := by
  unfold Mesh.pathBetween
  refine noFuel_bind ?_ (fun b _ => ?_)
  · unfold Mesh.islandsDiffer
    split
    · refine noFuel_bind (noFuel_idx _ _) (fun _ _ => ?_)
      split
      · exact noFuel_ok _
      · split <;> exact noFuel_ok _
    · exact noFuel_ok _
  · split
    · exact noFuel_ok _
    · split
      · exact noFuel_ok _
      · refine noFuel_bind (noFuel_setup ..) (fun _ _ => noFuel_bind (noFuel_searchLoop ..)
          (fun r _ => ?_))
        cases r with
        | inl p => exact noFuel_ok _
        | inr ps =>
          simp only [pickPath]
          split
          · split
            · exact noFuel_panic
            · exact noFuel_ok _
          · exact noFuel_ok _

theorem noFuel_pollSteps (heap : Heap K) (cfg : Cfg) (m : Mesh K) : ∀ (n : Nat) (inst : Inst K),
    NoFuel (pollSteps heap cfg m n inst) := by
  intro n
  induction n with
  | zero => intro _; exact noFuel_ok _
  | succ n ih =>
    intro inst
    unfold pollSteps
    refine noFuel_bind (noFuel_next ..) (fun r _ => ?_)
    obtain ⟨st, inst'⟩ := r
    cases st with
    | found p => exact noFuel_ok _
    | notFound => exact noFuel_ok _
    | «continue» => exact ih _

theorem noFuel_poll (bvh : Bvh K) (heap : Heap K) (cfg : Cfg) (m : Mesh K) (f : FuturePath K) :
    NoFuel (f.poll bvh heap cfg m) := by
  unfold FuturePath.poll
  split
  · refine noFuel_bind (noFuel_pollSteps ..) (fun r _ => ?_)
    obtain ⟨o, inst⟩ := r
    simp only
    split <;> exact noFuel_ok _
  · refine noFuel_bind (noFuel_getPointLocation ..) (fun s _ => ?_)
    split
    · exact noFuel_ok _
    · refine noFuel_bind (noFuel_getPointLocation ..) (fun e _ => ?_)
      split
      · exact noFuel_ok _
      · refine noFuel_bind ?_ (fun b _ => ?_)
        · unfold Mesh.islandsDifferAsync
          split
          · refine noFuel_bind (noFuel_idx _ _) (fun _ _ => ?_)
            split
            · exact noFuel_ok _
            · split <;> exact noFuel_ok _
          · exact noFuel_ok _
        · split
          · exact noFuel_ok _
          · split
            · exact noFuel_ok _
            · exact noFuel_bind (noFuel_setup ..) (fun _ _ => noFuel_ok _)

end Polyanya
