import Verif.Proofs.CutOff
import Verif.Props.Detailed
import Verif.Proofs.Safe
/-
**C59.** Blocking layers is the same as searching the mesh in which these layers are outside; so the path found
with blocked layers is a shortest one among those that do not enter these layers.
-/

namespace Polyanya

set_option linter.unusedSectionVars false

variable {K : Type} [Scalar K]

/-- A query, given the search between polygons. -/
def queryWith (x y : Res (Option UInt32)) (go : UInt32 → UInt32 → Res (Option (Path K))) : Res (Option (Path K)) :=
  x >>= fun s => match s with
    | none => .ok none
    | some s => y >>= fun e => match e with
      | none => .ok none
      | some e => go s e

theorem pathOnLayers_eq (bvh : Bvh K) (heap : Heap K) (cfg : Cfg) (m : Mesh K) (src dst : Coords K)
    (blocked : List UInt8) :
    m.pathOnLayers bvh heap cfg src dst blocked = queryWith (m.endpointPolygon bvh src) (m.endpointPolygon bvh dst)
      (fun s e => m.pathBetween heap cfg src.pos dst.pos s e blocked) := by
  unfold Mesh.pathOnLayers queryWith
  rfl

theorem queryWith_congr {x y : Res (Option UInt32)} {f g : UInt32 → UInt32 → Res (Option (Path K))}
    (h : ∀ s e, y = .ok (some e) → f s e = g s e) : queryWith x y f = queryWith x y g := by
  unfold queryWith
  cases x with
  | error _ => rfl
  | ok s =>
    cases s with
    | none => rfl
    | some s =>
      cases y with
      | error _ => rfl
      | ok e =>
        cases e with
        | none => rfl
        | some e => exact h s e rfl

/-- **C59.** A query with blocked layers gives exactly what the query without blocked layers gives on the mesh in which
the blocked layers are outside. -/
theorem C59_blocked_is_outside (bvh : Bvh K) (heap : Heap K) (cfg : Cfg) (m : Mesh K) (hsize : m.Sized)
    (hone : m.OneOtherSide) (src dst : Coords K) (blocked : List UInt8) :
    m.pathOnLayers bvh heap cfg src dst blocked = (m.cutOff blocked).path bvh heap cfg src dst := by
  rw [Mesh.path, pathOnLayers_eq, pathOnLayers_eq, endpointPolygon_cutOff, endpointPolygon_cutOff]
  exact queryWith_congr fun s e he => pathBetween_cutOff heap cfg hone _ _ s e
    (located_ne_max hsize (endpointPolygon_located.1 he)) blocked

theorem hasPolygon_cutOff {m : Mesh K} {B : List UInt8} {id : UInt32} {l' : Layer K} {p : Polygon} :
    HasPolygon (m.cutOff B) id l' p ↔ ∃ l, HasPolygon m id l p ∧ l' = l.cutOff B := by
  unfold HasPolygon Mesh.cutOff
  simp only [List.getElem?_map, Option.map_eq_some_iff]
  constructor
  · rintro ⟨⟨l, h1, rfl⟩, h2⟩
    exact ⟨l, ⟨h1, h2⟩, rfl⟩
  · rintro ⟨l, ⟨h1, h2⟩, rfl⟩
    exact ⟨⟨l, h1, rfl⟩, h2⟩

/-- **C59** (the cut off mesh). In the mesh in which the blocked layers are outside, the crossings are those of the mesh
that do not lead into a blocked layer. -/
theorem C59_crossings (m : Mesh K) (blocked : List UInt8) (c : Crossing) :
    c.Valid (m.cutOff blocked) ↔ c.Valid m ∧ Unblocked blocked c.dst := by
  have mem : ∀ v : Vertex K, c.dst ≠ u32Max →
      (c.dst ∈ (v.cutOff blocked).polygons ↔ c.dst ∈ v.polygons ∧ Unblocked blocked c.dst) := by
    intro v hne
    have hu : Unblocked blocked c.dst ↔ blocked.contains (layerOf c.dst) = false := by
      unfold Unblocked
      rw [← layerOf_toNat]
      rw [Bool.eq_false_iff, Ne, List.contains_iff_mem]
      constructor
      · intro h hm; exact h _ hm rfl
      · intro h b hb e; exact h (by rw [← UInt8.toNat_inj.1 e]; exact hb)
    rw [hu]
    unfold Vertex.cutOff
    simp only [List.mem_map]
    constructor
    · rintro ⟨p, hp, h⟩
      split at h
      · exact absurd h.symm hne
      · rename_i hb
        subst h
        exact ⟨hp, by simpa using hb⟩
    · rintro ⟨h1, h2⟩
      exact ⟨_, h1, by rw [h2]; simp⟩
  constructor
  · rintro ⟨l', p, va, vb, h1, h2, h3, h4, h5, h6, h7, h8⟩
    obtain ⟨l, k1, rfl⟩ := hasPolygon_cutOff.1 h1
    simp only [Layer.cutOff, List.getElem?_map, Option.map_eq_some_iff] at h3 h4
    obtain ⟨va, h3, rfl⟩ := h3
    obtain ⟨vb, h4, rfl⟩ := h4
    obtain ⟨h5, hu⟩ := (mem va h7).1 h5
    exact ⟨⟨l, p, va, vb, k1, h2, h3, h4, h5, ((mem vb h7).1 h6).1, h7, h8⟩, hu⟩
  · rintro ⟨⟨l, p, va, vb, h1, h2, h3, h4, h5, h6, h7, h8⟩, hu⟩
    refine ⟨l.cutOff blocked, p, va.cutOff blocked, vb.cutOff blocked, hasPolygon_cutOff.2 ⟨l, h1, rfl⟩, h2, ?_, ?_,
      (mem va h7).2 ⟨h5, hu⟩, (mem vb h7).2 ⟨h6, hu⟩, h7, h8⟩
    · simp [Layer.cutOff, List.getElem?_map, h3]
    · simp [Layer.cutOff, List.getElem?_map, h4]

theorem located_cutOff {m : Mesh K} {B : List UInt8} {bvh : Bvh K} {c : Coords K} {id : UInt32} :
    Located (m.cutOff B) bvh c id ↔ Located m bvh c id := by
  rw [← endpointPolygon_located, ← endpointPolygon_located, endpointPolygon_cutOff]

theorem sized_cutOff {m : Mesh K} {B : List UInt8} (h : m.Sized) : (m.cutOff B).Sized := by
  intro l hl
  simp only [Mesh.cutOff, List.mem_map] at hl
  obtain ⟨k, hk, rfl⟩ := hl
  exact h k hk

section
variable {F : Type} [Field F] [LinearOrder F] [Scalar F] {m : Mesh (Ext F)} {B : List UInt8}

theorem vertexAt_cutOff {l : Layer (Ext F)} {i : UInt32} {x : Vec2 F} :
    VertexAt (l.cutOff B) i x ↔ VertexAt l i x := by
  unfold VertexAt Layer.cutOff
  simp only [List.getElem?_map, Option.map_eq_some_iff]
  constructor
  · rintro ⟨_, ⟨v, h1, rfl⟩, h2⟩
    exact ⟨v, h1, h2⟩
  · rintro ⟨v, h1, h2⟩
    exact ⟨_, ⟨v, h1, rfl⟩, h2⟩

theorem ring_cutOff {id : UInt32} {ps : List (Vec2 F)} : Ring (m.cutOff B) id ps ↔ Ring m id ps := by
  unfold Ring
  constructor
  · rintro ⟨l', p, h1, h2⟩
    obtain ⟨l, k1, rfl⟩ := hasPolygon_cutOff.1 h1
    exact ⟨l, p, k1, h2.imp fun _ _ h => vertexAt_cutOff.1 h⟩
  · rintro ⟨l, p, h1, h2⟩
    exact ⟨_, p, hasPolygon_cutOff.2 ⟨l, h1, rfl⟩, h2.imp fun _ _ h => vertexAt_cutOff.2 h⟩

theorem inPolygon_cutOff {id : UInt32} {x : Vec2 F} : InPolygon (m.cutOff B) id x ↔ InPolygon m id x := by
  unfold InPolygon
  simp only [ring_cutOff]

theorem at_cutOff {c : Crossing} {A D : Vec2 F} : c.At (m.cutOff B) A D ↔ c.At m A D := by
  unfold Crossing.At Mesh.cutOff
  simp only [List.getElem?_map, Option.map_eq_some_iff]
  constructor
  · rintro ⟨_, ⟨l, h1, rfl⟩, h2, h3⟩
    exact ⟨l, h1, vertexAt_cutOff.1 h2, vertexAt_cutOff.1 h3⟩
  · rintro ⟨l, h1, h2, h3⟩
    exact ⟨_, ⟨l, h1, rfl⟩, vertexAt_cutOff.2 h2, vertexAt_cutOff.2 h3⟩

theorem isVertex_cutOff {v : Vec2 F} : IsVertex (m.cutOff B) v ↔ IsVertex m v := by
  unfold IsVertex Mesh.cutOff
  simp only [List.mem_map]
  constructor
  · rintro ⟨_, ⟨l, h1, rfl⟩, i, h2⟩
    exact ⟨l, h1, i, vertexAt_cutOff.1 h2⟩
  · rintro ⟨l, h1, i, h2⟩
    exact ⟨_, ⟨l, h1, rfl⟩, i, vertexAt_cutOff.2 h2⟩

theorem isEdgeAt_cutOff {A D : Vec2 F} : IsEdgeAt (m.cutOff B) A D ↔ IsEdgeAt m A D := by
  unfold IsEdgeAt
  simp only [ring_cutOff]

theorem eye_cutOff {start r : Vec2 F} : Eye (m.cutOff B) start r ↔ Eye m start r := by
  unfold Eye
  rw [isVertex_cutOff]

theorem sight_cutOff {start r A D x : Vec2 F} : Sight (m.cutOff B) start r A D x ↔ Sight m start r A D x := by
  unfold Sight
  simp only [isEdgeAt_cutOff, eye_cutOff]

theorem noNearMiss_cutOff {start goal : Vec2 F} (h : NoNearMiss m start goal) :
    NoNearMiss (m.cutOff B) start goal where
  sides r A D x v h1 h2 h3 := h.sides r A D x v (eye_cutOff.1 h1) (sight_cutOff.1 h2)
    (h3.imp isVertex_cutOff.1 id)
  hits r A D x C E t h1 h2 h3 := h.hits r A D x C E t (eye_cutOff.1 h1) (sight_cutOff.1 h2) (isEdgeAt_cutOff.1 h3)
  ends r A D x v h1 h2 := h.ends r A D x v (eye_cutOff.1 h1) (sight_cutOff.1 h2)
  apart v w h1 h2 := h.apart v w (isVertex_cutOff.1 h1) (isVertex_cutOff.1 h2)
  flat r A D x y z h1 h2 h3 := h.flat r A D x y z (eye_cutOff.1 h1) (sight_cutOff.1 h2) (sight_cutOff.1 h3)

theorem spaced_cutOff {start goal : Vec2 F} (h : Spaced m start goal) : Spaced (m.cutOff B) start goal := by
  intro r hr z z' hz hz'
  simp only [Listed, isEdgeAt_cutOff, eye_cutOff] at hr hz hz'
  exact h r hr z z' hz hz'

theorem plain_cutOff {cfg : Cfg} {start goal : Vec2 F} (h : cfg.Plain m start goal) : cfg.Plain (m.cutOff B) start goal := by
  intro hd
  obtain ⟨h1, h2⟩ := h hd
  refine ⟨⟨?_, ?_⟩, spaced_cutOff h2⟩ <;> intro l hl <;> simp only [Mesh.cutOff, List.mem_map] at hl <;>
    obtain ⟨k, hk, rfl⟩ := hl
  · exact h1.one k hk
  · simpa [Layer.cutOff] using h1.small k hk

theorem conforming_cutOff (h : Conforming m) : Conforming (m.cutOff B) where
  convex id l p hp := by
    obtain ⟨l, kp, rfl⟩ := hasPolygon_cutOff.1 hp
    obtain ⟨ps, h1, h2⟩ := h.convex id l p kp
    exact ⟨ps, ring_cutOff.2 h1, h2⟩
  shared c hc A D hat := by
    obtain ⟨ps, h1, h2⟩ := h.shared c ((C59_crossings m B c).1 hc).1 A D (at_cutOff.1 hat)
    exact ⟨ps, ring_cutOff.2 h1, h2⟩

theorem straight_cutOff {s e : UInt32} {p q : Vec2 F} :
    Straight (m.cutOff B) s p e q ↔ StraightAvoiding m B s p e q := by
  constructor
  · intro h
    induction h with
    | stay h1 h2 => exact .stay (inPolygon_cutOff.1 h1) (inPolygon_cutOff.1 h2)
    | @cross c e p y q A D h1 h2 h3 h4 h5 _ ih =>
      obtain ⟨hv, hu⟩ := (C59_crossings m B c).1 h2
      exact .cross (inPolygon_cutOff.1 h1) hv hu (at_cutOff.1 h3) h4 h5 ih
  · intro h
    induction h with
    | stay h1 h2 => exact .stay (inPolygon_cutOff.2 h1) (inPolygon_cutOff.2 h2)
    | @cross c e p y q A D h1 hv hu h3 h4 h5 _ ih =>
      exact .cross (inPolygon_cutOff.2 h1) ((C59_crossings m B c).2 ⟨hv, hu⟩) (at_cutOff.2 h3) h4 h5 ih

/-- **C59** (walks). Walking in the mesh in which the blocked layers are outside is walking without entering them. -/
theorem C59_walks {s e : UInt32} {p q : Vec2 F} {ws : List (Vec2 F)} :
    Walk (m.cutOff B) s p e q ws ↔ WalkAvoiding m B s p e q ws := by
  constructor
  · intro h
    induction h with
    | nil h1 => exact .nil (inPolygon_cutOff.1 h1)
    | cons h1 _ ih => exact .cons (straight_cutOff.1 h1) ih
  · intro h
    induction h with
    | nil h1 => exact .nil (inPolygon_cutOff.2 h1)
    | cons h1 _ ih => exact .cons (straight_cutOff.2 h1) ih

end

theorem shortestPath_cutOff {m : Mesh (Ext ℝ)} {B : List UInt8} {s e : UInt32} {start goal : Vec2 ℝ}
    {p : Path (Ext ℝ)} : ShortestPath (m.cutOff B) s start e goal p ↔ ShortestAvoiding m B s start e goal p := by
  unfold ShortestPath ShortestAvoiding ShortestWalk
  simp only [C59_walks]

/-- **C59** (shortest). With blocked layers, a path that is returned is a shortest one among those that do not enter
them. -/
theorem C59_shortest (bvh : Bvh (Ext ℝ)) (heap : Heap (Ext ℝ)) (hmax : heap.Max) (cfg : Cfg)
    (m : Mesh (Ext ℝ)) (hsize : m.Sized) (hone : m.OneOtherSide) (hc : Conforming m)
    (blocked : List UInt8)
    (src dst : Coords (Ext ℝ)) (start goal : Vec2 ℝ) (hcfg : cfg.Plain m start goal)
    (hsrc : src.pos = start.fin) (hdst : dst.pos = goal.fin)
    (hs : ∀ s, Located m bvh src s → InPolygon m s start)
    (he : ∀ e, Located m bvh dst e → InPolygon m e goal)
    (hnav : ∀ s e, Located m bvh src s → Located m bvh dst e → Navigable (m.cutOff blocked) s start e goal)
    (hm : NoNearMiss m start goal) (p : Path (Ext ℝ))
    (h : m.pathOnLayers bvh heap cfg src dst blocked = .ok (some p)) :
    ∃ s e, Located m bvh src s ∧ Located m bvh dst e ∧ ShortestAvoiding m blocked s start e goal p := by
  rw [C59_blocked_is_outside bvh heap cfg m hsize hone] at h
  obtain ⟨s, e, h1, h2, h3⟩ := C76_either_shortest bvh heap hmax cfg (m.cutOff blocked) (sized_cutOff hsize)
    (conforming_cutOff hc) src dst start goal (plain_cutOff hcfg) hsrc hdst (fun s hl => inPolygon_cutOff.2 (hs s (located_cutOff.1 hl)))
    (fun e hl => inPolygon_cutOff.2 (he e (located_cutOff.1 hl)))
    (fun s e h1 h2 => hnav s e (located_cutOff.1 h1) (located_cutOff.1 h2)) (noNearMiss_cutOff hm) p h
  exact ⟨s, e, located_cutOff.1 h1, located_cutOff.1 h2, shortestPath_cutOff.1 h3⟩

/-- **C59** (completeness). If one can walk between the located polygons without entering a blocked layer, then the query
returns a shortest such path, or it gives up because the number of its steps is limited. -/
theorem C59_complete (bvh : Bvh (Ext ℝ)) (heap : Heap (Ext ℝ)) (hmax : heap.Max) (cfg : Cfg)
    (m : Mesh (Ext ℝ)) (hsize : m.Sized) (hone : m.OneOtherSide) (hc : Conforming m)
    (hisl : m.layers.length = 1 → ∀ l ∈ m.layers, l.islands = none) (blocked : List UInt8)
    (src dst : Coords (Ext ℝ)) (start goal : Vec2 ℝ) (hcfg : cfg.Plain m start goal)
    (hsrc : src.pos = start.fin) (hdst : dst.pos = goal.fin)
    (s e : UInt32) (hls : Located m bvh src s) (hle : Located m bvh dst e)
    (hs : InPolygon m s start) (hnav : Navigable (m.cutOff blocked) s start e goal) (he : InPolygon m e goal)
    (hm : NoNearMiss m start goal) (ws : List (Vec2 ℝ)) (hw : WalkAvoiding m blocked s start e goal ws)
    (r : Option (Path (Ext ℝ))) (h : m.pathOnLayers bvh heap cfg src dst blocked = .ok r) :
    (∃ p, r = some p ∧ ShortestAvoiding m blocked s start e goal p) ∨
    (r = none ∧ BudgetUsedUp heap cfg (m.cutOff blocked) src.pos dst.pos s e) := by
  rw [C59_blocked_is_outside bvh heap cfg m hsize hone] at h
  rcases C76_either_complete bvh heap hmax cfg (m.cutOff blocked) (sized_cutOff hsize) (conforming_cutOff hc)
    (by
      intro h1
      left
      intro l hl
      simp only [Mesh.cutOff, List.mem_map, List.length_map] at hl h1
      obtain ⟨k, hk, rfl⟩ := hl
      exact hisl h1 k hk) src dst start goal (plain_cutOff hcfg) hsrc hdst s e (located_cutOff.2 hls) (located_cutOff.2 hle)
    (inPolygon_cutOff.2 hs) hnav (inPolygon_cutOff.2 he) (noNearMiss_cutOff hm) ws (C59_walks.2 hw) r h
    with ⟨p, rfl, hp⟩ | hb
  · exact .inl ⟨p, rfl, shortestPath_cutOff.1 hp⟩
  · exact .inr hb

end Polyanya
