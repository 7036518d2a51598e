import Verif.Proofs.Fuel
import Verif.Spec.RatScalar
/-
Property C09: queries terminate on every mesh, consistent or not, for every arithmetic.
In the model the loop of `SearchInstance::successors` (the only unbounded loop of a query) carries fuel
and reports `Fault.fuel` if it would run on; the outer loop is bounded by the code itself
(`10 * polygons` pops, `searchLoop` recurses on that number).
-/

namespace Polyanya

variable {K : Type} [Scalar K]

/-- C09: `Mesh::path_on_layers` terminates: it never runs out of fuel, on any mesh. -/
theorem C09_path_terminates (bvh : Bvh K) (heap : Heap K) (cfg : Cfg) (m : Mesh K)
    (src dst : Coords K) (blocked : List UInt8) :
    m.pathOnLayers bvh heap cfg src dst blocked ≠ .error .fuel := by
  refine NoFuel.ne ?_
  unfold Mesh.pathOnLayers
  refine noFuel_bind (noFuel_endpointPolygon ..) (fun s _ => ?_)
  cases s with
  | none => exact noFuel_ok _
  | some s =>
    refine noFuel_bind (noFuel_endpointPolygon ..) (fun e _ => ?_)
    cases e with
    | none => exact noFuel_ok _
    | some e => exact noFuel_pathBetween ..

/-- C09: each poll of the future terminates, in every state of the future. -/
theorem C09_poll_terminates (bvh : Bvh K) (heap : Heap K) (cfg : Cfg) (m : Mesh K)
    (f : FuturePath K) : f.poll bvh heap cfg m ≠ .error .fuel := (noFuel_poll ..).ne

/-- C09: exploring one popped node takes at most (number of polygons of the mesh) + 1 rounds, because
each intermediate polygon is visited at most once: that much fuel is enough, and gives the same result as
any larger amount. `node` is any node the search of query `q` can hold, `inst` any state of that search. -/
theorem C09_chain_bounded (q : Query K) (inst : Inst K) (node : SearchNode K)
    (hi : InstOk q inst) (hn : Gen q node) (hnd : node.polygonTo ≠ q.dst.2) :
    successorsLoop q.cfg q.mesh (q.mesh.numPolygons + 1) [] node inst ≠ .error .fuel ∧
    ∀ fuel, q.mesh.numPolygons + 1 ≤ fuel →
      successorsLoop q.cfg q.mesh fuel [] node inst =
        successorsLoop q.cfg q.mesh (q.mesh.numPolygons + 1) [] node inst := by
  have h := noFuel_successorsLoop (q.mesh.numPolygons + 1) [] node inst hn hnd hi List.nodup_nil
    (by simp) (by simp)
  exact ⟨h.ne, fun fuel hf => successorsLoop_mono _ _ _ _ _ hf h⟩

/-- The states `C09_chain_bounded` speaks about are exactly those of real searches: the search state is
`InstOk` after setup and stays so, and everything in its queue is `Gen`. -/
theorem C09_chain_bounded_applies (q : Query K) (heap : Heap K) (inst : Inst K)
    (hs : Inst.setup q.cfg q.mesh q.src q.dst q.blocked = .ok inst) :
    InstOk q inst ∧ ∀ i st i', InstOk q i → i.next heap q.cfg q.mesh = .ok (st, i') → InstOk q i' :=
  ⟨setup_ok hs, fun _ _ _ hi hn => (next_ok hi hn).1⟩

/-- Non-vacuity: the search of the example query holds a node to which `C09_chain_bounded` applies. -/
example : ∃ inst node, Inst.setup ⟨false⟩ exMesh (v2 (3/2) (1/2), 1) (v2 (3/4) (3/2), 2) [] = .ok inst
    ∧ inst.queue = [node] ∧ node.polygonTo ≠ 2 := by
  obtain ⟨inst, h1, h2⟩ := of_resIs
    (x := Inst.setup ⟨false⟩ exMesh (v2 (3/2) (1/2), 1) (v2 (3/4) (3/2), 2) [])
    (f := fun i => i.queue.map (·.polygonTo) = [0]) (by decide +kernel)
  simp only [decide_eq_true_eq, List.map_eq_singleton_iff] at h2
  obtain ⟨n, hq, hn⟩ := h2
  exact ⟨inst, n, h1, hq, by rw [hn]; decide⟩

end Polyanya
