import Verif.Props.Merging
/-
Concrete cases for C24, C25, C26.
-/

namespace Polyanya

/-- Conformity, decided by running through the layer (used for examples only). -/
def conformingCheck (l : Layer Rat) : Bool :=
  l.polygons.all (fun p => decide p.vertices.Nodup && decide (3 ≤ p.vertices.length)) &&
  l.polygons.zipIdx.all (fun pk => l.polygons.zipIdx.all (fun qk => pk.2 == qk.2 ||
    (cycEdges pk.1.vertices).all (fun e =>
      !(qk.1.vertices.contains e.1 && qk.1.vertices.contains e.2) ||
        (cycEdges qk.1.vertices).contains (e.2, e.1))))

theorem conforming_of_check {l : Layer Rat} (h : conformingCheck l = true) : l.Conforming := by
  simp only [conformingCheck, Bool.and_eq_true, List.all_eq_true, decide_eq_true_eq, Bool.or_eq_true,
    beq_iff_eq, List.contains_iff_mem, Bool.not_eq_true', Bool.and_eq_false_iff] at h
  obtain ⟨h1, h2⟩ := h
  refine ⟨fun p hp => (h1 p hp).1, fun p hp => (h1 p hp).2, ?_⟩
  intro k k' p q a b hk hk' hne he ha hb
  have := (h2 (p, k) (by rw [List.mem_zipIdx_iff_getElem?]; exact hk) (q, k')
    (by rw [List.mem_zipIdx_iff_getElem?]; exact hk')).resolve_left hne (a, b) (mem_cycEdges.2 he)
  rcases this with (h | h) | h
  · simp [ha] at h
  · simp [hb] at h
  · exact mem_cycEdges.1 h

/-- Twice the signed area of a triangle. -/
def ratTurn (a b c : Vec2 Rat) : Rat := (b.x - a.x) * (c.y - b.y) - (b.y - a.y) * (c.x - b.x)

/-- All turns of a ring. -/
def ratTurns (cs : List (Vec2 Rat)) : List Rat :=
  (cs.zip ((cs.rotate 1).zip (cs.rotate 2))).map (fun t => ratTurn t.1 t.2.1 t.2.2)

/-- Twice the unsigned area of a ring. -/
def ratArea (cs : List (Vec2 Rat)) : Rat :=
  let s := ((cs.zip (cs.rotate 1)).map (fun e => e.1.x * e.2.y - e.1.y * e.2.x)).foldl (· + ·) 0
  if s < 0 then -s else s

/-- A convexity test that looks at the turns only: no right turn, and a left turn somewhere. -/
def localGeo : Geo Rat where
  area := ratArea
  ccwConvex cs := (ratTurns cs).all (fun t => decide (0 ≤ t)) && (ratTurns cs).any (fun t => decide (0 < t))

/-- The same test, which in addition rejects rings visiting a point twice. -/
def strictGeo : Geo Rat where
  area := ratArea
  ccwConvex cs := decide cs.Nodup && localGeo.ccwConvex cs

theorem strictGeo_rejects : strictGeo.RejectsRepeats := by
  intro cs h
  simp only [strictGeo, Bool.and_eq_true, decide_eq_true_eq] at h
  exact h.1

/-- A square cut into four triangles that meet at its centre, vertex 4. -/
def cutSquare : Layer Rat := Layer.mk'
  [ Vertex.new (v2 0 0) [0, u32Max, 3], Vertex.new (v2 2 0) [1, u32Max, 0],
    Vertex.new (v2 2 2) [2, u32Max, 1], Vertex.new (v2 0 2) [3, u32Max, 2], Vertex.new (v2 1 1) [0, 1, 2, 3] ]
  [ Polygon.new [0, 1, 4] false, Polygon.new [1, 2, 4] true, Polygon.new [2, 3, 4] false,
    Polygon.new [3, 0, 4] false ]

/-- Non-vacuity of the hypotheses of C25 and C26. -/
theorem cutSquare_consistent : cutSquare.Consistent := consistent_of_check (by decide +kernel)
theorem cutSquare_conforming : cutSquare.Conforming := conforming_of_check (by decide +kernel)

/-- The first round merges the triangles in pairs. -/
theorem cutSquare_merges : (match cutSquare.mergePolygons strictGeo with
    | .ok (l, b) => b && decide (l.polygons = [Polygon.new [4, 0, 1, 2] false, Polygon.new [4, 2, 3, 0] false])
        && decide (l.vertices.map (·.polygons) = [[0, u32Max, 1], [0, u32Max, 0], [1, u32Max, 0],
            [1, u32Max, 1], [0, 1]])
    | .error _ => false) = true := by decide +kernel

/-- The two halves of the square, the result of the first round. -/
def twoHalves : Layer Rat := Layer.mk'
  [ Vertex.new (v2 0 0) [0, u32Max, 1], Vertex.new (v2 2 0) [0, u32Max, 0],
    Vertex.new (v2 2 2) [1, u32Max, 0], Vertex.new (v2 0 2) [1, u32Max, 1], Vertex.new (v2 1 1) [0, 1] ]
  [ Polygon.new [4, 0, 1, 2] false, Polygon.new [4, 2, 3, 0] false ]

theorem twoHalves_consistent : twoHalves.Consistent := consistent_of_check (by decide +kernel)
theorem twoHalves_conforming : twoHalves.Conforming := conforming_of_check (by decide +kernel)

/-- With the strict test the halves are not merged: they share the three vertices of the diagonal. -/
theorem twoHalves_strict : (match twoHalves.mergePolygons strictGeo with
    | .ok (l, b) => !b && decide (l.polygons = twoHalves.polygons)
    | .error _ => false) = true := by decide +kernel

/-- C25 needs its hypothesis on the convexity test: a test that looks at the turns only accepts the ring
`0, 1, 2, 4, 2, 3` (the square with a spike from corner 2 to the centre), and the result of merging the two
halves of the square is a polygon that has vertex 2 twice. -/
theorem C25_needs_strict_convexity : ∃ (l l' : Layer Rat) (b : Bool), l.Consistent ∧ l.Conforming ∧
    l.mergePolygons localGeo = .ok (l', b) ∧ ∃ p ∈ l'.polygons, ¬ p.vertices.Nodup := by
  have key : (match twoHalves.mergePolygons localGeo with
    | .ok (l, _) => decide (l.polygons = [Polygon.new [0, 1, 2, 4, 2, 3] false])
    | .error _ => false) = true := by decide +kernel
  cases h : twoHalves.mergePolygons localGeo with
  | error e => rw [h] at key; simp at key
  | ok r =>
    obtain ⟨l', b⟩ := r
    rw [h] at key
    simp only [decide_eq_true_eq] at key
    exact ⟨twoHalves, l', b, twoHalves_consistent, twoHalves_conforming, h,
      Polygon.new [0, 1, 2, 4, 2, 3] false, by rw [key]; simp, by decide⟩

/-- The loop of C24 on a mesh of two copies of the square: the first call merges in the first layer only (it
returns as soon as one layer has changed), the second one in the second layer, the third one nothing. -/
def twoSquares : Mesh Rat := { layers := [cutSquare, cutSquare], searchDelta := 1/10, searchSteps := 4 }

theorem twoSquares_rounds : ∃ m', MergeRounds strictGeo twoSquares 2 m' ∧ m'.polygonCount = 4 := by
  have key : (match twoSquares.mergePolygons strictGeo with
    | .ok (m1, b1) => b1 && decide (m1.polygonCount = 6) && (match m1.mergePolygons strictGeo with
      | .ok (m2, b2) => b2 && decide (m2.polygonCount = 4)
      | .error _ => false)
    | .error _ => false) = true := by decide +kernel
  cases h1 : twoSquares.mergePolygons strictGeo with
  | error e => rw [h1] at key; simp at key
  | ok r1 =>
    obtain ⟨m1, b1⟩ := r1
    rw [h1] at key
    simp only [Bool.and_eq_true, decide_eq_true_eq] at key
    obtain ⟨⟨rfl, -⟩, key⟩ := key
    cases h2 : m1.mergePolygons strictGeo with
    | error e => rw [h2] at key; simp at key
    | ok r2 =>
      obtain ⟨m2, b2⟩ := r2
      rw [h2] at key
      simp only [Bool.and_eq_true, decide_eq_true_eq] at key
      obtain ⟨rfl, hc⟩ := key
      exact ⟨m2, .succ (.succ .zero h1) h2, hc⟩

end Polyanya
