import Verif.Props.TriangulationExamples
/-
C84: what `Triangulation::simplify` simplifies. Its documentation says "the outer edge and obstacles".
-/

namespace Polyanya

variable {K : Type} [Scalar K]

/-- A call that adds an obstacle. -/
def BuildOp.addsObstacle : BuildOp K → Bool
  | .addObstacle _ => true
  | .addObstacles _ => true
  | _ => false

/-- A call of `simplify`. -/
def BuildOp.isSimplify : BuildOp K → Bool
  | .simplify _ => true
  | _ => false

theorem simplify_nothing (lib : TriLib K) (t : Triangulation K) (e : K) (h : t.inner.interiors = []) :
    t.simplify lib e = t := by
  unfold Triangulation.simplify GeoPolygon.mapInteriors
  rw [h, List.map_nil, ← h]

theorem run_no_interiors {lib : TriLib K} {t t' : Triangulation K} {o : BuildOp K} (ho : o.addsObstacle = false)
    (h : t.inner.interiors = []) (hr : o.run lib t = .ok t') : t'.inner.interiors = [] := by
  cases o with
  | addObstacle _ => cases ho
  | addObstacles _ => cases ho
  | simplify e =>
    simp only [BuildOp.run, Except.ok.injEq] at hr
    rw [← hr, simplify_nothing lib t e h, h]
  | prebuild =>
    simp only [BuildOp.run, Triangulation.prebuild] at hr
    split at hr
    · simp only [Except.ok.injEq] at hr
      rw [← hr]; exact h
    · simp only [bind_eq_ok, Except.ok.injEq] at hr
      obtain ⟨_, _, _, _, _, _, rfl⟩ := hr
      rfl
  | _ =>
    simp only [BuildOp.run, Except.ok.injEq] at hr
    rw [← hr]; exact h

theorem simplify_ignored (lib : TriLib K) : ∀ (ops : List (BuildOp K)) (t : Triangulation K),
    (∀ o ∈ ops, o.addsObstacle = false) → t.inner.interiors = [] →
    runOps lib t (ops.filter (fun o => !o.isSimplify)) = runOps lib t ops
  | [], _, _, _ => rfl
  | o :: ops, t, ho, h => by
    have h1 := ho o (List.mem_cons_self ..)
    have h2 := fun x hx => ho x (List.mem_cons_of_mem _ hx)
    cases hs : o.isSimplify with
    | true =>
      rw [List.filter_cons_of_neg (by simp [hs]), simplify_ignored lib ops t h2 h, runOps_cons]
      cases o <;> simp only [BuildOp.isSimplify, Bool.false_eq_true] at hs
      simp only [BuildOp.run, simplify_nothing lib t _ h, res_bind_ok]
    | false =>
      rw [List.filter_cons_of_pos (by simp [hs]), runOps_cons, runOps_cons]
      cases hr : o.run lib t with
      | error e => rfl
      | ok t' =>
        rw [res_bind_ok, res_bind_ok]
        exact simplify_ignored lib ops t' h2 (run_no_interiors h1 h hr)

/-- **C84 is false of the code**: whatever the library does to simplify a line, and whatever the tolerance, calls of `simplify`
change nothing at all as long as no obstacle was added: the outer edge is not simplified, the layer has all its
vertices. This holds of builders from an outer edge, from a mesh, and from a polygon without holes. -/
theorem C84_false (lib : TriLib K) (bvh : Bvh K) (t : Triangulation K)
    (ht : (∃ edges, t = Triangulation.fromOuterEdges edges) ∨ (∃ l, t = Triangulation.fromMeshLayer l) ∨
      ∃ exterior, t = Triangulation.fromGeoPolygon (GeoPolygon.new exterior []))
    (ops : List (BuildOp K)) (hops : ∀ o ∈ ops, o.addsObstacle = false) :
    runOps lib t (ops.filter (fun o => !o.isSimplify)) = runOps lib t ops ∧
    (runOps lib t ops >>= fun t' => t'.asLayer lib bvh) =
      (runOps lib t (ops.filter (fun o => !o.isSimplify)) >>= fun t' => t'.asLayer lib bvh) := by
  have h : t.inner.interiors = [] := by
    rcases ht with ⟨_, rfl⟩ | ⟨_, rfl⟩ | ⟨_, rfl⟩ <;> rfl
  have := simplify_ignored lib ops t hops h
  exact ⟨this, by rw [this]⟩

/-- **C84, part.** The obstacles are simplified: of a builder from an outer edge or from a mesh to which obstacles were
added, `simplify` replaces these, in order, by what the library makes of them, closed; the settings stay as they are. -/
theorem C84_obstacles_partial (lib : TriLib K) (t : Triangulation K)
    (ht : (∃ edges, t = Triangulation.fromOuterEdges edges) ∨ ∃ l, t = Triangulation.fromMeshLayer l)
    (obstacles : List (List (Vec2 K))) (e : K) :
    ∃ t', runOps lib t [.addObstacles obstacles, .simplify e] = .ok t' ∧
      t'.inner.interiors = obstacles.map (fun o => LineString.close (lib.simplifyVw (LineString.close o) e)) ∧
      t'.agentRadius = t.agentRadius ∧ t'.prebuilt = none := by
  refine ⟨_, rfl, ?_, rfl, ?_⟩
  · rcases ht with ⟨_, rfl⟩ | ⟨_, rfl⟩ <;>
      simp [Triangulation.simplify, Triangulation.addObstacles, GeoPolygon.mapInteriors, GeoPolygon.new,
        Triangulation.fromOuterEdges, Triangulation.fromMeshLayer]
  · rcases ht with ⟨_, rfl⟩ | ⟨_, rfl⟩ <;> rfl

/-- A library that simplifies by dropping every second point, but keeps squares. -/
def dropLib : TriLib Rat := { squareLib with
  simplifyVw := fun r _ => if r.length ≤ 5 then r else (r.zipIdx.filter (fun p => p.2 % 2 = 0)).map (·.1) }

/-- The square with the middles of its sides. -/
def dottedSquare : List (Vec2 Rat) :=
  [v2 0 0, v2 2 0, v2 4 0, v2 4 2, v2 4 4, v2 2 4, v2 0 4, v2 0 2]

/-- The library would make of the dotted square the square, and does so when it is an obstacle; as outer edge it keeps its
eight corners. -/
theorem C84_example :
    dropLib.simplifyVw (LineString.close dottedSquare) 1 = LineString.close squareEdges ∧
    (∃ t', runOps dropLib (Triangulation.fromOuterEdges dottedSquare) [.simplify 1] = .ok t' ∧
      t'.inner.exterior = dottedSquare ++ [v2 0 0] ∧ t'.inner.exterior.length = 9) ∧
    (∃ t', runOps dropLib (Triangulation.fromOuterEdges dottedSquare) [.addObstacles [dottedSquare], .simplify 1] = .ok t' ∧
      t'.inner.interiors = [LineString.close squareEdges]) := by
  refine ⟨by decide +kernel, ⟨_, rfl, by decide +kernel, by decide +kernel⟩, ⟨_, rfl, by decide +kernel⟩⟩

end Polyanya
