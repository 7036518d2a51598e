import Verif.Proofs.File
import Mathlib.Data.List.Forall2
/-
C29: writing a file and reading it back. C30: the one-way flag. C49: announced counts.
-/

namespace Polyanya

variable {K : Type} [Scalar K]

theorem unwrap_some {α : Type} (a : α) : unwrap (some a) = .ok a := rfl

/-! ### C30 -/

theorem usingLoop_spec (ow : Bool) : ∀ (found : Bool) (l : List Int), usingLoop ow found l =
    (ow && decide ((l.filter (· ≠ -1)).length + (if found then 1 else 0) ≤ 1))
  | found, [] => by cases found <;> simp [usingLoop]
  | found, n :: l => by
    unfold usingLoop
    by_cases h : n = -1
    · rw [if_neg (not_not.2 h), usingLoop_spec ow found l]
      simp [h]
    · rw [if_pos h]
      cases found
      · rw [if_neg (by simp), usingLoop_spec ow true l]
        simp [h]
      · rw [if_pos rfl]
        simp [h]

/-- **C30**: a polygon read from `n` and the numbers after it has the first `n` numbers as corners, and is one-way iff
more numbers follow, of which at most one is not -1; it panics iff there are less than `n` numbers. -/
theorem C30_using (n : Nat) (data : List Int) :
    (data.length < n → Polygon.using n data = .error .panic) ∧
    (n ≤ data.length → ∃ p, Polygon.using n data = .ok p ∧
      p.vertices = (data.take n).map isizeAsU32 ∧
      (p.isOneWay = true ↔ data.drop n ≠ [] ∧ ((data.drop n).filter (· ≠ -1)).length ≤ 1)) := by
  constructor
  · intro h
    unfold Polygon.using
    rw [if_pos h]
  · intro h
    unfold Polygon.using
    rw [if_neg (by omega)]
    refine ⟨_, rfl, rfl, ?_⟩
    simp only [usingLoop_spec]
    cases data.drop n with
    | nil => simp
    | cons a l => simp

/-- Corners in the range of indices are kept as they are. -/
theorem C30_corner (v : UInt32) : isizeAsU32 (v.toNat : Int) = v := by
  unfold isizeAsU32
  have : ((v.toNat : Int) % 4294967296).toNat = v.toNat := by have := v.toNat_lt; omega
  rw [this]; simp

example : ∃ p, Polygon.using 3 [0, 1, 2, -1, 5, -1] = .ok p ∧ p.vertices = [0, 1, 2] ∧ p.isOneWay = true :=
  ⟨_, rfl, by decide, by decide⟩

/-! ### Lines written -/

section
variable [FloatText K]

/-- The words on the line of a vertex. -/
def vertexWords (v : Vertex K) : List (List UInt8) :=
  FloatText.fmt6 v.coords.x :: FloatText.fmt6 v.coords.y :: natBytes v.polygons.length ::
    (if v.polygons = [] then [[]] else v.polygons.map (fun n => natBytes n.toNat))

/-- The words on the line of a polygon. -/
def polygonWords (p : Polygon) : List (List UInt8) :=
  natBytes p.vertices.length :: (if p.vertices = [] then [[]] else p.vertices.map (fun n => natBytes n.toNat))

theorem joinSpaces_cons_ne (a : List UInt8) {l : List (List UInt8)} (h : l ≠ []) :
    joinSpaces (a :: l) = a ++ [32] ++ joinSpaces l := by
  obtain ⟨b, l, rfl⟩ := List.exists_cons_of_ne_nil h
  exact joinSpaces_cons a b l

theorem joinSpaces_tail (l : List (List UInt8)) : joinSpaces (if l = [] then [[]] else l) = joinSpaces l := by
  split
  · rename_i h; subst h; rfl
  · rfl

theorem vertexLine_eq (v : Vertex K) : vertexLine v = joinSpaces (vertexWords v) ++ [10] := by
  have h : (if v.polygons = [] then [[]] else v.polygons.map (fun n => natBytes n.toNat)) =
      (if v.polygons.map (fun n => natBytes n.toNat) = [] then [[]] else v.polygons.map (fun n => natBytes n.toNat)) := by
    simp
  unfold vertexLine vertexWords
  rw [h, joinSpaces_cons_ne _ (by simp), joinSpaces_cons_ne _ (by simp),
    joinSpaces_cons_ne _ (by split <;> simp_all), joinSpaces_tail]
  simp

theorem polygonLine_eq (p : Polygon) : polygonLine p = joinSpaces (polygonWords p) ++ [10] := by
  have h : (if p.vertices = [] then [[]] else p.vertices.map (fun n => natBytes n.toNat)) =
      (if p.vertices.map (fun n => natBytes n.toNat) = [] then [[]] else p.vertices.map (fun n => natBytes n.toNat)) := by
    simp
  unfold polygonLine polygonWords
  rw [h, joinSpaces_cons_ne _ (by split <;> simp_all), joinSpaces_tail]

theorem visible_numbers (l : List UInt32) : ∀ a ∈ (if l = [] then [[]] else l.map (fun n => natBytes n.toNat)), Visible a := by
  split
  · intro a ha
    rw [List.mem_singleton] at ha
    subst ha; exact visible_nil
  · intro a ha
    obtain ⟨n, -, rfl⟩ := List.mem_map.1 ha
    exact natBytes_visible _

theorem vertexWords_visible {v : Vertex K} (hv : Printable v.coords.x ∧ Printable v.coords.y) : ∀ a ∈ vertexWords v, Visible a := by
  intro a ha
  simp only [vertexWords, List.mem_cons] at ha
  rcases ha with rfl | rfl | rfl | ha
  · exact hv.1.visible
  · exact hv.2.visible
  · exact natBytes_visible _
  · exact visible_numbers _ a ha

theorem polygonWords_visible (p : Polygon) : ∀ a ∈ polygonWords p, Visible a := by
  intro a ha
  simp only [polygonWords, List.mem_cons] at ha
  rcases ha with rfl | ha
  · exact natBytes_visible _
  · exact visible_numbers _ a ha

/-- What the vertex becomes. -/
def vertexBack (x y : K) (v : Vertex K) : Vertex K :=
  Vertex.new ⟨x, y⟩ (if v.polygons = [] then [u32Max] else v.polygons)

theorem readVertex_line {v : Vertex K} (hv : Printable v.coords.x ∧ Printable v.coords.y) {x y : K} (hx : SixDecimals v.coords.x x)
    (hy : SixDecimals v.coords.y y) : readVertex (joinSpaces (vertexWords v)) = .ok (vertexBack x y v) := by
  unfold readVertex
  rw [splitOn_join (vertexWords_visible hv) (by simp [vertexWords])]
  unfold SixDecimals at hx hy
  simp only [vertexWords, hx, hy, unwrap_some, res_bind_ok, List.drop_succ_cons, List.drop_zero, vertexBack]
  congr 2
  split
  · simp [parseU32, parseInt]
  · rw [List.map_map]
    conv_rhs => rw [← List.map_id v.polygons]
    apply List.map_congr_left
    intro n _
    simp [parseU32_natBytes]

theorem readPolygon_line {p : Polygon} (hp : p.vertices ≠ []) (hlen : p.vertices.length < 2 ^ 64) :
    readPolygon (joinSpaces (polygonWords p)) = .ok (Polygon.new p.vertices false) := by
  unfold readPolygon
  rw [splitOn_join (polygonWords_visible p) (by simp [polygonWords])]
  simp only [polygonWords, parseUsize_natBytes hlen, unwrap_some, res_bind_ok, hp, if_false]
  have h : (p.vertices.map (fun n => natBytes n.toNat)).mapM (fun v => unwrap (parseIsize v)) =
      (.ok (p.vertices.map (fun n => (n.toNat : Int))) : Res (List Int)) := by
    rw [mapM_ok_iff, List.forall₂_map_left_iff, List.forall₂_map_right_iff, List.forall₂_same]
    intro n _
    rw [parseIsize_natBytes (by have := n.toNat_lt; omega)]
    rfl
  rw [h, res_bind_ok]
  obtain ⟨q, hq, hv, ho⟩ := (C30_using p.vertices.length (p.vertices.map (fun n => (n.toNat : Int)))).2 (by simp)
  rw [hq]
  have e1 : q.vertices = p.vertices := by
    rw [hv, List.take_of_length_le (by simp), List.map_map]
    conv_rhs => rw [← List.map_id p.vertices]
    apply List.map_congr_left
    intro n _
    exact C30_corner n
  have e2 : q.isOneWay = false := by
    rw [Bool.eq_false_iff]
    intro h
    exact (ho.1 h).1 (by rw [List.drop_eq_nil_iff]; simp)
  obtain ⟨qv, qo⟩ := q
  simp only at e1 e2
  subst e1 e2
  rfl

theorem readPolygon_empty {p : Polygon} (hp : p.vertices = []) :
    readPolygon (joinSpaces (polygonWords p)) = .error .panic := by
  unfold readPolygon
  rw [splitOn_join (polygonWords_visible p) (by simp [polygonWords])]
  simp only [polygonWords, hp, if_true, List.length_nil, parseUsize_natBytes (show 0 < 2 ^ 64 by decide), unwrap_some, res_bind_ok]
  rfl

/-! ### The loop -/

theorem readLine_vertex {s : ReadState K} {v : Vertex K} (hv : Printable v.coords.x ∧ Printable v.coords.y) {x y : K} (hx : SixDecimals v.coords.x x)
    (hy : SixDecimals v.coords.y y) (hph : s.phase = 1) (hn : 0 < s.nbVertices) :
    readLine s (joinSpaces (vertexWords v)) = .ok { s with
      nbVertices := s.nbVertices - 1, file := { s.file with vertices := s.file.vertices ++ [vertexBack x y v] } } := by
  unfold readLine
  rw [plain_utf8 (plain_join (vertexWords_visible hv)), if_neg (by simp), if_neg (by omega), if_pos hph, if_pos hn,
    readVertex_line hv hx hy, res_bind_ok]

theorem readLine_polygon {s : ReadState K} {p : Polygon} (hph : s.phase = 2 ∨ (s.phase = 1 ∧ s.nbVertices = 0)) :
    readLine s (joinSpaces (polygonWords p)) = readPhase2 { s with phase := 2 } (joinSpaces (polygonWords p)) := by
  unfold readLine
  rw [plain_utf8 (plain_join (polygonWords_visible p)), if_neg (by simp)]
  rcases hph with h | ⟨h, h0⟩
  · rw [if_neg (by omega), if_neg (by omega)]
    obtain ⟨f, a, b, ph⟩ := s
    simp only at h
    subst h
    rfl
  · rw [if_neg (by omega), if_pos h, if_neg (by omega)]

theorem read_vertices : ∀ (vs vs' : List (Vertex K)) (s : ReadState K),
    (∀ v ∈ vs, Printable v.coords.x ∧ Printable v.coords.y) →
    List.Forall₂ (fun v v' => ∃ x y, SixDecimals v.coords.x x ∧ SixDecimals v.coords.y y ∧ v' = vertexBack x y v) vs vs' →
    s.phase = 1 → s.nbVertices = vs.length →
    (vs.map (fun v => joinSpaces (vertexWords v))).foldlM readLine s =
      .ok { s with nbVertices := 0, file := { s.file with vertices := s.file.vertices ++ vs' } }
  | _, _, s, _, .nil, _, hn => by
    have : s.nbVertices = 0 := by simpa using hn
    obtain ⟨f, a, b, ph⟩ := s
    simp only at this
    subst this
    simp only [List.map_nil, List.foldlM_nil, List.append_nil]
    rfl
  | _ :: vs, _ :: vs', s, hpr, .cons ⟨x, y, hx, hy, e⟩ h, hph, hn => by
    subst e
    rw [List.map_cons, List.foldlM_cons, readLine_vertex (hpr _ (by simp)) hx hy hph (by rw [hn]; simp), res_bind_ok]
    refine (read_vertices vs vs' _ (fun v hv => hpr v (List.mem_cons_of_mem _ hv)) h ?_ ?_).trans ?_
    · exact hph
    · simp [hn]
    · simp

theorem read_polygons : ∀ (ps : List Polygon) (s : ReadState K), (∀ p ∈ ps, p.vertices ≠ [] ∧ p.vertices.length < 2 ^ 64) →
    (s.phase = 2 ∨ (s.phase = 1 ∧ s.nbVertices = 0)) → (ps.length : Int) ≤ s.nbPolygons →
    ∃ s', (ps.map (fun p => joinSpaces (polygonWords p))).foldlM readLine s = .ok s' ∧
      s'.file = { s.file with polygons := s.file.polygons ++ ps.map (fun p => Polygon.new p.vertices false) } ∧
      (s'.phase = 2 ∨ (s'.phase = 1 ∧ s'.nbVertices = 0)) ∧ s'.nbPolygons = s.nbPolygons - ps.length
  | [], s, _, hph, _ => ⟨s, rfl, by simp, hph, by simp⟩
  | p :: ps, s, h, hph, hn => by
    have h1 := h p (by simp)
    rw [List.length_cons] at hn
    have e : readLine s (joinSpaces (polygonWords p)) = .ok { s with
        phase := 2, nbPolygons := s.nbPolygons - 1,
        file := { s.file with polygons := s.file.polygons ++ [Polygon.new p.vertices false] } } := by
      rw [readLine_polygon hph]
      unfold readPhase2
      rw [if_pos (show (0 : Int) < s.nbPolygons by omega), readPolygon_line h1.1 h1.2, res_bind_ok]
    obtain ⟨s', e', hf, hph', hc⟩ := read_polygons ps _ (fun q hq => h q (List.mem_cons_of_mem _ hq))
      (.inl (show ({ s with
        phase := 2, nbPolygons := s.nbPolygons - 1,
        file := { s.file with polygons := s.file.polygons ++ [Polygon.new p.vertices false] } } : ReadState K).phase = 2
        from rfl)) (show _ ≤ s.nbPolygons - 1 by omega)
    refine ⟨s', by rw [List.map_cons, List.foldlM_cons, e, res_bind_ok, e'], ?_, hph', ?_⟩
    · rw [hf]; simp
    · rw [hc]; simp; omega

theorem toBytes_lines {f : PolyanyaFile K} (hpr : PrintableFile f) : linesFrom [] f.toBytes =
    [109, 101, 115, 104] :: [50] :: (natBytes f.vertices.length ++ [32] ++ natBytes f.polygons.length) ::
      (f.vertices.map (fun v => joinSpaces (vertexWords v)) ++ f.polygons.map (fun p => joinSpaces (polygonWords p))) := by
  have e : f.toBytes = [109, 101, 115, 104] ++ 10 :: ([50] ++ 10 ::
      ((natBytes f.vertices.length ++ [32] ++ natBytes f.polygons.length) ++ 10 ::
      (f.vertices.flatMap (fun v => joinSpaces (vertexWords v) ++ [10]) ++
        (f.polygons.flatMap (fun p => joinSpaces (polygonWords p) ++ [10]) ++ [])))) := by
    unfold PolyanyaFile.toBytes
    simp only [funext vertexLine_eq, funext polygonLine_eq]
    simp
  have plain1 : PlainLine [109, 101, 115, 104] := by unfold PlainLine; decide
  have plain2 : PlainLine [50] := by unfold PlainLine; decide
  rw [e, lines_line plain1, lines_line plain2, lines_line (plain_append (plain_append (natBytes_visible _).plain plain_space)
      (natBytes_visible _).plain),
    lines_flatMap _ _ _ (fun v hv => plain_join (vertexWords_visible (hpr v hv))),
    lines_flatMap _ _ _ (fun p _ => plain_join (polygonWords_visible p))]
  simp [linesFrom]

/-- The state after the header. -/
theorem read_header (f : PolyanyaFile K) (hf : FileSize f) (rest : List (List UInt8)) (s : ReadState K)
    (hs : s.phase = 0) :
    ([109, 101, 115, 104] :: [50] :: (natBytes f.vertices.length ++ [32] ++ natBytes f.polygons.length) :: rest).foldlM
      readLine s = rest.foldlM readLine { s with
        nbVertices := (f.vertices.length : Int), nbPolygons := (f.polygons.length : Int), phase := 1 } := by
  have e1 : readLine s [109, 101, 115, 104] = .ok s := by
    unfold readLine
    rw [if_neg (by decide), if_pos hs, if_pos (.inl rfl)]
  have e2 : readLine s [50] = .ok s := by
    unfold readLine
    rw [if_neg (by decide), if_pos hs, if_pos (.inr rfl)]
  have e3 : readLine s (natBytes f.vertices.length ++ [32] ++ natBytes f.polygons.length) = .ok { s with
        nbVertices := (f.vertices.length : Int), nbPolygons := (f.polygons.length : Int), phase := 1 } := by
    unfold readLine
    rw [plain_utf8 (plain_append (plain_append (natBytes_visible _).plain plain_space) (natBytes_visible _).plain),
      if_neg (by simp), if_pos hs, if_neg, splitOnce_two (natBytes_visible _), unwrap_some, res_bind_ok,
      parseI32_natBytes hf.vertices, unwrap_some, res_bind_ok, parseI32_natBytes hf.polygons, unwrap_some, res_bind_ok]
    intro h
    have : (32 : UInt8) ∈ natBytes f.vertices.length ++ [32] ++ natBytes f.polygons.length := by simp
    rcases h with h | h <;> (rw [h] at this; exact absurd this (by decide))
  rw [List.foldlM_cons, e1, res_bind_ok, List.foldlM_cons, e2, res_bind_ok, List.foldlM_cons, e3, res_bind_ok]

theorem sixDecimals_exists (vs : List (Vertex K)) (hpr : ∀ v ∈ vs, Printable v.coords.x ∧ Printable v.coords.y) : ∃ vs', List.Forall₂ (fun v v' => ∃ x y,
    SixDecimals v.coords.x x ∧ SixDecimals v.coords.y y ∧ v' = vertexBack x y v) vs vs' := by
  induction vs with
  | nil => exact ⟨[], .nil⟩
  | cons v vs ih =>
    obtain ⟨vs', h⟩ := ih (fun w hw => hpr w (List.mem_cons_of_mem _ hw))
    obtain ⟨x, hx, -⟩ := (hpr v (by simp)).1.parses
    obtain ⟨y, hy, -⟩ := (hpr v (by simp)).2.parses
    exact ⟨vertexBack x y v :: vs', .cons ⟨x, y, hx, hy, rfl⟩ h⟩

theorem fromBytes_of (f : PolyanyaFile K) (hpr : PrintableFile f) (hf : FileSize f) (hne : ∀ p ∈ f.polygons, p.vertices ≠ [])
    {vs' : List (Vertex K)} (h : List.Forall₂ (fun v v' => ∃ x y,
      SixDecimals v.coords.x x ∧ SixDecimals v.coords.y y ∧ v' = vertexBack x y v) f.vertices vs') :
    PolyanyaFile.fromBytes f.toBytes =
      .ok { vertices := vs', polygons := f.polygons.map (fun p => Polygon.new p.vertices false) } := by
  unfold PolyanyaFile.fromBytes
  rw [toBytes_lines hpr, read_header f hf _ _ rfl, List.foldlM_append, read_vertices _ vs' _ hpr h rfl rfl, res_bind_ok]
  obtain ⟨s', e, hfile, -, -⟩ := read_polygons f.polygons
    (ReadState.mk (PolyanyaFile.mk ([] ++ vs') []) 0 (f.polygons.length : Int) 1)
    (fun p hp => ⟨hne p hp, hf.corners p hp⟩) (.inr ⟨rfl, rfl⟩) (Int.le_refl _)
  simp only [e, res_bind_ok, hfile]
  simp

theorem Printable.six {a b : K} (ha : Printable a) (hab : SixDecimals a b) :
    SixDecimals b b ∧ FloatText.fmt6 b = FloatText.fmt6 a ∧ Printable b := by
  obtain ⟨c, hc, e⟩ := ha.parses
  unfold SixDecimals at hab ⊢
  rw [hab, Option.some.injEq] at hc
  subst hc
  have h1 : FloatText.parse (FloatText.fmt6 b) = some b := by rw [e, hab]
  exact ⟨h1, e, by rw [e]; exact ha.visible, b, h1, rfl⟩

/-- **C29**: a file that is written can be read back, if every polygon has a corner: the same vertices in the same order,
with coordinates to six decimals, the same neighbours (none is read as one gap), and the corner flag computed from them;
the same polygons in the same order with the same corners, not one-way. Writing and reading it a second time changes
nothing, and if every vertex has a neighbour, the second file is byte for byte the first. -/
theorem C29_round_trip (f : PolyanyaFile K) (hpr : PrintableFile f) (hf : FileSize f)
    (hne : ∀ p ∈ f.polygons, p.vertices ≠ []) :
    ∃ f', PolyanyaFile.fromBytes f.toBytes = .ok f' ∧
      List.Forall₂ VertexBack f.vertices f'.vertices ∧
      List.Forall₂ (fun p p' => p'.vertices = p.vertices ∧ p'.isOneWay = false) f.polygons f'.polygons ∧
      PolyanyaFile.fromBytes f'.toBytes = .ok f' ∧
      ((∀ v ∈ f.vertices, v.polygons ≠ []) → f'.toBytes = f.toBytes) := by
  obtain ⟨vs', h⟩ := sixDecimals_exists f.vertices hpr
  have hpoly : (f.polygons.map (fun p => Polygon.new p.vertices false)).map (fun p => Polygon.new p.vertices false) =
      f.polygons.map (fun p => Polygon.new p.vertices false) := by
    rw [List.map_map]
    rfl
  have back : ∀ v' ∈ vs', ∃ v ∈ f.vertices, ∃ x y, SixDecimals v.coords.x x ∧ SixDecimals v.coords.y y ∧
      v' = vertexBack x y v := by
    intro v' hv'
    obtain ⟨i, hi, rfl⟩ := List.getElem_of_mem hv'
    have hlen := h.length_eq
    have := h.get (i := i) (by omega) hi
    exact ⟨f.vertices[i], List.getElem_mem _, this⟩
  have hagain : List.Forall₂ (fun v v' => ∃ x y : K, SixDecimals v.coords.x x ∧ SixDecimals v.coords.y y ∧
      v' = vertexBack x y v) vs' vs' := by
    rw [List.forall₂_same]
    intro v' hv'
    obtain ⟨v, hv, x, y, hx, hy, rfl⟩ := back v' hv'
    refine ⟨x, y, ((hpr v hv).1.six hx).1, ((hpr v hv).2.six hy).1, ?_⟩
    simp only [vertexBack, Vertex.new]
    by_cases hp : v.polygons = []
    · simp [hp]
    · simp [hp]
  refine ⟨_, fromBytes_of f hpr hf hne h, ?_, ?_, ?_, ?_⟩
  · refine h.imp ?_
    rintro v v' ⟨x, y, hx, hy, rfl⟩
    exact ⟨hx, hy, rfl, by simp [vertexBack, Vertex.new, List.contains_iff_mem]⟩
  · rw [List.forall₂_map_right_iff, List.forall₂_same]
    exact fun p _ => ⟨rfl, rfl⟩
  · have hpr' : PrintableFile { vertices := vs', polygons := f.polygons.map (fun p => Polygon.new p.vertices false) } := by
      intro v' hv'
      obtain ⟨v, hv, x, y, hx, hy, rfl⟩ := back v' hv'
      exact ⟨((hpr v hv).1.six hx).2.2, ((hpr v hv).2.six hy).2.2⟩
    rw [fromBytes_of _ hpr' ⟨?_, ?_, ?_⟩ ?_ hagain]
    · simp only [hpoly]
    · rw [← h.length_eq]; exact hf.vertices
    · simpa using hf.polygons
    · intro p hp
      obtain ⟨q, hq, rfl⟩ := List.mem_map.1 hp
      exact hf.corners q hq
    · intro p hp
      obtain ⟨q, hq, rfl⟩ := List.mem_map.1 hp
      exact hne q hq
  · intro hv
    unfold PolyanyaFile.toBytes
    have e1 : vs'.length = f.vertices.length := h.length_eq.symm
    have e2 : vs'.flatMap vertexLine = f.vertices.flatMap vertexLine := by
      clear hagain e1 hf back
      unfold PrintableFile at hpr
      generalize f.vertices = vs at h hv hpr
      induction h with
      | nil => rfl
      | cons h1 h2 ih =>
        rw [List.flatMap_cons, List.flatMap_cons, ih (fun v hv' => hv v (List.mem_cons_of_mem _ hv'))
          (fun v hv' => hpr v (List.mem_cons_of_mem _ hv'))]
        congr 1
        obtain ⟨x, y, hx, hy, rfl⟩ := h1
        simp only [vertexLine, vertexBack, Vertex.new, ((hpr _ List.mem_cons_self).1.six hx).2.1,
          ((hpr _ List.mem_cons_self).2.six hy).2.1, hv _ (List.mem_cons_self), if_false]
    have e3 : (f.polygons.map (fun p => Polygon.new p.vertices false)).flatMap polygonLine = f.polygons.flatMap polygonLine := by
      rw [List.flatMap_map]
      rfl
    simp only [e1, e2, e3, List.length_map]

/-- A polygon without corners can be written, but reading the file panics. -/
theorem C29_empty_polygon (f : PolyanyaFile K) (hpr : PrintableFile f) (hf : FileSize f)
    (h : ∃ p ∈ f.polygons, p.vertices = []) : (PolyanyaFile.fromBytes f.toBytes : Res (PolyanyaFile K)) = .error .panic := by
  obtain ⟨vs', hvs⟩ := sixDecimals_exists f.vertices hpr
  obtain ⟨ps, p, qs, e, hps, hp⟩ : ∃ ps p qs, f.polygons = ps ++ p :: qs ∧ (∀ q ∈ ps, q.vertices ≠ []) ∧ p.vertices = [] := by
    clear hf
    generalize f.polygons = l at h
    induction l with
    | nil => simp at h
    | cons a l ih =>
      by_cases ha : a.vertices = []
      · exact ⟨[], a, l, rfl, by simp, ha⟩
      · obtain ⟨p, hp, hp'⟩ := h
        rcases List.mem_cons.1 hp with rfl | hp
        · exact absurd hp' ha
        · obtain ⟨ps, q, qs, e, h1, h2⟩ := ih ⟨p, hp, hp'⟩
          refine ⟨a :: ps, q, qs, by rw [e]; rfl, ?_, h2⟩
          intro r hr
          rcases List.mem_cons.1 hr with rfl | hr
          · exact ha
          · exact h1 r hr
  unfold PolyanyaFile.fromBytes
  rw [toBytes_lines hpr, read_header f hf _ _ rfl, List.foldlM_append, read_vertices _ vs' _ hpr hvs rfl rfl, res_bind_ok]
  have hlen : f.polygons.length = ps.length + (qs.length + 1) := by rw [e]; simp
  obtain ⟨s', e', -, hph, hc⟩ := read_polygons ps
    (ReadState.mk (PolyanyaFile.mk ([] ++ vs') []) 0 (f.polygons.length : Int) 1)
    (fun q hq => ⟨hps q hq, hf.corners q (by rw [e]; simp [hq])⟩) (.inr ⟨rfl, rfl⟩)
    (show (ps.length : Int) ≤ (f.polygons.length : Int) by omega)
  have hc : s'.nbPolygons = (f.polygons.length : Int) - ps.length := hc
  have h3 : readLine s' (joinSpaces (polygonWords p)) = .error .panic := by
    rw [readLine_polygon hph]
    unfold readPhase2
    rw [if_pos (show (0 : Int) < s'.nbPolygons by omega), readPolygon_empty hp]
    rfl
  conv in (List.map (fun p => joinSpaces (polygonWords p)) f.polygons) => rw [e, List.map_append, List.map_cons]
  simp only [List.foldlM_append, e', res_bind_ok, List.foldlM_cons, h3]
  rfl

/-! ### C49: the announced numbers -/

theorem readPhase2_file {s s' : ReadState K} {line : List UInt8} (h : readPhase2 s line = .ok s') :
    0 < s.nbPolygons ∧ s'.nbPolygons = s.nbPolygons - 1 ∧ s'.phase = s.phase ∧ s'.nbVertices = s.nbVertices ∧
      s'.file.vertices = s.file.vertices ∧ s'.file.polygons.length = s.file.polygons.length + 1 := by
  unfold readPhase2 at h
  split at h
  · rename_i hn
    obtain ⟨p, -, h⟩ := bind_eq_ok.1 h
    cases h
    exact ⟨hn, rfl, rfl, rfl, rfl, by simp⟩
  · cases h

/-- What is read after the header: vertices as announced, then polygons, one per line. -/
theorem read_body : ∀ (body : List (List UInt8)) (s s' : ReadState K), s.phase = 1 ∨ s.phase = 2 ∧ s.nbVertices ≤ 0 →
    body.foldlM readLine s = .ok s' →
    s'.file.vertices.length = s.file.vertices.length + min body.length s.nbVertices.toNat ∧
    s'.file.polygons.length = s.file.polygons.length + (body.length - s.nbVertices.toNat) ∧
    (body.length - s.nbVertices.toNat : Nat) ≤ s.nbPolygons.toNat
  | [], s, s', _, h => by
    cases h
    simp
  | line :: body, s, s', hph, h => by
    rw [List.foldlM_cons] at h
    obtain ⟨s1, h1, h2⟩ := bind_eq_ok.1 h
    unfold readLine at h1
    split at h1
    · cases h1
    · rw [if_neg (by omega)] at h1
      split at h1
      · rename_i hp
        split at h1
        · rename_i hn
          obtain ⟨v, -, h1⟩ := bind_eq_ok.1 h1
          rw [Except.ok.injEq] at h1
          have a1 : s1.phase = 1 := by rw [← h1]; exact hp
          have a2 : s1.nbVertices = s.nbVertices - 1 := by rw [← h1]
          have a3 : s1.nbPolygons = s.nbPolygons := by rw [← h1]
          have a4 : s1.file.vertices.length = s.file.vertices.length + 1 := by rw [← h1]; simp
          have a5 : s1.file.polygons = s.file.polygons := by rw [← h1]
          obtain ⟨i1, i2, i3⟩ := read_body body s1 s' (.inl a1) h2
          rw [a4] at i1
          rw [a5] at i2
          simp only [List.length_cons]
          omega
        · rename_i hn
          obtain ⟨a1, a2, a3, a4, a5, a6⟩ := readPhase2_file h1
          simp only at a1 a2 a3 a4 a5 a6
          obtain ⟨i1, i2, i3⟩ := read_body body s1 s' (.inr ⟨a3, by omega⟩) h2
          rw [a5] at i1
          rw [a6] at i2
          simp only [List.length_cons]
          omega
      · rename_i hp
        obtain ⟨a1, a2, a3, a4, a5, a6⟩ := readPhase2_file h1
        have hn := (hph.resolve_left hp).2
        obtain ⟨i1, i2, i3⟩ := read_body body s1 s' (.inr ⟨by omega, by omega⟩) h2
        rw [a5] at i1
        rw [a6] at i2
        simp only [List.length_cons]
        omega

theorem read_head : ∀ (ls : List (List UInt8)) (s s' : ReadState K), s.phase = 0 → ls.foldlM readLine s = .ok s' →
    (s'.file = s.file ∧ ∀ l ∈ ls, l = [109, 101, 115, 104] ∨ l = [50]) ∨
    ∃ head line ab v p body, ls = head ++ line :: body ∧ (∀ l ∈ head, l = [109, 101, 115, 104] ∨ l = [50]) ∧
      ¬ (line = [109, 101, 115, 104] ∨ line = [50]) ∧ splitOnce line = some ab ∧ parseI32 ab.1 = some v ∧
      parseI32 ab.2 = some p ∧ body.foldlM readLine { s with
        nbVertices := v, nbPolygons := p, phase := 1 } = .ok s'
  | [], s, s', _, h => by
    cases h
    exact .inl ⟨rfl, by simp⟩
  | line :: ls, s, s', hph, h => by
    rw [List.foldlM_cons] at h
    obtain ⟨s1, h1, h2⟩ := bind_eq_ok.1 h
    unfold readLine at h1
    split at h1
    · cases h1
    · split at h1
      · rename_i hl
        cases h1
        rcases read_head ls s s' hph h2 with ⟨h3, h4⟩ | ⟨head, l', ab, v, p, body, e, h3, h4⟩
        · refine .inl ⟨h3, ?_⟩
          intro l hl'
          rcases List.mem_cons.1 hl' with rfl | hl'
          · exact hl
          · exact h4 l hl'
        · refine .inr ⟨line :: head, l', ab, v, p, body, by rw [e]; rfl, ?_, h4⟩
          intro l hl'
          rcases List.mem_cons.1 hl' with rfl | hl'
          · exact hl
          · exact h3 l hl'
      · rename_i hl
        obtain ⟨ab, e1, h1⟩ := bind_eq_ok.1 h1
        obtain ⟨v, e2, h1⟩ := bind_eq_ok.1 h1
        obtain ⟨p, e3, h1⟩ := bind_eq_ok.1 h1
        have un : ∀ {α : Type} {o : Option α} {a : α}, unwrap o = .ok a → o = some a := by
          intro α o a h
          cases o with
          | none => cases h
          | some b => cases h; rfl
        cases h1
        exact .inr ⟨[], line, ab, v, p, ls, rfl, by simp, hl, un e1, un e2, un e3, h2⟩

/-- **C49**, the part that holds: from a file that is read without panic, there is one vertex or polygon per line after the
header; vertices first, up to the announced number, and then polygons, not more than announced. A file of header lines
only gives nothing. -/
theorem C49_counts_partial (bytes : List UInt8) (f : PolyanyaFile K) (h : PolyanyaFile.fromBytes bytes = .ok f) :
    (f.vertices = [] ∧ f.polygons = [] ∧ ∀ l ∈ linesFrom [] bytes, l = [109, 101, 115, 104] ∨ l = [50]) ∨
    ∃ v p body, Announces bytes v p body ∧ body.length = f.vertices.length + f.polygons.length ∧
      f.vertices.length = min body.length v.toNat ∧ f.polygons.length ≤ p.toNat := by
  unfold PolyanyaFile.fromBytes at h
  obtain ⟨s, hs, e⟩ := bind_eq_ok.1 h
  cases e
  rcases read_head _ _ _ rfl hs with ⟨h1, h2⟩ | ⟨head, line, ab, v, p, body, e, h1, h2, h3, h4, h5, h6⟩
  · rw [h1]
    exact .inl ⟨rfl, rfl, h2⟩
  · obtain ⟨i1, i2, i3⟩ := read_body body _ _ (.inl rfl) h6
    simp only [List.length_nil, Nat.zero_add] at i1 i2 i3
    exact .inr ⟨v, p, body, ⟨head, line, ab, e, h1, h2, h3, h4, h5⟩, by omega, i1, by omega⟩

/-- **C49** is false: a file that is cut off after the header is read as an empty one, although it announces two vertices
and a polygon (`mesh`, `2`, `2 1`). -/
theorem C49_false : ∃ bytes body, Announces bytes 2 1 body ∧
    PolyanyaFile.fromBytes bytes = .ok ({ vertices := [], polygons := [] } : PolyanyaFile K) :=
  ⟨[109, 101, 115, 104, 10, 50, 10, 50, 32, 49, 10], [],
    ⟨[[109, 101, 115, 104], [50]], [50, 32, 49], ([50], [49]), by decide, by decide, by decide, by decide, by decide, by decide⟩,
    rfl⟩

end

end Polyanya
