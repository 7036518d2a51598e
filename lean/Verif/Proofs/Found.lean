import Verif.Proofs.Corridor
import Verif.Proofs.Locate
/-
From a found path back to its corridor; the asynchronous query.
-/

namespace Polyanya

variable {K : Type} [Scalar K]

theorem turningPoint_mem {root goal : Vec2 K} {i : Vec2 K × Vec2 K} {t : Vec2 K}
    (h : turningPoint root goal i = some t) : t = i.1 ∨ t = i.2 := by
  unfold turningPoint at h
  simp only at h
  split at h
  · simp at h
  · split at h
    · exact .inl (Option.some.inj h).symm
    · split at h
      · exact .inr (Option.some.inj h).symm
      · simp at h

theorem pathEnd_shape (inst : Inst K) (n : SearchNode K) :
    ∃ extra : List (Vec2 K), pathEnd inst n = extra.map (fun t => (t, layerOf n.polygonTo))
        ++ [(inst.goal, layerOf n.polygonTo)]
      ∧ extra.length ≤ 1 ∧ ∀ w ∈ extra, w = n.interval.1 ∨ w = n.interval.2 := by
  unfold pathEnd
  split
  · rename_i t ht
    exact ⟨[t], rfl, by simp, by simpa using turningPoint_mem ht⟩
  · exact ⟨[], rfl, by simp, by simp⟩

theorem dropClose_append (l : List (Vec2 K × UInt8)) (x : Vec2 K × UInt8) :
    ∃ l', dropClose (l ++ [x]) = l' ++ [x] := by
  induction l with
  | nil => exact ⟨[], rfl⟩
  | cons a l ih =>
    obtain ⟨l', hl'⟩ := ih
    cases l with
    | nil =>
      simp only [List.nil_append, List.cons_append, dropClose]
      split
      · exact ⟨[], rfl⟩
      · exact ⟨[a], rfl⟩
    | cons b l =>
      simp only [List.cons_append, dropClose] at hl' ⊢
      split
      · exact ⟨l', hl'⟩
      · exact ⟨a :: l', by rw [hl']; rfl⟩

theorem foundPath_shape {cfg : Cfg} {m : Mesh K} {inst : Inst K} {n : SearchNode K} {p : Path K}
    (h : foundPath cfg m inst n = .ok p) :
    p.path = n.path ++ (pathEnd inst n).map (·.1)
    ∧ (cfg.detailed = false → p.length = n.distanceStartToRoot +. n.heuristic ∧ p.pathWithLayers = [])
    ∧ (cfg.detailed = true → detailedLength m (Scalar.lit 0 0) inst.start p.pathWithLayers = .ok p.length
        ∧ ∃ pre, p.pathWithLayers = pre ++ [(inst.goal, layerOf n.polygonTo)]) := by
  unfold foundPath at h
  simp only at h
  split at h
  · rename_i hd
    simp only [bind_eq_ok, Except.ok.injEq] at h
    obtain ⟨len, hlen, rfl⟩ := h
    refine ⟨rfl, by simp [hd], fun _ => ⟨hlen, ?_⟩⟩
    obtain ⟨extra, he, -, -⟩ := pathEnd_shape inst n
    rw [he, ← List.append_assoc]
    exact dropClose_append _ _
  · rename_i hd
    simp only [Except.ok.injEq] at h
    subst h
    exact ⟨rfl, fun _ => ⟨rfl, rfl⟩, fun h => absurd h hd⟩

/-- A found path ends at the destination. -/
theorem foundBy_last {q : Query K} {p : Path K} (h : FoundBy q p) :
    p.path.getLast? = some q.dst.1 ∧
    (q.cfg.detailed = true → p.pathWithLayers.getLast? = some (q.dst.1, layerOf q.dst.2)) := by
  obtain ⟨inst, n, hi, -, hto, hp⟩ := h
  obtain ⟨h1, -, h3⟩ := foundPath_shape hp
  obtain ⟨extra, he, -, -⟩ := pathEnd_shape inst n
  constructor
  · rw [h1, he]; simp [hi.goal]
  · intro hd
    obtain ⟨-, pre, hpre⟩ := h3 hd
    rw [hpre]; simp [hi.goal, hto]

/-- A found path is realised by a corridor that respects blocked layers and dead ends. -/
theorem foundBy_realises [NanLaws K] {q : Query K} (hd : q.dst.2 ≠ u32Max) {p : Path K}
    (h : FoundBy q p) :
    ∃ cs, Realises q.mesh q.blocked q.src.2 q.dst.2 q.dst.1 p.path cs
      ∧ (∀ c ∈ cs, Unblocked q.blocked c.dst)
      ∧ (∀ c ∈ cs.dropLast, c.dst ≠ q.dst.2 ∧ Open q.mesh c.dst) ∧ cs ≠ [] := by
  obtain ⟨inst, n, hi, hg, hto, hp⟩ := h
  obtain ⟨cs, hn⟩ := gen_inv hd hg
  obtain ⟨h1, -, -⟩ := foundPath_shape hp
  obtain ⟨extra, he, hlen, hmem⟩ := pathEnd_shape inst n
  obtain ⟨sub, hsub, hf⟩ := hn.bends
  have hc := hn.corridor.snoc hn.valid rfl
  refine ⟨cs ++ [n.crossing], ⟨?_, n.path, extra, sub, ?_, ?_, hf, hlen, ?_⟩, ?_, ?_, by simp⟩
  · rw [← hto]; exact hc
  · rw [h1, he]
    simp [hi.goal, Function.comp_def]
  · simpa using hsub
  · intro w hw
    refine ⟨n.crossing, by simp, ?_⟩
    rcases hmem w hw with rfl | rfl
    · exact hn.left
    · exact hn.right
  · intro c hcm
    rcases List.mem_append.1 hcm with hcm | hcm
    · exact (hn.inner c hcm).2.2
    · rw [List.mem_singleton.1 hcm]; exact hn.unblocked
  · intro c hcm
    simp only [List.dropLast_concat] at hcm
    exact ⟨(hn.inner c hcm).1, (hn.inner c hcm).2.1⟩

/-- A future that was polled before belongs to a query. -/
def FutOk (bvh : Bvh K) (cfg : Cfg) (m : Mesh K) (src dst : Vec2 K) (f : FuturePath K) : Prop :=
  f.src = src ∧ f.dst = dst ∧ ∀ inst, f.instance? = some inst →
    ∃ s e, m.getPointLocation bvh (Coords.onMesh src) = .ok s
      ∧ m.getPointLocation bvh (Coords.onMesh dst) = .ok e ∧ s ≠ u32Max ∧ e ≠ u32Max ∧ s ≠ e
      ∧ InstOk ⟨cfg, m, (src, s), (dst, e), []⟩ inst

/-- The straight path returned when both ends are in the same polygon. -/
def straightPath (cfg : Cfg) (src dst : Vec2 K) (e : UInt32) : Path K :=
  { length := src.distance dst, path := [dst],
    pathWithLayers := if cfg.detailed then [(dst, layerOf e)] else [] }

/-- How an asynchronous query finds a path. -/
def AsyncFound (bvh : Bvh K) (cfg : Cfg) (m : Mesh K) (src dst : Vec2 K) (p : Path K) : Prop :=
  ∃ s e, m.getPointLocation bvh (Coords.onMesh src) = .ok s
    ∧ m.getPointLocation bvh (Coords.onMesh dst) = .ok e ∧ s ≠ u32Max ∧ e ≠ u32Max
    ∧ ((s = e ∧ p = straightPath cfg src dst e)
      ∨ (s ≠ e ∧ FoundBy ⟨cfg, m, (src, s), (dst, e), []⟩ p))

theorem pollSteps_ok {q : Query K} {heap : Heap K} : ∀ (n : Nat) (inst inst' : Inst K)
    (r : Option (Option (Path K))), InstOk q inst →
    pollSteps heap q.cfg q.mesh n inst = .ok (r, inst') →
    InstOk q inst' ∧ ∀ p, r = some (some p) → FoundBy q p := by
  intro n
  induction n with
  | zero =>
    intro inst inst' r hi h
    simp only [pollSteps, Except.ok.injEq, Prod.mk.injEq] at h
    obtain ⟨rfl, rfl⟩ := h
    exact ⟨hi, by simp⟩
  | succ n ih =>
    intro inst inst' r hi h
    simp only [pollSteps, bind_eq_ok] at h
    obtain ⟨⟨st, inst1⟩, hn, h⟩ := h
    obtain ⟨hi', hf⟩ := next_ok hi hn
    cases st with
    | found p =>
      simp only [Except.ok.injEq, Prod.mk.injEq] at h
      obtain ⟨rfl, rfl⟩ := h
      exact ⟨hi', by intro p' hp'; cases hp'; exact hf p rfl⟩
    | notFound =>
      simp only [Except.ok.injEq, Prod.mk.injEq] at h
      obtain ⟨rfl, rfl⟩ := h
      exact ⟨hi', by simp⟩
    | «continue» => exact ih _ _ _ hi' h

theorem poll_ok {bvh : Bvh K} {heap : Heap K} {cfg : Cfg} {m : Mesh K} {src dst : Vec2 K}
    {f f' : FuturePath K} {r : Poll K} (hf : FutOk bvh cfg m src dst f)
    (h : f.poll bvh heap cfg m = .ok (r, f')) :
    FutOk bvh cfg m src dst f' ∧ ∀ p, r = .ready (some p) → AsyncFound bvh cfg m src dst p := by
  obtain ⟨h1, h2, h3⟩ := hf
  unfold FuturePath.poll at h
  split at h
  · rename_i inst hinst
    obtain ⟨s, e, hs, he, hs', he', hne, hi⟩ := h3 inst hinst
    simp only [bind_eq_ok] at h
    obtain ⟨⟨r', inst'⟩, hp, h⟩ := h
    obtain ⟨hi', hfound⟩ := pollSteps_ok (q := ⟨cfg, m, (src, s), (dst, e), []⟩) _ _ _ _ hi hp
    have hF : FutOk bvh cfg m src dst { f with instance? := some inst' } :=
      ⟨h1, h2, fun i hi2 => ⟨s, e, hs, he, hs', he', hne, by cases hi2; exact hi'⟩⟩
    split at h
    · simp only [Except.ok.injEq, Prod.mk.injEq] at h
      obtain ⟨rfl, rfl⟩ := h
      refine ⟨hF, ?_⟩
      intro p hp
      cases hp
      exact ⟨s, e, hs, he, hs', he', .inr ⟨hne, hfound p (by assumption)⟩⟩
    · simp only [Except.ok.injEq, Prod.mk.injEq] at h
      obtain ⟨rfl, rfl⟩ := h
      exact ⟨hF, by simp⟩
  · rename_i hnone
    simp only [bind_eq_ok] at h
    obtain ⟨s, hs, h⟩ := h
    have hF : FutOk bvh cfg m src dst f := ⟨h1, h2, h3⟩
    rw [h1] at hs h
    rw [h2] at h
    split at h
    · simp only [Except.ok.injEq, Prod.mk.injEq] at h
      obtain ⟨rfl, rfl⟩ := h
      exact ⟨hF, by simp⟩
    rename_i hs'
    simp only [bind_eq_ok] at h
    obtain ⟨e, he, h⟩ := h
    split at h
    · simp only [Except.ok.injEq, Prod.mk.injEq] at h
      obtain ⟨rfl, rfl⟩ := h
      exact ⟨hF, by simp⟩
    rename_i he'
    simp only [bind_eq_ok] at h
    obtain ⟨b, -, h⟩ := h
    split at h
    · simp only [Except.ok.injEq, Prod.mk.injEq] at h
      obtain ⟨rfl, rfl⟩ := h
      exact ⟨hF, by simp⟩
    split at h
    · simp only [Except.ok.injEq, Prod.mk.injEq] at h
      obtain ⟨rfl, rfl⟩ := h
      refine ⟨hF, ?_⟩
      intro p hp
      simp only [Poll.ready.injEq, Option.some.injEq] at hp
      exact ⟨s, e, hs, he, hs', he', .inl ⟨by assumption, hp.symm⟩⟩
    · rename_i hne
      simp only [bind_eq_ok, Except.ok.injEq, Prod.mk.injEq] at h
      obtain ⟨inst, hset, rfl, rfl⟩ := h
      have hi := setup_ok (q := ⟨cfg, m, (src, s), (dst, e), []⟩) hset
      exact ⟨⟨rfl, rfl, fun i hi2 => ⟨s, e, hs, he, hs', he', hne, by cases hi2; exact hi⟩⟩, by simp⟩

theorem resolves_found {bvh : Bvh K} {heap : Heap K} {cfg : Cfg} {m : Mesh K} {src dst : Vec2 K}
    {p : Path K} (h : Resolves bvh heap cfg m (Mesh.getPath src dst) (some p)) :
    AsyncFound bvh cfg m src dst p := by
  suffices H : ∀ f r, Resolves bvh heap cfg m f r → FutOk bvh cfg m src dst f → ∀ p, r = some p →
      AsyncFound bvh cfg m src dst p by
    refine H _ _ h ⟨rfl, rfl, ?_⟩ p rfl
    intro inst hinst
    simp [Mesh.getPath] at hinst
  intro f r hres
  induction hres with
  | ready hp =>
    intro hf p hr
    subst hr
    exact (poll_ok hf hp).2 p rfl
  | pending hp _ ih => intro hf p hr; exact ih (poll_ok hf hp).1 p hr

end Polyanya
