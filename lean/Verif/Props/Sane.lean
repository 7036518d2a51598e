import Verif.Spec.Sane
import Verif.Props.Paths
/-
C70: the reported length is a number that is not negative.
-/

namespace Polyanya

variable {K : Type} [Scalar K]

theorem distance_nonneg [SignLaws K] (a b : Vec2 K) (h : Scalar.isNan (a.distance b) = false) :
    NonNegative (a.distance b) := ⟨h, SignLaws.sqrt _ h⟩

theorem add_nonNegative [SignLaws K] {a b : K} (ha : NonNegative a) (hb : NonNegative b) : NonNegative (a +. b) :=
  ⟨SignLaws.not_nan _ _ (SignLaws.add a b ha.2 hb.2), SignLaws.add a b ha.2 hb.2⟩

theorem not_nan_add [NanLaws K] {a b : K} (h : Scalar.isNan (a +. b) = false) :
    Scalar.isNan a = false ∧ Scalar.isNan b = false := by
  constructor
  · by_contra hc
    have := NanLaws.nan_add_left a b (by simpa using hc)
    simp [this] at h
  · by_contra hc
    have := NanLaws.nan_add_right a b (by simpa using hc)
    simp [this] at h

theorem heuristic_nonneg [NanLaws K] [SignLaws K] (root goal : Vec2 K) (i : Vec2 K × Vec2 K)
    (h : Scalar.isNan (heuristic root goal i) = false) : NonNegative (heuristic root goal i) := by
  have two : ∀ a b c d : Vec2 K, Scalar.isNan (a.distance b +. c.distance d) = false →
      NonNegative (a.distance b +. c.distance d) := fun a b c d h =>
    add_nonNegative (distance_nonneg _ _ (not_nan_add h).1) (distance_nonneg _ _ (not_nan_add h).2)
  unfold heuristic at h ⊢
  simp only at h ⊢
  split
  · rename_i h1; rw [if_pos h1] at h; exact distance_nonneg _ _ h
  · rename_i h1
    rw [if_neg h1] at h
    split
    · rename_i h2; rw [if_pos h2] at h; exact two _ _ _ _ h
    · rename_i h2
      rw [if_neg h2] at h
      split
      · rename_i h3; rw [if_pos h3] at h; exact two _ _ _ _ h
      · rename_i h3; rw [if_neg h3] at h; exact distance_nonneg _ _ h

/-- The two costs of a node are not negative. -/
def NodeSane (n : SearchNode K) : Prop := NonNegative n.distanceStartToRoot ∧ NonNegative n.heuristic

theorem added_sane [NanLaws K] [SignLaws K] {q : Query K} {root : Vec2 K} {o : UInt32} {start stop : Vec2 K × UInt32}
    {node n : SearchNode K} (hn : NonNegative node.distanceStartToRoot) (h : Added q root o start stop node n) :
    NodeSane n := by
  obtain ⟨newF, hh, h1, h2, n1, n2, rfl⟩ := h.ex
  constructor
  · change NonNegative newF
    unfold newDistance at h1
    split at h1
    · simp only [Except.ok.injEq] at h1; exact h1 ▸ hn
    · split at h1
      · simp only [bind_eq_ok, Except.ok.injEq] at h1
        obtain ⟨l, -, rfl⟩ := h1
        exact add_nonNegative hn (distance_nonneg _ _ (not_nan_add n1).2)
      · simp only [Except.ok.injEq] at h1
        subst h1
        exact add_nonNegative hn (distance_nonneg _ _ (not_nan_add n1).2)
  · change NonNegative hh
    unfold newHeuristic at h2
    split at h2
    · simp only [bind_eq_ok, Except.ok.injEq] at h2
      obtain ⟨l0, -, l1, -, rfl⟩ := h2
      exact heuristic_nonneg _ _ _ n2
    · simp only [Except.ok.injEq] at h2
      subst h2
      exact heuristic_nonneg _ _ _ n2

theorem zero_nonNegative [SignLaws K] : NonNegative (Scalar.lit 0 0 : K) :=
  ⟨SignLaws.not_nan _ _ SignLaws.zero, SignLaws.zero⟩

theorem gen_sane [NanLaws K] [SignLaws K] {q : Query K} {n : SearchNode K} (h : Gen q n) : NodeSane n := by
  induction h with
  | setup h =>
    obtain ⟨_, _, _, _, _, _, -, -, -, -, -, -, -, -, h⟩ := h.ex
    exact added_sane (node := emptyNode q.src) zero_nonNegative h
  | child _ h ih =>
    obtain ⟨_, _, _, _, _, _, -, -, -, -, -, -, -, -, -, -, -, -, h⟩ := h.ex
    exact added_sane ih.1 h

theorem detailedLength_sane [NanLaws K] [SignLaws K] (m : Mesh K) : ∀ (l : List (Vec2 K × UInt8)) (acc : K)
    (cur : Vec2 K × UInt8) (len : K), (Scalar.isNan acc = true ∨ NonNegative acc) →
    detailedLength m acc cur l = .ok len → Scalar.isNan len = true ∨ NonNegative len
  | [], acc, cur, len, ha, h => by
    simp only [detailedLength, Except.ok.injEq] at h
    exact h ▸ ha
  | p :: l, acc, cur, len, ha, h => by
    simp only [detailedLength, bind_eq_ok] at h
    obtain ⟨lay, -, h⟩ := h
    refine detailedLength_sane m l _ p len ?_ h
    by_cases hn : Scalar.isNan (acc +. (cur.1.cmul lay.scale).distance (p.1.cmul lay.scale)) = true
    · exact .inl hn
    · right
      have hn' := not_nan_add (by simpa using hn)
      refine add_nonNegative ?_ (distance_nonneg _ _ hn'.2)
      rcases ha with ha | ha
      · rw [ha] at hn'; exact absurd hn'.1 (by simp)
      · exact ha

theorem foundBy_sane [NanLaws K] [SignLaws K] {q : Query K} {p : Path K} (h : FoundBy q p) :
    (q.cfg.detailed = true ∧ Scalar.isNan p.length = true) ∨ NonNegative p.length := by
  obtain ⟨inst, n, -, hg, -, h⟩ := h
  unfold foundPath at h
  simp only at h
  split at h
  · rename_i hd
    simp only [bind_eq_ok, Except.ok.injEq] at h
    obtain ⟨len, h1, rfl⟩ := h
    rcases detailedLength_sane q.mesh _ _ _ _ (.inr zero_nonNegative) h1 with h | h
    · exact .inl ⟨hd, h⟩
    · exact .inr h
  · simp only [Except.ok.injEq] at h
    subst h
    exact .inr (add_nonNegative (gen_sane hg).1 (gen_sane hg).2)

/-- C70. In every arithmetic with the laws of NaN and signs: the length of a returned path is a number (not NaN) and
not negative, if the distance of the two points is a number. -/
theorem C70_length [NanLaws K] [SignLaws K] (bvh : Bvh K) (heap : Heap K) (cfg : Cfg) (hc : cfg.detailed = false)
    (m : Mesh K) (src dst : Coords K) (blocked : List UInt8) (p : Path K)
    (hn : Scalar.isNan (src.pos.distance dst.pos) = false)
    (h : m.pathOnLayers bvh heap cfg src dst blocked = .ok (some p)) : NonNegative p.length := by
  obtain ⟨s, e, -, -, h⟩ := pathOnLayers_some h
  rcases pathBetween_some h with ⟨-, rfl⟩ | ⟨-, hf⟩
  · exact distance_nonneg _ _ hn
  · rcases foundBy_sane hf with ⟨h, -⟩ | h
    · rw [hc] at h; exact absurd h (by simp)
    · exact h

/-- C70 with `detailed-layers`: the length is never negative (but may be NaN). -/
theorem C70_detailed [NanLaws K] [SignLaws K] (bvh : Bvh K) (heap : Heap K) (cfg : Cfg)
    (m : Mesh K) (src dst : Coords K) (blocked : List UInt8) (p : Path K)
    (h : m.pathOnLayers bvh heap cfg src dst blocked = .ok (some p)) :
    Scalar.isNan p.length = true ∨ NonNegative p.length := by
  obtain ⟨s, e, -, -, h⟩ := pathOnLayers_some h
  rcases pathBetween_some h with ⟨-, rfl⟩ | ⟨-, hf⟩
  · cases hd : Scalar.isNan (src.pos.distance dst.pos) with
    | false => exact .inr (distance_nonneg _ _ hd)
    | true => exact .inl rfl
  · rcases foundBy_sane hf with ⟨-, h⟩ | h
    · exact .inl h
    · exact .inr h

/-- C70, asynchronous query. -/
theorem C70_future [NanLaws K] [SignLaws K] (bvh : Bvh K) (heap : Heap K) (cfg : Cfg) (hc : cfg.detailed = false)
    (m : Mesh K) (src dst : Vec2 K) (p : Path K) (hn : Scalar.isNan (src.distance dst) = false)
    (h : Resolves bvh heap cfg m (Mesh.getPath src dst) (some p)) : NonNegative p.length := by
  obtain ⟨s, e, -, -, -, -, h⟩ := resolves_found h
  rcases h with ⟨-, rfl⟩ | ⟨-, hf⟩
  · exact distance_nonneg _ _ hn
  · rcases foundBy_sane hf with ⟨h, -⟩ | h
    · rw [hc] at h; exact absurd h (by simp)
    · exact h

end Polyanya
