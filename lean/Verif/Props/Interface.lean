import Verif.Spec.Interface
import Verif.Lemmas.Interface
import Verif.Props.EndToEnd
import Verif.Props.Pairwise
import Verif.Props.Dtw
import Verif.Props.Traverse

/-!
# C71: distances, matchings and bands of the interface
-/

set_option linter.unusedSectionVars false

namespace Genex.Props

open Dbl Api Registry

section

variable {K : Type} [Field K] [LinearOrder K] [HasSqrt K]

/-- C71: the band used is the one set last, 0.1 before any is set. -/
theorem C71_ratio (E : Env K) (h : List (AnyCall K × Reply K)) (s : Api K) (hh : History E fresh h s) :
    s.ratio = ratioSet (h.map Prod.fst).reverse := by
  induction hh with
  | nil => rfl
  | @snoc t u h' c r h1 h2 h3 ih =>
    rw [List.map_append, List.reverse_append]
    simp only [List.map_cons, List.map_nil, List.reverse_cons, List.reverse_nil, List.nil_append, List.cons_append]
    have := ih
    have hr : (∀ r, c ≠ .call (.setRatio r)) → u.ratio = t.ratio := by
      intro hc
      exact step_ratio h2 hc
    cases c with
    | group => simp only [ratioSet]; rw [hr (by simp), this]
    | call c =>
      cases c with
      | setRatio r => simp only [Step, exec, Prod.mk.injEq] at h2; rw [← h2.1]; rfl
      | _ => simp only [ratioSet]; rw [hr (by simp), this]

/-- C71: two parts of loaded series of one length have the textbook distance of the numbers that `getTimeSeries` shows for them. -/
theorem C71_pairwise [IsStrictOrderedRing K] (E : Env K) (s : Api K) (m : Metric) (n1 n2 : String) (i1 a1 b1 i2 a2 b2 : Int) (x y : List K)
    (hx : Query E s n1 i1 a1 b1 x) (hy : Query E s n2 i2 a2 b2 y) (hl : x.length = y.length) (hp : 1 ≤ x.length) (v : K)
    (hv : textbook m x y = some v) :
    s.exec E (.distance n1 i1 a1 b1 n2 i2 a2 b2 (metricName m)) = (s, .ret (.ok (.dist (fin v)))) := by
  rw [distance_exec hx hy]
  rw [(C48_lookup _ _).2 ⟨m, .inl ⟨rfl, rfl⟩⟩]
  simp only [bind, Except.bind, Arith.eval, DistRef.eval]
  cases m with
  | euclidean => cases hv; simp only [Metric.dm]; rw [C03_euclidean x y hl hp]; rfl
  | manhattan => cases hv; simp only [Metric.dm]; rw [C03_manhattan x y hl hp]; rfl
  | chebyshev => cases hv; simp only [Metric.dm]; rw [C03_chebyshev x y hl hp]; rfl
  | cosine => cases hv
  | sorensen => cases hv

/-- C71: parts of different lengths have no pairwise distance: the call throws and changes nothing. -/
theorem C71_unequal [IsStrictOrderedRing K] (E : Env K) (s : Api K) (m : Metric) (n1 n2 : String) (i1 a1 b1 i2 a2 b2 : Int) (x y : List K)
    (hx : Query E s n1 i1 a1 b1 x) (hy : Query E s n2 i2 a2 b2 y) (hl : x.length ≠ y.length) :
    ∃ msg, s.exec E (.distance n1 i1 a1 b1 n2 i2 a2 b2 (metricName m)) = (s, .ret (.error (.genex msg))) := by
  obtain ⟨msg, e⟩ := C03_length_mismatch (m.dm K) (x.map fin) (y.map fin) .inf (by simpa using hl)
  refine ⟨msg, ?_⟩
  rw [distance_exec hx hy, (C48_lookup _ _).2 ⟨m, .inl ⟨rfl, rfl⟩⟩]
  simp only [bind, Except.bind, Arith.eval, DistRef.eval, e]
  rfl

/-- C71: with the name of a DTW distance, the answer is the DTW distance of the numbers shown, for the band now set. -/
theorem C71_dtw [IsStrictOrderedRing K] (E : Env K) (s : Api K) (m : Metric) (hm : m ≠ .sorensen ∧ m ≠ .cosine) (hs : m = .euclidean → LawfulSqrt K)
    (hr : 0 ≤ s.ratio) (n1 n2 : String) (i1 a1 b1 i2 a2 b2 : Int) (x y : List K)
    (hx : Query E s n1 i1 a1 b1 x) (hy : Query E s n2 i2 a2 b2 y) (h1 : 1 ≤ x.length) (h2 : 1 ≤ y.length) :
    ∃ d, Spec.Dtw m s.ratio x y d ∧
      s.exec E (.distance n1 i1 a1 b1 n2 i2 a2 b2 (metricName m ++ "_dtw")) = (s, .ret (.ok (.dist d))) := by
  obtain ⟨d, hd, -⟩ := C11_nonneg m hm hs s.ratio hr x y h1 h2
  refine ⟨d, (dtw_iff hm hs hr h1 h2).2 hd, ?_⟩
  rw [distance_exec hx hy, (C48_lookup _ _).2 ⟨m, .inr ⟨rfl, rfl⟩⟩]
  simp only [bind, Except.bind, Arith.eval, DistRef.eval, hd]
  rfl

/-- C71: the order of the two parts does not matter. -/
theorem C71_symmetric [IsStrictOrderedRing K] (E : Env K) (s : Api K) (m : Metric) (hm : m ≠ .sorensen ∧ m ≠ .cosine) (hs : m = .euclidean → LawfulSqrt K)
    (hr : 0 ≤ s.ratio) (n1 n2 : String) (i1 a1 b1 i2 a2 b2 : Int) (x y : List K)
    (hx : Query E s n1 i1 a1 b1 x) (hy : Query E s n2 i2 a2 b2 y) (h1 : 1 ≤ x.length) (h2 : 1 ≤ y.length) :
    s.exec E (.distance n1 i1 a1 b1 n2 i2 a2 b2 (metricName m ++ "_dtw")) =
      s.exec E (.distance n2 i2 a2 b2 n1 i1 a1 b1 (metricName m ++ "_dtw")) := by
  rw [distance_exec hx hy, distance_exec hy hx, (C48_lookup _ _).2 ⟨m, .inr ⟨rfl, rfl⟩⟩]
  simp only [bind, Except.bind, Arith.eval, DistRef.eval]
  rw [C11_symmetric m hm hs s.ratio hr x y h1 h2]

/-- C71: parts with the same numbers have distance 0, wherever they are. -/
theorem C71_self [IsStrictOrderedRing K] (E : Env K) (s : Api K) (m : Metric) (hm : m ≠ .sorensen ∧ m ≠ .cosine) (hs : m = .euclidean → LawfulSqrt K)
    (hr : 0 ≤ s.ratio) (n1 n2 : String) (i1 a1 b1 i2 a2 b2 : Int) (x : List K)
    (hx : Query E s n1 i1 a1 b1 x) (hy : Query E s n2 i2 a2 b2 x) (h1 : 1 ≤ x.length) :
    s.exec E (.distance n1 i1 a1 b1 n2 i2 a2 b2 (metricName m ++ "_dtw")) = (s, .ret (.ok (.dist (fin 0)))) := by
  rw [distance_exec hx hy, (C48_lookup _ _).2 ⟨m, .inr ⟨rfl, rfl⟩⟩]
  simp only [bind, Except.bind, Arith.eval, DistRef.eval]
  rw [C11_self m hm hs s.ratio hr x h1]
  rfl

/-- C71: any other distance name is rejected. -/
theorem C71_name (E : Env K) (s : Api K) (n1 n2 : String) (i1 a1 b1 i2 a2 b2 : Int) (x y : List K)
    (hx : Query E s n1 i1 a1 b1 x) (hy : Query E s n2 i2 a2 b2 y) (d : String) (hd : d ∉ gAllDistanceName) :
    ∃ msg, s.exec E (.distance n1 i1 a1 b1 n2 i2 a2 b2 d) = (s, .ret (.error (.genex msg))) := by
  obtain ⟨msg, e⟩ := C48_rejected d hd
  refine ⟨msg, ?_⟩
  rw [distance_exec hx hy, e]
  rfl

/-- C71: the matching is a valid alignment of the two parts.
Missing: two single points, where the claim is false, see `C71_single_points_false`. -/
theorem C71_matching_partial [IsStrictOrderedRing K] (E : Env K) (s : Api K) (m : Metric) (hm : m ≠ .sorensen ∧ m ≠ .cosine)
    (hs : m = .euclidean → LawfulSqrt K)
    (n1 n2 : String) (i1 a1 b1 i2 a2 b2 : Int) (x y : List K)
    (hx : Query E s n1 i1 a1 b1 x) (hy : Query E s n2 i2 a2 b2 y) (h1 : 1 ≤ x.length) (h2 : 1 ≤ y.length)
    (h3 : ¬ (x.length = 1 ∧ y.length = 1)) :
    ∃ p, s.exec E (.matching n1 i1 a1 b1 n2 i2 a2 b2 (metricName m ++ "_dtw")) = (s, .ret (.ok (.matching p))) ∧
      Spec.Alignment x.length y.length p := by
  obtain ⟨d, p, e, hp⟩ := C12_matching_partial m hm hs s.ratio x y h1 h2 h3 .inf
  refine ⟨p, ?_, hp⟩
  rw [matching_exec hx hy, (C48_lookup _ _).2 ⟨m, .inr ⟨rfl, rfl⟩⟩]
  have : notDtw (metricName m ++ "_dtw") = .ok false := by cases m <;> decide +kernel
  simp only [bind, Except.bind, this, Arith.matching, DistRef.matching, e]
  rfl

/-- C71 for the full band: the cost of the matching is the DTW distance.
Missing: narrower bands, where the claim is false, see `C71_narrow_false`. -/
theorem C71_optimal_partial [IsStrictOrderedRing K] (E : Env K) (s : Api K) (m : Metric) (hm : m ≠ .sorensen ∧ m ≠ .cosine)
    (hs : m = .euclidean → LawfulSqrt K)
    (hr : 1 ≤ s.ratio) (n1 n2 : String) (i1 a1 b1 i2 a2 b2 : Int) (x y : List K)
    (hx : Query E s n1 i1 a1 b1 x) (hy : Query E s n2 i2 a2 b2 y) (h1 : 2 ≤ x.length) (h2 : 2 ≤ y.length) :
    ∃ p v, s.exec E (.matching n1 i1 a1 b1 n2 i2 a2 b2 (metricName m ++ "_dtw")) = (s, .ret (.ok (.matching p))) ∧
      alignCost m x y p = some v ∧ Spec.Dtw m s.ratio x y (fin v) := by
  have hr0 : 0 ≤ s.ratio := le_trans zero_le_one hr
  have hn : notDtw (metricName m ++ "_dtw") = .ok false := by cases m <;> decide +kernel
  have key : ∀ p v, warpedDistance (m.dm K) s.ratio (x.map fin) (y.map fin) .inf [] = .ok (fin v, p) →
      s.exec E (.matching n1 i1 a1 b1 n2 i2 a2 b2 (metricName m ++ "_dtw")) = (s, .ret (.ok (.matching p))) ∧
      Spec.Dtw m s.ratio x y (fin v) := by
    intro p v e
    constructor
    · rw [matching_exec hx hy, (C48_lookup _ _).2 ⟨m, .inr ⟨rfl, rfl⟩⟩]
      simp only [bind, Except.bind, hn, Arith.matching, DistRef.matching, e]
      rfl
    · refine (dtw_iff hm hs hr0 (by omega) (by omega)).2 ?_
      unfold warpedValue
      rw [e]
      rfl
  obtain ⟨h0, ⟨p', e', -⟩, p'', e'', -⟩ := C13_full_band_partial s.ratio hr x y h1 h2
  cases m with
  | euclidean =>
    obtain ⟨p, e, -⟩ := h0 (hs rfl)
    exact ⟨p, _, (key p _ e).1, rfl, (key p _ e).2⟩
  | manhattan => exact ⟨p', _, (key p' _ e').1, rfl, (key p' _ e').2⟩
  | chebyshev => exact ⟨p'', _, (key p'' _ e'').1, rfl, (key p'' _ e'').2⟩
  | cosine => exact absurd rfl hm.2
  | sorensen => exact absurd rfl hm.1

/-- C71: a name of at least three characters that does not end in `dtw` gives no matching. -/
theorem C71_matching_name (E : Env K) (s : Api K) (n1 n2 : String) (i1 a1 b1 i2 a2 b2 : Int) (x y : List K)
    (hx : Query E s n1 i1 a1 b1 x) (hy : Query E s n2 i2 a2 b2 y) (d : String) (hd : ¬ "dtw".toList <:+ d.toList) (h3 : 3 ≤ d.length) :
    ∃ msg, s.exec E (.matching n1 i1 a1 b1 n2 i2 a2 b2 d) = (s, .ret (.error (.genex msg))) := by
  have : notDtw d = .ok true := by
    unfold notDtw
    rw [if_neg (by omega)]
    congr 1
    rw [decide_eq_true_iff]
    intro h
    exact hd (h ▸ List.drop_suffix _ _)
  refine ⟨"Can only compute matchings using _dtw distances", ?_⟩
  rw [matching_exec hx hy]
  simp only [bind, Except.bind, this]
  rfl

end

/-! ## The session of C70 -/

theorem exServed_query' : Query exEnv exServed "f" 1 0 3 [2, 3, 5] :=
  ⟨_, Prod.ext rfl (shown_some (r := (exServed.exec exEnv (.series "f" 1 0 3)).2) (by decide +kernel))⟩
theorem exServed_query'' : Query exEnv exServed "f" 0 0 3 [1, 4, 2] :=
  ⟨_, Prod.ext rfl (shown_some (r := (exServed.exec exEnv (.series "f" 0 0 3)).2) (by decide +kernel))⟩

example : exServed.ratio = 1 / 2 := by decide +kernel
example : ratioSet ([.call .count, .call (.setRatio (1 / 2)), .call (.setRatio 1)] : List (AnyCall ℚ)) = 1 / 2 := by decide +kernel
example := C71_ratio exEnv _ _ (run_fresh [exTiny, .setRatio (1 / 2), .setRatio 1, exTriples] (by decide +kernel))
example := C71_pairwise exEnv exServed .manhattan "f" "f" 0 0 3 1 0 3 [1, 4, 2] [2, 3, 5] exServed_query'' exServed_query' rfl
  (by decide) (5 / 3) (by decide +kernel)
example := C71_unequal exEnv exServed .manhattan "f" "f" 0 1 3 1 0 3 [4, 2] [2, 3, 5] exServed_query exServed_query' (by decide)
example := C71_dtw exEnv exServed .chebyshev (by decide) (by simp) (by decide +kernel) "f" "f" 0 1 3 1 0 3 [4, 2] [2, 3, 5]
  exServed_query exServed_query' (by decide) (by decide)
example := C71_symmetric exEnv exServed .chebyshev (by decide) (by simp) (by decide +kernel) "f" "f" 0 1 3 1 0 3 [4, 2] [2, 3, 5]
  exServed_query exServed_query' (by decide) (by decide)
example := C71_self exEnv exServed .chebyshev (by decide) (by simp) (by decide +kernel) "f" "f" 0 1 3 0 1 3 [4, 2]
  exServed_query exServed_query (by decide)
example := C71_name exEnv exServed "f" "f" 0 1 3 1 0 3 [4, 2] [2, 3, 5] exServed_query exServed_query' "dtw" (by decide)
example := C71_matching_partial exEnv exServed .manhattan (by decide) (by simp) "f" "f" 0 1 3 1 0 3 [4, 2] [2, 3, 5]
  exServed_query exServed_query' (by decide) (by decide) (by decide)
example := C71_matching_name exEnv exServed "f" "f" 0 1 3 1 0 3 [4, 2] [2, 3, 5] exServed_query exServed_query' "euclidean"
  (by decide +kernel) (by decide +kernel)

/-- The same session with the full band. -/
def exBroad : Api ℚ := (run exServed [.setRatio 1]).1

theorem exBroad_query : Query exEnv exBroad "f" 0 1 3 [4, 2] :=
  ⟨_, Prod.ext rfl (shown_some (r := (exBroad.exec exEnv (.series "f" 0 1 3)).2) (by decide +kernel))⟩
theorem exBroad_query' : Query exEnv exBroad "f" 1 0 3 [2, 3, 5] :=
  ⟨_, Prod.ext rfl (shown_some (r := (exBroad.exec exEnv (.series "f" 1 0 3)).2) (by decide +kernel))⟩

/-- The matching that a reply shows. -/
def matched : Reply ℚ → Option (List (ℕ × ℕ))
  | .ret (.ok (.matching p)) => some p
  | _ => none

theorem matched_some {r : Reply ℚ} {p : List (ℕ × ℕ)} (h : matched r = some p) : r = .ret (.ok (.matching p)) := by
  unfold matched at h
  split at h
  · cases h; rfl
  · cases h

example := C71_optimal_partial exEnv exBroad .manhattan (by decide) (by simp) (by decide +kernel) "f" "f" 0 1 3 1 0 3 [4, 2] [2, 3, 5]
  exBroad_query exBroad_query' (by decide) (by decide)

theorem exBroad_point : Query exEnv exBroad "f" 0 1 2 [4] :=
  ⟨_, Prod.ext rfl (shown_some (r := (exBroad.exec exEnv (.series "f" 0 1 2)).2) (by decide +kernel))⟩

/-- C71 is false: the matching of two single points is empty. -/
theorem C71_single_points_false : ∃ (s : Api ℚ) (x y : List ℚ), Query exEnv s "f" 0 1 2 x ∧ Query exEnv s "f" 0 1 2 y ∧
    x.length = 1 ∧ y.length = 1 ∧
    ∃ p, s.exec exEnv (.matching "f" 0 1 2 "f" 0 1 2 "manhattan_dtw") = (s, .ret (.ok (.matching p))) ∧
      ¬ Spec.Alignment x.length y.length p := by
  refine ⟨exBroad, [4], [4], exBroad_point, exBroad_point, rfl, rfl, [], ?_, ?_⟩
  · exact Prod.ext rfl (matched_some (r := (exBroad.exec exEnv (.matching "f" 0 1 2 "f" 0 1 2 "manhattan_dtw")).2) (by decide +kernel))
  · intro h
    have := h.first
    simp at this

/-- The same session with no band. -/
def exNarrow : Api ℚ := (run exServed [.setRatio 0]).1

theorem exNarrow_query : Query exEnv exNarrow "f" 0 0 3 [1, 4, 2] :=
  ⟨_, Prod.ext rfl (shown_some (r := (exNarrow.exec exEnv (.series "f" 0 0 3)).2) (by decide +kernel))⟩
theorem exNarrow_query' : Query exEnv exNarrow "f" 1 0 3 [2, 3, 5] :=
  ⟨_, Prod.ext rfl (shown_some (r := (exNarrow.exec exEnv (.series "f" 1 0 3)).2) (by decide +kernel))⟩

/-- C71 is false for a narrow band: the matching returned costs more than the distance returned. -/
theorem C71_narrow_false : ∃ (s : Api ℚ) (x y : List ℚ), Query exEnv s "f" 0 0 3 x ∧ Query exEnv s "f" 1 0 3 y ∧ 0 ≤ s.ratio ∧
    ∃ p, s.exec exEnv (.matching "f" 0 0 3 "f" 1 0 3 "manhattan_dtw") = (s, .ret (.ok (.matching p))) ∧
      alignCost .manhattan x y p = some (7 / 6) ∧ Spec.Dtw .manhattan s.ratio x y (fin (5 / 6)) := by
  refine ⟨exNarrow, [1, 4, 2], [2, 3, 5], exNarrow_query, exNarrow_query', by decide +kernel, [(0, 0), (0, 1), (1, 2), (2, 2)], ?_, ?_,
    ?_⟩
  · exact Prod.ext rfl (matched_some (r := (exNarrow.exec exEnv (.matching "f" 0 0 3 "f" 1 0 3 "manhattan_dtw")).2)
      (by decide +kernel))
  · decide +kernel
  · exact (dtw_iff (by decide) (by simp) (by decide +kernel) (by simp) (by simp)).2 (by decide +kernel)

/-- C71: for a name of fewer than three characters, `matchingBetween` throws an exception of the C++ library. -/
theorem C71_short_name (E : Env ℚ) (s : Api ℚ) (n1 n2 : String) (i1 a1 b1 i2 a2 b2 : Int) (x y : List ℚ)
    (hx : Query E s n1 i1 a1 b1 x) (hy : Query E s n2 i2 a2 b2 y) (d : String) (hd : d.length < 3) :
    ∃ msg, s.exec E (.matching n1 i1 a1 b1 n2 i2 a2 b2 d) = (s, .ret (.error (.std msg))) := by
  refine ⟨"out_of_range", ?_⟩
  rw [matching_exec hx hy]
  unfold notDtw
  rw [if_pos hd]
  rfl
example := C71_short_name exEnv exServed "f" "f" 0 1 3 1 0 3 [4, 2] [2, 3, 5] exServed_query exServed_query' "" (by decide +kernel)

end Genex.Props
