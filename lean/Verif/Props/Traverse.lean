import Verif.Lemmas.Traverse
import Verif.Props.Dtw

/-! Properties C15 (length traversal) and C48 (distance lookup). -/

namespace Genex.Props

open Genex Spec Dbl

/-- C15: the traversal starts with the query's own length, names no length twice, and names exactly the lengths between 2
and `N` that differ from the query by at most the band of the longer series.  (A one-point query also names length 1.) -/
theorem C15_traverse [BandOps] (ratio : ℚ) (hr : 0 ≤ ratio) (q N : ℕ) (h1 : 1 ≤ q) (hN : q ≤ N) :
    ∃ l : List Int, generateTraverseOrder ratio q N = .ok l ∧ l.head? = some (q : Int) ∧ l.Nodup ∧
      (∀ x ∈ l, x = (q : Int) ∨ (2 ≤ x ∧ x ≤ N)) ∧
      ∀ x : ℕ, 2 ≤ x → x ≤ N →
        ((x : Int) ∈ l ↔ q ≤ x + bandWidth ratio (max q x) ∧ x ≤ q + bandWidth ratio (max q x)) := by
  obtain ⟨l, e, f, n, h⟩ := traverse_ok hr h1 hN
  refine ⟨l, e, f, n, ?_, ?_⟩
  · intro x hx
    rcases (h x).1 hx with h | ⟨a, b, -⟩
    · exact Or.inl h
    · exact Or.inr ⟨a, b⟩
  · intro x hx hx'
    rw [h]
    constructor
    · rintro (h | ⟨-, -, y, hy, a, b⟩)
      · have : x = q := by exact_mod_cast h
        subst this; constructor <;> omega
      · have : x = y := by exact_mod_cast hy
        subst this; exact ⟨a, b⟩
    · rintro ⟨a, b⟩
      exact Or.inr ⟨by exact_mod_cast hx, by exact_mod_cast hx', x, rfl, a, b⟩

example : generateTraverseOrder (1 / 2) 4 9 = .ok [4, 3, 5, 2, 6, 7, 8] := by decide +kernel
example : generateTraverseOrder (1 / 10) 20 30 = .ok [20, 19, 21, 18, 22] := by decide +kernel

/-- C15: those are exactly the lengths at which the DTW distance to the query is finite. -/
theorem C15_finite {K : Type} [Field K] [LinearOrder K] [IsStrictOrderedRing K] [HasSqrt K] [LawfulSqrt K]
    (m : Metric) (hm : m ≠ .sorensen ∧ m ≠ .cosine) [BandOps] (ratio : ℚ) (hr : 0 ≤ ratio) (N : ℕ) (a b : List K)
    (ha : 2 ≤ a.length) (hN : a.length ≤ N) (hb : 2 ≤ b.length) (hbN : b.length ≤ N) (l : List Int)
    (hl : generateTraverseOrder ratio a.length N = .ok l) :
    (b.length : Int) ∈ l ↔ ∃ x, warpedValue (m.dm K) ratio (a.map fin) (b.map fin) .inf = .ok (fin x) := by
  obtain ⟨l', e, -, -, -, h⟩ := C15_traverse ratio hr a.length N (by omega) hN
  rw [hl, Except.ok.injEq] at e
  subst e
  rw [h _ hb hbN]
  have key : ∀ (M : DM K) V, IsBandedOptimum M ratio a b V →
      ((a.length ≤ b.length + bandWidth ratio (max a.length b.length) ∧
        b.length ≤ a.length + bandWidth ratio (max a.length b.length)) ↔
        ∃ x, warpedValue M ratio (a.map fin) (b.map fin) .inf = .ok (fin x)) := by
    intro M V hV
    rw [← C01_feasible _ _ _ (by omega) (by omega) V]
    rcases hV with ⟨h1, x, h2, -⟩ | ⟨h1, h2⟩
    · exact ⟨fun _ => ⟨x, h2⟩, fun _ => h1⟩
    · refine ⟨fun h => absurd h h1, ?_⟩
      rintro ⟨x, hx⟩
      rw [h2] at hx
      simp at hx
  cases m with
  | euclidean => exact key _ _ (C01_euclidean_dtw ratio hr a b ha hb)
  | manhattan => exact key _ _ (C01_manhattan_dtw ratio hr a b ha hb)
  | chebyshev => exact key _ _ (C01_chebyshev_dtw ratio hr a b ha hb)
  | sorensen => exact absurd rfl hm.1
  | cosine => exact absurd rfl hm.2

/-- The advertised name of a metric. -/
def metricName : Metric → String
  | .euclidean => "euclidean"
  | .manhattan => "manhattan"
  | .chebyshev => "chebyshev"
  | .cosine => "cosine"
  | .sorensen => "sorensen"

/-- C48: a name selects the pairwise distance of a metric iff it is that metric's name, and its warped distance iff it is
that name followed by `_dtw`; no other name selects anything. -/
theorem C48_lookup (name : String) (d : DistRef) :
    getDistanceFromName name = .ok d ↔
      ∃ m, (name = metricName m ∧ d = .pairwise m) ∨ (name = metricName m ++ "_dtw" ∧ d = .warped m) := by
  constructor
  · intro h
    unfold getDistanceFromName gAllDistanceName gAllDistance at h
    simp only [List.zip_cons_cons, List.zip_nil_right, List.lookup] at h
    split at h
    case h_2 => simp at h
    case h_1 _ x hx =>
      rw [Except.ok.injEq] at h
      subst h
      repeat' (split at hx)
      all_goals first
        | (rename_i hq; simp only [beq_iff_eq] at hq; subst hq; simp only [Option.some.injEq] at hx; subst hx
           first
            | exact ⟨.euclidean, Or.inl ⟨rfl, rfl⟩⟩
            | exact ⟨.euclidean, Or.inr ⟨rfl, rfl⟩⟩
            | exact ⟨.manhattan, Or.inl ⟨rfl, rfl⟩⟩
            | exact ⟨.manhattan, Or.inr ⟨rfl, rfl⟩⟩
            | exact ⟨.chebyshev, Or.inl ⟨rfl, rfl⟩⟩
            | exact ⟨.chebyshev, Or.inr ⟨rfl, rfl⟩⟩
            | exact ⟨.cosine, Or.inl ⟨rfl, rfl⟩⟩
            | exact ⟨.cosine, Or.inr ⟨rfl, rfl⟩⟩
            | exact ⟨.sorensen, Or.inl ⟨rfl, rfl⟩⟩
            | exact ⟨.sorensen, Or.inr ⟨rfl, rfl⟩⟩)
        | simp at hx
  · rintro ⟨m, ⟨rfl, rfl⟩ | ⟨rfl, rfl⟩⟩ <;> cases m <;> decide

/-- C48: every listed name can be used. -/
theorem C48_listed (name : String) (h : name ∈ gAllDistanceName) : ∃ d, getDistanceFromName name = .ok d := by
  simp only [gAllDistanceName, List.mem_cons, List.not_mem_nil, or_false] at h
  rcases h with rfl | rfl | rfl | rfl | rfl | rfl | rfl | rfl | rfl | rfl <;> exact ⟨_, rfl⟩

/-- C48: every other name is rejected with an exception. -/
theorem C48_rejected (name : String) (h : name ∉ gAllDistanceName) :
    ∃ msg, getDistanceFromName name = .error (.genex msg) := by
  rcases hd : getDistanceFromName name with e | d
  · unfold getDistanceFromName at hd
    split at hd
    · simp at hd
    · rw [Except.error.injEq] at hd
      exact ⟨_, by rw [← hd]⟩
  · exfalso
    obtain ⟨m, ⟨rfl, -⟩ | ⟨rfl, -⟩⟩ := (C48_lookup name d).1 hd <;> revert h <;> cases m <;> decide

example : getDistanceFromName "cosine_dtw" = .ok (.warped .cosine) ∧ "cosine_dtw" ∈ gAllDistanceName ∧
    "dtw" ∉ gAllDistanceName := by decide

end Genex.Props
