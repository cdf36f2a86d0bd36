import Verif.Lemmas.TopK
import Verif.Props.Dtw
import Verif.Props.LowerBounds
import Verif.Props.Traverse
import Verif.Spec.Search

/-! The distances used by the searches: value and behaviour under a bound, in one statement. -/

set_option linter.unusedSectionVars false

namespace Genex

open Dbl Spec Props

variable {K : Type} [Field K] [LinearOrder K] [IsStrictOrderedRing K] [HasSqrt K]

/-- Infinity or a finite non-negative number. -/
def IsDist (F : Dbl K) : Prop := F = .inf ∨ ∃ x, F = fin x ∧ 0 ≤ x

theorem IsDist.ne_nan {F : Dbl K} (h : IsDist F) : F ≠ .nan := by
  rcases h with rfl | ⟨x, rfl, -⟩ <;> simp

theorem ExactEval.at_inf {eval : Dbl K → Res (Dbl K)} {F : Dbl K} (h : ExactEval eval F) : eval .inf = .ok F := by
  rcases h .inf with h | ⟨h, -⟩
  · exact h
  · cases F <;> simp at h

/-! ## The DTW distance -/

theorem leastCost_unique [BandOps] {ratio : ℚ} {a b : List K} {cost : List (ℕ × ℕ) → K} {d d' : Dbl K}
    (h : LeastCost ratio a b cost d) (h' : LeastCost ratio a b cost d') : d = d' := by
  rcases h with ⟨x, rfl, l⟩ | ⟨rfl, e⟩ <;> rcases h' with ⟨x', rfl, l'⟩ | ⟨rfl, e'⟩
  · rw [l.unique l']
  · have := l.1; rw [e'] at this; exact this.elim
  · have := l'.1; rw [e] at this; exact this.elim
  · rfl

theorem dtw_unique {m : Metric} [BandOps] {ratio : ℚ} {a b : List K} {d d' : Dbl K} (h : Dtw m ratio a b d)
    (h' : Dtw m ratio a b d') : d = d' := by
  cases m with
  | euclidean => exact leastCost_unique h h'
  | manhattan => exact leastCost_unique h h'
  | chebyshev => exact leastCost_unique h h'
  | cosine => exact h.elim
  | sorensen => exact h.elim

theorem allowed_dtwBand {m n : ℕ} (hm : 1 ≤ m) (hn : 1 ≤ n) [BandOps] {ratio : ℚ} {p : List (ℕ × ℕ)} (hp : Alignment m n p) :
    (∀ c ∈ p, Allowed m n (bandWidth ratio (max m n)) c.1 c.2) ↔ InBand (dtwBand ratio m n) p := by
  by_cases h : m = 1 ∨ n = 1
  · have hb := (alignment_iff.1 hp).bound
    unfold InBand dtwBand Allowed inB
    rw [if_pos h]
    constructor <;> intro hc c hcp <;> have := hc c hcp <;> have h1 := hb c hcp <;> simp only at h1 <;> omega
  · rw [allowed_inBand (by omega) (by omega)]
    unfold dtwBand
    rw [if_neg h, one_mul]

theorem leastCost_warped {M : DM K} [BandOps] {ratio : ℚ} {a b : List K} (hr : 0 ≤ ratio) (L : Mono M a.length b.length)
    (V : List (ℕ × ℕ) → K) (hV : ∀ c p, PathTo c p → L.val (pathAcc M a b p) = V p) (ha : 1 ≤ a.length) (hb : 1 ≤ b.length)
    {d : Dbl K} : LeastCost ratio a b V d ↔ warpedValue M ratio (a.map fin) (b.map fin) .inf = .ok d := by
  have hbw := band_eq_bandWidth hr (len := max a.length b.length) (by omega)
  have key : ∃ d, LeastCost ratio a b V d ∧ warpedValue M ratio (a.map fin) (b.map fin) .inf = .ok d := by
    have hset : {v | ∃ p, Alignment a.length b.length p ∧
        (∀ c ∈ p, Allowed a.length b.length (bandWidth ratio (max a.length b.length)) c.1 c.2) ∧ V p = v} =
        bandedCosts a.length b.length (dtwBand ratio a.length b.length) V := by
      ext v
      constructor
      · rintro ⟨p, h1, h2, h3⟩; exact ⟨p, h1, (allowed_dtwBand ha hb h1).1 h2, h3⟩
      · rintro ⟨p, h1, h2, h3⟩; exact ⟨p, h1, (allowed_dtwBand ha hb h1).2 h2, h3⟩
    rcases warped_isLeast L V hV hbw ha hb with ⟨x, e, l⟩ | ⟨e, n⟩
    · exact ⟨fin x, .inl ⟨x, rfl, hset ▸ l⟩, e⟩
    · refine ⟨.inf, .inr ⟨rfl, ?_⟩, e⟩
      rw [← hset, Set.eq_empty_iff_forall_notMem]
      rintro v ⟨p, h1, h2, -⟩
      exact n ⟨p, h1, h2⟩
  obtain ⟨d', h1, h2⟩ := key
  constructor
  · intro h; rw [leastCost_unique h h1]; exact h2
  · intro h; rw [h2, Except.ok.injEq] at h; exact h ▸ h1

/-- The code computes the DTW distance. -/
theorem dtw_iff {m : Metric} (hm : m ≠ .sorensen ∧ m ≠ .cosine) (hs : m = .euclidean → LawfulSqrt K) [BandOps] {ratio : ℚ}
    (hr : 0 ≤ ratio) {a b : List K} (ha : 1 ≤ a.length) (hb : 1 ≤ b.length) {d : Dbl K} :
    Dtw m ratio a b d ↔ warpedValue (m.dm K) ratio (a.map fin) (b.map fin) .inf = .ok d := by
  cases m with
  | euclidean => have := hs rfl; exact leastCost_warped hr (monoEuclidean (by omega)) _ (valE a b _) ha hb
  | manhattan => exact leastCost_warped hr (monoManhattan (by omega)) _ (valM a b _) ha hb
  | chebyshev => exact leastCost_warped hr monoChebyshev _ (valC a b) ha hb
  | cosine => exact absurd rfl hm.2
  | sorensen => exact absurd rfl hm.1

theorem dtw_exact (m : Metric) (hm : m ≠ .sorensen ∧ m ≠ .cosine) (hs : m = .euclidean → LawfulSqrt K) [BandOps] (ratio : ℚ)
    (hr : 0 ≤ ratio) (a b : List K) (ha : 1 ≤ a.length) (hb : 1 ≤ b.length) (h1 : b.length = 1 → a.length ≤ bandWidth ratio a.length + 1 ∨ 2 * bandWidth ratio a.length + 1 < a.length) :
    ∃ F, Dtw m ratio a b F ∧ IsDist F ∧ ExactEval (warpedValue (m.dm K) ratio (a.map fin) (b.map fin)) F := by
  simp only [dtw_iff hm hs hr ha hb]
  have hbw := band_eq_bandWidth hr (len := max a.length b.length) (by omega)
  have h1' : b.length = 1 → a.length ≤ bandWidth ratio (max a.length b.length) + 1 ∨ 2 * bandWidth ratio (max a.length b.length) + 1 < a.length := by
    intro h
    rw [show max a.length b.length = a.length by omega]
    exact h1 h
  have key : ∀ (M : DM K) (L : Mono M a.length b.length) (V : List (ℕ × ℕ) → K),
      (∀ c p, PathTo c p → L.val (pathAcc M a b p) = V p) → (∀ p, 0 ≤ V p) →
      ∃ F, warpedValue M ratio (a.map fin) (b.map fin) .inf = .ok F ∧ IsDist F ∧
        ExactEval (warpedValue M ratio (a.map fin) (b.map fin)) F := by
    intro M L V hV h0
    have hE : ∀ F, warpedValue M ratio (a.map fin) (b.map fin) .inf = .ok F →
        ExactEval (warpedValue M ratio (a.map fin) (b.map fin)) F := by
      intro F e d
      obtain ⟨F', -, e', h⟩ := warped_dropExact L.toGrow hbw ha hb h1' d
      rw [e, Except.ok.injEq] at e'
      subst e'; exact h
    rcases warped_isLeast L V hV hbw ha hb with ⟨x, e, l⟩ | ⟨e, n⟩
    · obtain ⟨p, -, -, h⟩ := l.1
      exact ⟨_, e, Or.inr ⟨x, rfl, by rw [← h]; exact h0 p⟩, hE _ e⟩
    · exact ⟨_, e, Or.inl rfl, hE _ e⟩
  have hpos : (0 : K) ≤ ((2 * max a.length b.length : ℕ) : K) := by positivity
  cases m with
  | euclidean =>
    have := hs rfl
    exact key (euclidean K) (monoEuclidean (by omega)) (fun p => HasSqrt.sqrt (sqCost a b p) / ((2 * max a.length b.length : ℕ) : K))
      (valE a b _)
      (fun p => div_nonneg (LawfulSqrt.sqrt_nonneg (sqCost_nonneg _ _ _)) hpos)
  | manhattan =>
    exact key (manhattan K) (monoManhattan (by omega)) (fun p => absCost a b p / ((2 * max a.length b.length : ℕ) : K))
      (valM a b _)
      (fun p => div_nonneg (absCost_nonneg _ _ _) hpos)
  | chebyshev =>
    exact key (chebyshev K) monoChebyshev (fun p => maxCost a b p)
      (valC a b) (fun p => maxCost_nonneg _ _ _)
  | cosine => exact absurd rfl hm.2
  | sorensen => exact absurd rfl hm.1

theorem lookup_pairwise (m : Metric) : getDistanceFromName (metricName m) = .ok (.pairwise m) := by
  cases m <;> rfl

theorem lookup_warped (m : Metric) : getDistanceFromName (metricName m ++ "_dtw") = .ok (.warped m) := by
  cases m <;> rfl

end Genex
