import Verif.Lemmas.MetricLaws
import Mathlib.Tactic.NormNum

/-!
# C03, C04, C10: pairwise distances
-/

namespace Genex.Props

open Dbl Spec

variable {K : Type} [Field K] [LinearOrder K] [IsStrictOrderedRing K]

/-! ## C03 -/

/-- C03 euclidean: root mean square difference. -/
theorem C03_euclidean [HasSqrt K] (a b : List K) (hl : a.length = b.length) (hp : 1 ≤ a.length) :
    pairwiseDistance (euclidean K) (a.map fin) (b.map fin) .inf = .ok (fin (rms a b)) :=
  pairwise_euclidean a b hl hp

/-- C03 manhattan: mean absolute difference. -/
theorem C03_manhattan (a b : List K) (hl : a.length = b.length) (hp : 1 ≤ a.length) :
    pairwiseDistance (manhattan K) (a.map fin) (b.map fin) .inf = .ok (fin (meanAbs a b)) :=
  pairwise_manhattan a b hl hp

/-- C03 chebyshev: largest absolute difference. -/
theorem C03_chebyshev (a b : List K) (hl : a.length = b.length) (hp : 1 ≤ a.length) :
    pairwiseDistance (chebyshev K) (a.map fin) (b.map fin) .inf = .ok (fin (maxAbs a b)) :=
  pairwise_chebyshev a b hl hp

omit [Field K] [IsStrictOrderedRing K] in
/-- C03 rejection: series of different lengths raise an exception, for any metric, values and bound. -/
theorem C03_length_mismatch (M : DM K) (a b : List (Dbl K)) (d : Dbl K) (h : a.length ≠ b.length) :
    ∃ msg, pairwiseDistance M a b d = .error (.genex msg) := by
  unfold pairwiseDistance
  rw [if_pos h]
  exact ⟨_, rfl⟩

example : pairwiseDistance (euclidean ℚ) [fin 1, fin 4, fin 0] [fin 3, fin 2, fin 2] .inf = .ok (fin 2) := by
  decide +kernel
example : pairwiseDistance (manhattan ℚ) [fin 1, fin 4, fin 0] [fin 3, fin 2, fin 5] .inf = .ok (fin 3) := by
  decide +kernel
example : pairwiseDistance (chebyshev ℚ) [fin 1, fin 4, fin 0] [fin 3, fin 2, fin 5] .inf = .ok (fin 5) := by
  decide +kernel
example : ([1, 4, 0] : List ℝ).length = ([3, 2, 5] : List ℝ).length ∧ 1 ≤ ([1, 4, 0] : List ℝ).length := by simp

/-! ## C04 -/

/-- What C04 asks of a distance function `f` of the bound: the unbounded value, or infinity only above the bound. -/
def DropExact (f : Dbl K → Res (Dbl K)) (d : Dbl K) : Prop :=
  ∃ F, f .inf = .ok F ∧ (f d = .ok F ∨ (d < F ∧ f d = .ok .inf))

/-- C04 for three of the five metrics (any bound, also negative, infinite or NaN).
Missing: sorensen and cosine, for which the claim is false, see `C04_sorensen_false` and `C04_cosine_false`. -/
theorem C04_dropout_partial [HasSqrt K] [LawfulSqrt K] (m : Metric) (hm : m ≠ .sorensen ∧ m ≠ .cosine)
    (a b : List K) (hl : a.length = b.length) (d : Dbl K) :
    DropExact (fun d => pairwiseDistance (m.dm K) (a.map fin) (b.map fin) d) d := by
  cases m with
  | euclidean => exact drop_euclidean a b hl d
  | manhattan => exact drop_manhattan a b hl d
  | chebyshev => exact drop_chebyshev a b hl d
  | cosine => exact absurd rfl hm.2
  | sorensen => exact absurd rfl hm.1

/-- The bound is really used: here the call gives up early. -/
example : pairwiseDistance (manhattan ℚ) [fin 1, fin 4, fin 0] [fin 9, fin 2, fin 5] (fin 2) = .ok .inf ∧
    pairwiseDistance (manhattan ℚ) [fin 1, fin 4, fin 0] [fin 9, fin 2, fin 5] (fin 5) = .ok (fin 5) := by
  decide +kernel

/-- C04 is false for sorensen: the value 1/12 is below the bound 1/4, but the call returns infinity. -/
theorem C04_sorensen_false : ∃ (a b : List ℚ) (d : ℚ), a.length = b.length ∧ 0 ≤ d ∧
    ¬ DropExact (fun d => pairwiseDistance (sorensen ℚ) (a.map fin) (b.map fin) d) (fin d) := by
  refine ⟨[1, 10], [3, 10], 1 / 4, rfl, by norm_num, ?_⟩
  rintro ⟨F, h1, h2⟩
  have e1 : pairwiseDistance (sorensen ℚ) (([1, 10] : List ℚ).map fin) (([3, 10] : List ℚ).map fin) .inf
      = .ok (fin (1 / 12)) := by decide +kernel
  have e2 : pairwiseDistance (sorensen ℚ) (([1, 10] : List ℚ).map fin) (([3, 10] : List ℚ).map fin) (fin (1 / 4))
      = .ok .inf := by decide +kernel
  simp only [e1, e2, Except.ok.injEq] at h1 h2
  subst h1
  revert h2
  decide +kernel

/-- C04 is false for cosine: the value 0 is below the bound 1/2, but the call returns infinity. -/
theorem C04_cosine_false : ∃ (a b : List ℚ) (d : ℚ), a.length = b.length ∧ 0 ≤ d ∧
    ¬ DropExact (fun d => pairwiseDistance (cosine ℚ) (a.map fin) (b.map fin) d) (fin d) := by
  refine ⟨[1, 1], [1, -1], 1 / 2, rfl, by norm_num, ?_⟩
  rintro ⟨F, h1, h2⟩
  have e1 : pairwiseDistance (cosine ℚ) (([1, 1] : List ℚ).map fin) (([1, -1] : List ℚ).map fin) .inf
      = .ok (fin 0) := by decide +kernel
  have e2 : pairwiseDistance (cosine ℚ) (([1, 1] : List ℚ).map fin) (([1, -1] : List ℚ).map fin) (fin (1 / 2))
      = .ok .inf := by decide +kernel
  simp only [e1, e2, Except.ok.injEq] at h1 h2
  subst h1
  revert h2
  decide +kernel

/-! ## C10 -/

/-- The laws of a metric on the series of length `n`. -/
structure MetricOn (n : ℕ) (D : List K → List K → K) : Prop where
  nonneg : ∀ a b, a.length = n → b.length = n → 0 ≤ D a b
  zero : ∀ a b, a.length = n → b.length = n → (D a b = 0 ↔ a = b)
  symm : ∀ a b, a.length = n → b.length = n → D a b = D b a
  triangle : ∀ a b c, a.length = n → b.length = n → c.length = n → D a c ≤ D a b + D b c

/-- The distance computed by `M` is a metric on the finite-valued series of each positive length. -/
def IsMetric (M : DM K) : Prop :=
  ∀ n, 1 ≤ n → ∃ D : List K → List K → K, MetricOn n D ∧
    ∀ a b, a.length = n → b.length = n → pairwiseDistance M (a.map fin) (b.map fin) .inf = .ok (fin (D a b))

/-- C10 euclidean. -/
theorem C10_euclidean [HasSqrt K] [LawfulSqrt K] : IsMetric (euclidean K) := by
  intro n hn
  refine ⟨rms, ⟨?_, ?_, ?_, ?_⟩, fun a b ha hb => C03_euclidean a b (by omega) (by omega)⟩
  all_goals have hk : (0 : K) < (n : K) := by exact_mod_cast hn
  · intro a b ha hb
    exact LawfulSqrt.sqrt_nonneg (div_nonneg (sumsq_nonneg _ _) (by positivity))
  · intro a b ha hb
    unfold rms
    rw [ha, sqrt_eq_zero_iff (div_nonneg (sumsq_nonneg _ _) (le_of_lt hk)), div_eq_zero_iff,
      sumsq_eq_zero (by omega)]
    constructor
    · rintro (h | h)
      · exact h
      · exact absurd h (ne_of_gt hk)
    · exact Or.inl
  · intro a b ha hb
    unfold rms
    rw [ha, hb, zipWith_symm (fun x y => by ring)]
  · intro a b c ha hb hc
    unfold rms
    rw [ha, hb, sqrt_div (sumsq_nonneg _ _) hk, sqrt_div (sumsq_nonneg _ _) hk, sqrt_div (sumsq_nonneg _ _) hk,
      ← add_div]
    exact div_le_div_of_nonneg_right (sumsq_triangle (by omega) (by omega)) (LawfulSqrt.sqrt_nonneg (le_of_lt hk))

/-- C10 manhattan. -/
theorem C10_manhattan : IsMetric (manhattan K) := by
  intro n hn
  refine ⟨meanAbs, ⟨?_, ?_, ?_, ?_⟩, fun a b ha hb => C03_manhattan a b (by omega) (by omega)⟩
  all_goals have hk : (0 : K) < (n : K) := by exact_mod_cast hn
  · intro a b ha hb
    exact div_nonneg (sumabs_nonneg _ _) (by positivity)
  · intro a b ha hb
    unfold meanAbs
    rw [ha, div_eq_zero_iff, sumabs_eq_zero (by omega)]
    constructor
    · rintro (h | h)
      · exact h
      · exact absurd h (ne_of_gt hk)
    · exact Or.inl
  · intro a b ha hb
    unfold meanAbs
    rw [ha, hb, zipWith_symm (fun x y => abs_sub_comm _ _)]
  · intro a b c ha hb hc
    unfold meanAbs
    rw [ha, hb, ← add_div]
    exact div_le_div_of_nonneg_right (sumabs_triangle (by omega) (by omega)) (le_of_lt hk)

/-- C10 chebyshev. -/
theorem C10_chebyshev : IsMetric (chebyshev K) := by
  intro n hn
  refine ⟨maxAbs, ⟨?_, ?_, ?_, ?_⟩, fun a b ha hb => C03_chebyshev a b (by omega) (by omega)⟩
  · intro a b ha hb; exact maxabs_nonneg a b
  · intro a b ha hb; exact maxabs_eq_zero (by omega)
  · intro a b ha hb
    unfold maxAbs
    rw [zipWith_symm (fun x y => abs_sub_comm _ _)]
  · intro a b c ha hb hc
    exact maxabs_triangle (by omega) (by omega)

/-- C10 over the reals. -/
example : IsMetric (euclidean ℝ) ∧ IsMetric (manhattan ℝ) ∧ IsMetric (chebyshev ℝ) :=
  ⟨C10_euclidean, C10_manhattan, C10_chebyshev⟩

end Genex.Props
