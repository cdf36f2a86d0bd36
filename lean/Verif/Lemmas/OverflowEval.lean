import Verif.Lemmas.OverflowData

/-! The distances of data in range do not overflow (lemmas for C87). -/

set_option linter.unusedSectionVars false

namespace Genex

open Dbl Spec

variable {K : Type} [Field K] [LinearOrder K] [IsStrictOrderedRing K] {rd : K → K}

theorem below_map {B : K} : ∀ (a : List (Dbl K)), (∀ x ∈ a, Below B x) → ∃ a' : List K, a = a'.map fin ∧ ∀ x ∈ a', |x| ≤ B
  | [], _ => ⟨[], rfl, by simp⟩
  | x :: a, h => by
    obtain ⟨a', rfl, h'⟩ := below_map a (fun y hy => h y (by simp [hy]))
    obtain ⟨y, rfl, hy⟩ := h x (by simp)
    exact ⟨y :: a', rfl, by simpa using ⟨hy, h'⟩⟩

theorem map_below {B : K} {a : List K} (h : ∀ x ∈ a, |x| ≤ B) : ∀ x ∈ a.map fin, Below B x := by
  intro x hx
  obtain ⟨y, hy, rfl⟩ := List.mem_map.1 hx
  exact ⟨y, rfl, h y hy⟩

theorem zero_div_zero : (fin 0 : Dbl K) / fin 0 = .nan := by
  show Dbl.div (fin 0) (fin 0) = _
  simp [Dbl.div]

theorem noOverflow_mono (hr : Rounding rd) {X B : K} (hB : 0 ≤ B) {k n : ℕ} (h : k ≤ n) {m : Metric} (hn : NoOverflow rd X B n m) :
    NoOverflow rd X B k m := by
  cases m with
  | euclidean => exact (sumOf_mono hr (sqMax_nonneg hr B) h).trans hn
  | manhattan => exact (sumOf_mono hr (hr.nonneg (by linarith)) h).trans hn
  | chebyshev => exact hn
  | cosine => exact hn
  | sorensen => exact hn

section
variable [HasSqrt K] (hr : Rounding rd) {X B : K} (hX : rd X = X) (hX1 : 1 ≤ X)
include hr hX hX1

theorem pairwiseW_eq {m : Metric} (hs : m = .euclidean → LawfulSqrt K) {a b : List (Dbl K)} (ha : ∀ x ∈ a, Below B x)
    (hb : ∀ x ∈ b, Below B x) (hN : NoOverflow rd X B (a.length + b.length) m) (d : Dbl K) :
    pairwiseDistance (m.dmW (rndMax rd X)) a b d = pairwiseDistance (m.dmR rd) a b d := by
  by_cases hmn : 1 ≤ max a.length b.length
  · cases m with
    | euclidean =>
      have := hs rfl
      exact pairwise_sim (sim_euclidean hr hX hX1 hmn hN) ha hb d
    | manhattan =>
      have hB : 0 ≤ B := by
        have : ∃ x, Below B x := by
          cases a with
          | cons x a => exact ⟨x, ha x (by simp)⟩
          | nil =>
            cases b with
            | cons x b => exact ⟨x, hb x (by simp)⟩
            | nil => simp at hmn
        obtain ⟨x, y, -, hy⟩ := this
        exact (abs_nonneg y).trans hy
      exact pairwise_sim (sim_manhattan hr hX hX1 hmn hN hB) ha hb d
    | chebyshev => exact pairwise_sim (sim_chebyshev hr hN _ _) ha hb d
    | cosine => exact hN.elim
    | sorensen => exact hN.elim
  · have ha0 : a = [] := List.length_eq_zero_iff.1 (by omega)
    have hb0 : b = [] := List.length_eq_zero_iff.1 (by omega)
    subst ha0 hb0
    cases m with
    | euclidean => simp [pairwiseDistance, pairwiseLoop, Metric.dmW, Metric.dmR, euclideanW, euclideanR, Dbl.ofNat, zero_def, zero_div_zero]; rfl
    | manhattan => simp [pairwiseDistance, pairwiseLoop, Metric.dmW, Metric.dmR, manhattanW, manhattanR, Dbl.ofNat, zero_def, zero_div_zero]; rfl
    | chebyshev => rfl
    | cosine => exact hN.elim
    | sorensen => exact hN.elim

theorem warpedW_eq {m : Metric} (hs : m = .euclidean → LawfulSqrt K) [BandOps] (ratio : ℚ) {a b : List (Dbl K)} (ha : ∀ x ∈ a, Below B x)
    (hb : ∀ x ∈ b, Below B x) (hN : NoOverflow rd X B (a.length + b.length) m) (d : Dbl K) (q : List (ℕ × ℕ)) :
    warpedDistance (m.dmW (rndMax rd X)) ratio a b d q = warpedDistance (m.dmR rd) ratio a b d q := by
  by_cases hmn : 1 ≤ max a.length b.length
  · cases m with
    | euclidean =>
      have := hs rfl
      exact warped_sim (sim_euclidean hr hX hX1 hmn hN) ha hb ratio d q
    | manhattan =>
      have hB : 0 ≤ B := by
        have : ∃ x, Below B x := by
          cases a with
          | cons x a => exact ⟨x, ha x (by simp)⟩
          | nil =>
            cases b with
            | cons x b => exact ⟨x, hb x (by simp)⟩
            | nil => simp at hmn
        obtain ⟨x, y, -, hy⟩ := this
        exact (abs_nonneg y).trans hy
      exact warped_sim (sim_manhattan hr hX hX1 hmn hN hB) ha hb ratio d q
    | chebyshev => exact warped_sim (sim_chebyshev hr hN _ _) ha hb ratio d q
    | cosine => exact hN.elim
    | sorensen => exact hN.elim
  · unfold warpedDistance
    simp only
    have h1 : ¬(a.length = 1 ∧ b.length = 1) := by omega
    have h0 : a.length = 0 ∨ b.length = 0 := by omega
    rw [if_neg h1, if_neg h1, if_pos h0, if_pos h0]

theorem eucNorm_zero [LawfulSqrt K] (m n : ℕ) : eucNormDTWW (rndMax rd X) (0 : Dbl K) m n = eucNormDTWR rd 0 m n := by
  by_cases h : 1 ≤ max m n
  · exact eucNormDTWW_eq hr hX hX1 le_rfl (by linarith) h
  · obtain ⟨rfl, rfl⟩ : m = 0 ∧ n = 0 := by omega
    have h0 : HasSqrt.sqrt (0 : K) = 0 := by
      have := LawfulSqrt.mul_self (K := K) le_rfl
      exact mul_self_eq_zero.1 this
    simp [eucNormDTWW, eucNormDTWR, Dbl.ofNat, zero_def, Dbl.sqrt, h0, hr.zero, rndMax_of_le hr hX (show |(0 : K)| ≤ X by simp; linarith), zero_div_zero]
    rfl

theorem keoghW_eq [LawfulSqrt K] [BandOps] {ratio : ℚ} (hq : 0 ≤ ratio) {a b : List (Dbl K)} (ha : ∀ x ∈ a, Below B x)
    (hb : ∀ x ∈ b, Below B x) (hN : NoOverflow rd X B (a.length + b.length) .euclidean) (d : Dbl K) :
    keoghLowerBoundW (rndMax rd X) ratio a b d = keoghLowerBoundR rd ratio a b d := by
  by_cases h : 1 ≤ a.length ∧ 1 ≤ b.length
  · obtain ⟨a', rfl, ha'⟩ := below_map a ha
    obtain ⟨b', rfl, hb'⟩ := below_map b hb
    simp only [List.length_map] at h hN
    exact keogh_eq hr hX hX1 hq a' b' h.1 h.2 hN ha' hb' d
  · have h0 : min a.length b.length = 0 := by omega
    unfold keoghLowerBoundW keoghLowerBoundR
    simp only [h0, List.range_zero, keoghLoopW, keoghLoopR, bind, Except.bind, eucNorm_zero hr hX hX1]

theorem kimW_eq [LawfulSqrt K] {a b : List (Dbl K)} (ha : ∀ x ∈ a, Below B x)
    (hb : ∀ x ∈ b, Below B x) (hN : NoOverflow rd X B (a.length + b.length) .euclidean) :
    kimLowerBoundW (rndMax rd X) a b = kimLowerBoundR rd a b := by
  by_cases h : 1 ≤ a.length ∧ 1 ≤ b.length
  · obtain ⟨a', rfl, ha'⟩ := below_map a ha
    obtain ⟨b', rfl, hb'⟩ := below_map b hb
    simp only [List.length_map] at h hN
    exact kim_eq hr hX hX1 a' b' h.1 h.2 hN ha' hb'
  · have h0 : min a.length b.length = 0 := by omega
    unfold kimLowerBoundW kimLowerBoundR
    simp only [h0, zero_ne_one, if_false, Nat.not_lt_zero, eucNorm_zero hr hX hX1]

theorem cascadeW_eq [LawfulSqrt K] [BandOps] {ratio : ℚ} (hq : 0 ≤ ratio) {a b : List (Dbl K)} (ha : ∀ x ∈ a, Below B x)
    (hb : ∀ x ∈ b, Below B x) (hN : NoOverflow rd X B (a.length + b.length) .euclidean) (d : Dbl K) (q : List (ℕ × ℕ)) :
    cascadeDistanceW (rndMax rd X) ratio a b d q = cascadeDistanceR rd ratio a b d q := by
  unfold cascadeDistanceW cascadeDistanceR crossKeoghLowerBoundW crossKeoghLowerBoundR
  rw [kimW_eq hr hX hX1 ha hb hN, keoghW_eq hr hX hX1 hq ha hb hN, keoghW_eq hr hX hX1 hq hb ha (by rw [Nat.add_comm]; exact hN)]
  have := warpedW_eq hr hX hX1 (m := .euclidean) (fun _ => inferInstance) ratio ha hb hN d q
  simp only [Metric.dmW, Metric.dmR] at this
  rw [this]
  rfl

theorem evalW_eq (f : DistRef) (hs : metricOf f = .euclidean → LawfulSqrt K) [BandOps] {ratio : ℚ} (hq : 0 ≤ ratio) {a b : List (Dbl K)}
    (ha : ∀ x ∈ a, Below B x) (hb : ∀ x ∈ b, Below B x) (hN : NoOverflow rd X B (a.length + b.length) (metricOf f)) (d : Dbl K) :
    f.evalW (rndMax rd X) ratio a b d = f.evalR rd ratio a b d := by
  cases f with
  | pairwise m => exact pairwiseW_eq hr hX hX1 hs ha hb hN d
  | warped m =>
    simp only [DistRef.evalW, DistRef.evalR, warpedValue]
    rw [warpedW_eq hr hX hX1 (m := m) hs ratio ha hb hN]
  | cascade =>
    have := hs rfl
    simp only [DistRef.evalW, DistRef.evalR]
    rw [cascadeW_eq hr hX hX1 hq ha hb hN]

end

end Genex
