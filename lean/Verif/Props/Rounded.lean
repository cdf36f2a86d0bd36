import Verif.Lemmas.Rounded
import Verif.Props.Dtw

/-!
# C72: early abandoning and lower bounds in floating point

`rd` is any rounding with the laws of `Spec.Rounding`; `double` (`roundDouble`) is one.
-/

set_option linter.unusedSectionVars false

namespace Genex.Props

open Dbl Spec

variable {K : Type} [Field K] [LinearOrder K] [IsStrictOrderedRing K]

/-- C72: the rounding of `double`, to nearest with ties to even and gradual underflow, satisfies the laws; so does rounding to
any number of digits. -/
theorem C72_double [FloorRing K] : Rounding (roundDouble (K := K)) ∧ ∀ p, 1 ≤ p → Rounding (roundTo (K := K) p) :=
  ⟨roundDouble_rounding, fun _ hp => roundTo_rounding hp⟩

/-- C72: results with at most 53 significant binary digits, none below `2 ^ -1074`, are not changed. -/
theorem C72_digits [FloorRing K] (m k : ℤ) (hm : |m| ≤ 2 ^ 53) (hk : -1074 ≤ k) :
    roundDouble ((m : K) * 2 ^ k) = m * 2 ^ k := roundSub_digits (by norm_num) m k hm hk

example : roundDouble (1 / 10 : ℚ) = 3602879701896397 / 36028797018963968 ∧ roundDouble (3 : ℚ) = 3 ∧
    roundDouble (2 ^ 53 + 1 : ℚ) = 2 ^ 53 ∧ roundDouble (2 ^ 53 + 3 : ℚ) = 2 ^ 53 + 4 ∧
    roundDouble (-(1 / 10) : ℚ) = -(3602879701896397 / 36028797018963968) ∧ roundDouble (1 / 2 ^ 1075 : ℚ) = 0 ∧
    roundDouble (3 / 2 ^ 1075 : ℚ) = 4 / 2 ^ 1075 := by decide +kernel

/-- C72: without rounding the rounded model is the exact one. -/
theorem C72_exact [HasSqrt K] [BandOps] (ratio : ℚ) (f : DistRef) (a b : List (Dbl K)) (d : Dbl K) :
    f.evalR (fun x : K => x) ratio a b d = f.eval ratio a b d := evalR_id ratio f a b d

/-- C72: early abandoning of a warped distance is exact in floating point, unless the second series has one point and the first has
more than the band reaches but not more than twice that (`C02_column_false`).  Any bound. -/
theorem C72_dropout_partial [HasSqrt K] {rd : K → K} (hrd : Rounding rd) (m : Metric) (hm : m ≠ .sorensen ∧ m ≠ .cosine)
    (hs : m = .euclidean → LawfulSqrt K) [BandOps] (ratio : ℚ) (hr : 0 ≤ ratio) (a b : List K) (ha : 1 ≤ a.length) (hb : 1 ≤ b.length)
    (h1 : b.length = 1 → a.length ≤ bandWidth ratio a.length + 1 ∨ 2 * bandWidth ratio a.length + 1 < a.length) (d : Dbl K) :
    DropExact (fun d => warpedValue (m.dmR rd) ratio (a.map fin) (b.map fin) d) d := by
  have hbw := band_eq_bandWidth hr (len := max a.length b.length) (by omega)
  have h1' : b.length = 1 → a.length ≤ bandWidth ratio (max a.length b.length) + 1 ∨ 2 * bandWidth ratio (max a.length b.length) + 1 < a.length := by
    intro h
    rw [show max a.length b.length = a.length by omega]
    exact h1 h
  cases m with
  | euclidean =>
    have := hs rfl
    obtain ⟨F, -, h⟩ := warped_dropExact (growEuclideanR hrd (by omega)) hbw ha hb h1' d
    exact ⟨F, h⟩
  | manhattan =>
    obtain ⟨F, -, h⟩ := warped_dropExact (growManhattanR hrd (by omega)) hbw ha hb h1' d
    exact ⟨F, h⟩
  | chebyshev =>
    obtain ⟨F, -, h⟩ := warped_dropExact (monoChebyshevR (rd := rd)).toGrow hbw ha hb h1' d
    exact ⟨F, h⟩
  | cosine => exact absurd rfl hm.2
  | sorensen => exact absurd rfl hm.1

example := C72_dropout_partial (K := ℝ) roundDouble_rounding .euclidean (by simp) (fun _ => inferInstance) (1 / 10) (by norm_num)
  [0.1, 0.7, 0.2] [0.3, 0.1, 0.1, 0.9] (by simp) (by simp) (by simp) (fin 0.3)

/-- Computed and abandoned in double arithmetic. -/
example : warpedValue (manhattanR roundDouble) 1 ([1 / 10, 3 / 10].map (fun x : ℚ => fin (roundDouble x))) [fin 0, fin (roundDouble (1 / 10))]
      .inf = .ok (fin (roundDouble (3 / 40))) ∧
    warpedValue (manhattanR roundDouble) 1 ([1 / 10, 3 / 10].map (fun x : ℚ => fin (roundDouble x))) [fin 0, fin (roundDouble (1 / 10))]
      (fin (1 / 100)) = .ok .inf := by decide +kernel

/-- C72: the alignment returned is valid in floating point whatever the bound, unless both series have one point. -/
theorem C72_alignment_partial [HasSqrt K] {rd : K → K} (hrd : Rounding rd) (m : Metric) (hm : m ≠ .sorensen ∧ m ≠ .cosine)
    (hs : m = .euclidean → LawfulSqrt K) [BandOps] (ratio : ℚ) (a b : List K) (ha : 1 ≤ a.length) (hb : 1 ≤ b.length)
    (h1 : ¬ (a.length = 1 ∧ b.length = 1)) (d : Dbl K) :
    ∃ x p, warpedDistance (m.dmR rd) ratio (a.map fin) (b.map fin) d [] = .ok (x, p) ∧ Alignment a.length b.length p := by
  have key : ∀ L : Grow (m.dmR rd) a.length b.length,
      ∃ x p, warpedDistance (m.dmR rd) ratio (a.map fin) (b.map fin) d [] = .ok (x, p) ∧ Alignment a.length b.length p := by
    intro L
    obtain ⟨x, q, k1, k2⟩ := warped_total ratio L.toSafe (fun _ _ _ _ => L.all _ _) ha hb h1 d []
    exact ⟨x, q, by simpa using k2, alignment_iff.2 k1⟩
  cases m with
  | euclidean => have := hs rfl; exact key (growEuclideanR hrd (by omega))
  | manhattan => exact key (growManhattanR hrd (by omega))
  | chebyshev => exact key (monoChebyshevR (rd := rd)).toGrow
  | cosine => exact absurd rfl hm.2
  | sorensen => exact absurd rfl hm.1

example := C72_alignment_partial (K := ℝ) roundDouble_rounding .euclidean (by simp) (fun _ => inferInstance) (1 / 10)
  [0.1, 0.7, 0.2] [0.3, 0.1, 0.1, 0.9] (by simp) (by simp) (by simp) (fin 0.3)

/-- C72: early abandoning of the pairwise manhattan and chebyshev distances is exact in floating point.
Missing: the euclidean one, see `C72_euclidean_false`. -/
theorem C72_pairwise_partial [HasSqrt K] {rd : K → K} (hrd : Rounding rd) (m : Metric) (hm : m = .manhattan ∨ m = .chebyshev)
    (a b : List K) (hl : a.length = b.length) (d : Dbl K) :
    DropExact (pairwiseDistance (m.dmR rd) (a.map fin) (b.map fin)) d := by
  rcases hm with rfl | rfl
  · exact dropR_manhattan hrd a b hl d
  · exact dropR_chebyshev a b hl d

example := C72_pairwise_partial (K := ℚ) roundDouble_rounding .manhattan (by simp) [1 / 10, 7 / 10] [3 / 10, 1] rfl (fin 0)

/-- C72 is false for the pairwise euclidean distance: in double arithmetic these series of 11 points have distance 76658521, and
with this number as the bound the call returns infinity.  The test is made on the squares (all roots taken here are of
squares). -/
theorem C72_euclidean_false : ∃ (a b : List ℚ) (d : ℚ), a.length = b.length ∧ (∀ x ∈ a ++ b ++ [d], roundDouble x = x) ∧
    pairwiseDistance (euclideanR roundDouble) (a.map fin) (b.map fin) .inf = .ok (fin d) ∧
    pairwiseDistance (euclideanR roundDouble) (a.map fin) (b.map fin) (fin d) = .ok .inf :=
  ⟨8531132165913115 / 33554432 :: List.replicate 10 0, List.replicate 11 0, 76658521, by decide +kernel⟩

/-! ## Lower bounds -/

section
variable [HasSqrt K] [LawfulSqrt K]

/-- C72: the Kim bound is at most the distance in floating point. -/
theorem C72_kim {rd : K → K} (hrd : Rounding rd) [BandOps] (ratio : ℚ) (hr : 0 ≤ ratio) (a b : List K) (ha : 1 ≤ a.length) (hb : 1 ≤ b.length) :
    ∃ D, warpedValue (euclideanR rd) ratio (a.map fin) (b.map fin) .inf = .ok D ∧
      kimLowerBoundR rd (a.map fin) (b.map fin) ≤ D := by
  have hbw := band_eq_bandWidth hr (len := max a.length b.length) (by omega)
  have h0 : ∀ i j, i < a.length → j < b.length → eucDistR rd (at' (a.map fin) i) (at' (b.map fin) j) =
      fin (sqR rd (a.getD i 0) (b.getD j 0)) := by
    intro i j hi hj
    rw [at'_map a i hi, at'_map b j hj, eucDistR_fin]
  have hD : ∃ D, warpedValue (euclideanR rd) ratio (a.map fin) (b.map fin) .inf = .ok D := by
    rcases warped_attain (growEuclideanR hrd (by omega)) hbw ha hb with ⟨p, -, -, e⟩ | ⟨e, -⟩
    · exact ⟨_, e⟩
    · exact ⟨_, e⟩
  obtain ⟨D, hD⟩ := hD
  refine ⟨D, hD, ?_⟩
  unfold kimLowerBoundR
  simp only [List.length_map]
  by_cases h1 : min a.length b.length = 1
  · rw [if_pos h1, h0 0 0 (by omega) (by omega)]
    exact boundR_le hrd hr ha hb hD (sqR_nonneg hrd _ _) (fun p hp _ => hp.firstR hrd a b)
  · rw [if_neg h1, if_pos (by omega), h0 0 0 (by omega) (by omega), h0 _ _ (by omega) (by omega), fin_add_fin, rnd_fin]
    refine boundR_le hrd hr ha hb hD (hrd.nonneg (add_nonneg (sqR_nonneg hrd _ _) (sqR_nonneg hrd _ _))) (fun p hp _ => ?_)
    exact hp.endsR hrd (by simp; omega) a b

/-- C72: the Keogh bound computed from either series, with any early-stop bound, is at most the distance in floating point. -/
theorem C72_keogh {rd : K → K} (hrd : Rounding rd) [BandOps] (ratio : ℚ) (hr : 0 ≤ ratio) (a b : List K) (ha : 1 ≤ a.length) (hb : 1 ≤ b.length)
    (d : Dbl K) :
    ∃ D v v', warpedValue (euclideanR rd) ratio (a.map fin) (b.map fin) .inf = .ok D ∧
      keoghLowerBoundR rd ratio (a.map fin) (b.map fin) d = .ok v ∧ v ≤ D ∧
      keoghLowerBoundR rd ratio (b.map fin) (a.map fin) d = .ok v' ∧ v' ≤ D := by
  obtain ⟨D, hD, -⟩ := C72_kim hrd ratio hr a b ha hb
  obtain ⟨lo, up, x, h1, h2, h3, h4⟩ := keoghR_ok hrd hr a b ha d
  obtain ⟨lo', up', x', h1', h2', h3', h4'⟩ := keoghR_ok hrd hr b a hb d
  refine ⟨D, _, _, hD, h2, boundR_le hrd hr ha hb hD h3 (fun p hp hal => le_trans h4 (keoghR_le hrd ha hb h1 p hp hal)), h2', ?_⟩
  have hN : eucNormDTWR rd (fin x') b.length a.length = eucNormDTWR rd (fin x') a.length b.length := by
    unfold eucNormDTWR; rw [max_comm]
  rw [hN]
  refine boundR_le hrd hr ha hb hD h3' (fun p hp hal => le_trans h4' ?_)
  have := keoghR_le hrd hb ha h1' (p.map Prod.swap) hp.swap (fun c hc => by
    simp only [List.mem_map] at hc
    obtain ⟨x, hx, rfl⟩ := hc
    have := hal x hx
    rw [max_comm b.length]
    unfold Allowed inB at this ⊢
    simp only [Prod.fst_swap, Prod.snd_swap]
    omega)
  rwa [accR_swap hrd] at this

/-- C72: the cascaded distance in floating point is the warped one, or infinity above the bound; unless the second series has one point
and the first has more than the band reaches but not more than twice that (`C07_column_false`). -/
theorem C72_cascade_partial {rd : K → K} (hrd : Rounding rd) [BandOps] (ratio : ℚ) (hr : 0 ≤ ratio) (a b : List K) (ha : 1 ≤ a.length)
    (hb : 1 ≤ b.length) (h1 : b.length = 1 → a.length ≤ bandWidth ratio a.length + 1 ∨ 2 * bandWidth ratio a.length + 1 < a.length) :
    ∃ F, warpedValue (euclideanR rd) ratio (a.map fin) (b.map fin) .inf = .ok F ∧
      DistRef.cascade.evalR rd ratio (a.map fin) (b.map fin) .inf = .ok F ∧
      ∀ d, DistRef.cascade.evalR rd ratio (a.map fin) (b.map fin) d = .ok F ∨
        (d < F ∧ DistRef.cascade.evalR rd ratio (a.map fin) (b.map fin) d = .ok .inf) := by
  obtain ⟨F, hF, hkim⟩ := C72_kim hrd ratio hr a b ha hb
  have hw : ∀ d, warpedValue (euclideanR rd) ratio (a.map fin) (b.map fin) d = .ok F ∨
      (d < F ∧ warpedValue (euclideanR rd) ratio (a.map fin) (b.map fin) d = .ok .inf) := by
    intro d
    obtain ⟨F', e, h⟩ := C72_dropout_partial hrd .euclidean (by simp) (fun _ => inferInstance) ratio hr a b ha hb h1 d
    simp only [Metric.dmR] at e h
    rw [hF, Except.ok.injEq] at e
    subst e; exact h
  have hc : ∀ d, DistRef.cascade.evalR rd ratio (a.map fin) (b.map fin) d = .ok F ∨
      (d < F ∧ DistRef.cascade.evalR rd ratio (a.map fin) (b.map fin) d = .ok .inf) := by
    intro d
    obtain ⟨D, v, v', e, k1, k2, k3, k4⟩ := C72_keogh hrd ratio hr a b ha hb d
    rw [hF, Except.ok.injEq] at e
    subst e
    simp only [DistRef.evalR, cascadeDistanceR, crossKeoghLowerBoundR]
    by_cases c1 : d < kimLowerBoundR rd (a.map fin) (b.map fin)
    · rw [if_pos c1]
      exact Or.inr ⟨Dbl.lt_of_lt_of_le c1 hkim, rfl⟩
    · rw [if_neg c1, k1]
      simp only [bind, Except.bind]
      by_cases c2 : d < v
      · rw [if_pos c2]
        simp only
        have hd := Dbl.lt_of_lt_of_le c2 k2
        have : d < .inf := by
          cases d <;> simp_all
        rw [if_pos this]
        exact Or.inr ⟨hd, rfl⟩
      · rw [if_neg c2, k3]
        simp only
        by_cases c3 : d < stdMax v v'
        · rw [if_pos c3]
          refine Or.inr ⟨Dbl.lt_of_lt_of_le c3 ?_, rfl⟩
          unfold stdMax; split
          · exact k4
          · exact k2
        · rw [if_neg c3]
          exact hw d
  refine ⟨F, hF, ?_, hc⟩
  rcases hc .inf with h | ⟨h, -⟩
  · exact h
  · simp at h

end

example := C72_kim (K := ℝ) roundDouble_rounding (1 / 4) (by norm_num) [0.1, 0.7, 0.2] [0.3, 0.1, 0.1, 0.9] (by simp) (by simp)
example := C72_keogh (K := ℝ) roundDouble_rounding (1 / 4) (by norm_num) [0.1, 0.7, 0.2] [0.3, 0.1, 0.1, 0.9] (by simp) (by simp) (fin 0.3)
example := C72_cascade_partial (K := ℝ) roundDouble_rounding (1 / 4) (by norm_num) [0.1, 0.7, 0.2] [0.3, 0.1, 0.1, 0.9] (by simp) (by simp)
  (by simp)
/-- Kim and Keogh bounds and the distance, rounded to five digits. -/
example : kimLowerBoundR (roundTo 5) [fin (0 : ℚ), fin 7, fin 0] [fin 3, fin 7, fin 7, fin 4] = fin (5 / 8) ∧
    keoghLowerBoundR (roundTo 5) (1 / 4) [fin (0 : ℚ), fin 1, fin 0, fin 1] [fin 0, fin 4, fin 5, fin 1] .inf = .ok (fin (5 / 8)) ∧
    DistRef.cascade.evalR (roundTo 5) (1 / 4) [fin (0 : ℚ), fin 1, fin 0, fin 1] [fin 0, fin 4, fin 5, fin 1] (fin 1) = .ok (fin (5 / 8)) ∧
    DistRef.cascade.evalR (roundTo 5) (1 / 4) [fin (0 : ℚ), fin 1, fin 0, fin 1] [fin 0, fin 4, fin 5, fin 1] (fin (1 / 2)) = .ok .inf := by
  decide +kernel

/-! ## What does not survive rounding -/

/-- In floating point the value returned need not be the least rounded cost of an alignment: double arithmetic, full band. -/
theorem C72_optimal_false : ∃ (a b : List ℚ) (x : ℚ) (p : List (ℕ × ℕ)), (∀ y ∈ a ++ b, roundDouble y = y) ∧
    warpedValue (manhattanR roundDouble) 1 (a.map fin) (b.map fin) .inf = .ok (fin x) ∧ Alignment a.length b.length p ∧
    roundDouble (p.foldl (fun s c => roundDouble (s + |roundDouble (a.getD c.1 0 - b.getD c.2 0)|)) 0 /
      ((2 * max a.length b.length : ℕ) : ℚ)) < x := by
  refine ⟨[91 / 10, 43 / 10].map roundDouble, [5, 67 / 10, 2].map roundDouble, roundDouble (44 / 30) + 1 / 2 ^ 52,
    [(0, 0), (0, 1), (1, 2)], by decide +kernel, by decide +kernel, ⟨rfl, rfl, ?_⟩, by decide +kernel⟩
  simp [Step]

/-- In floating point a warped distance need not be symmetric: double arithmetic, full band. -/
theorem C72_symmetric_false : ∃ (a b : List ℚ), (∀ y ∈ a ++ b, roundDouble y = y) ∧ a.length = b.length ∧
    warpedValue (manhattanR roundDouble) 1 (a.map fin) (b.map fin) .inf ≠
      warpedValue (manhattanR roundDouble) 1 (b.map fin) (a.map fin) .inf :=
  ⟨[33 / 10, 47 / 10, 24 / 10].map roundDouble, [35 / 10, 3 / 10, 44 / 10].map roundDouble, by decide +kernel⟩

end Genex.Props
