import Verif.Lemmas.DtwMore
import Verif.Lemmas.MetricLaws
import Verif.Props.Pairwise

/-!
# C01, C02, C11-C14, C16: warped distances
-/

set_option linter.unusedSectionVars false

namespace Genex.Props

open Dbl Spec

variable {K : Type} [Field K] [LinearOrder K] [IsStrictOrderedRing K]

/-! ## C16 -/

/-- C16: the band lies in `[0, len-1]`. -/
theorem C16_range [BandOps] (ratio : ℚ) (hr : 0 ≤ ratio) (len : ℕ) (hl : 1 ≤ len) :
    0 ≤ band ratio len ∧ band ratio len ≤ len - 1 := by
  rw [band_eq_bandWidth hr hl]
  unfold bandWidth
  omega

/-- C16: it is the rounded-down fraction of the length wherever that is below the length. -/
theorem C16_value (ratio : ℚ) (hr : 0 ≤ ratio) (len : ℕ) (hl : 1 ≤ len) :
    band ratio len = (min ⌊ratio * len⌋₊ (len - 1) : ℕ) := by
  rw [band_eq_bandWidth hr hl]
  unfold bandWidth
  rw [mul_comm]
  rfl

/-- C16: it grows with the length. -/
theorem C16_mono [BandOps] (ratio : ℚ) (hr : 0 ≤ ratio) (l l' : ℕ) (hl : 1 ≤ l) (h : l ≤ l') :
    band ratio l ≤ band ratio l' := by
  rw [band_eq_bandWidth hr hl, band_eq_bandWidth hr (by omega)]
  unfold bandWidth
  have := Nat.floor_le_floor (BandOps.mono ratio l l' hr h)
  omega

/-- C16: a ratio of at least one gives the full band. -/
theorem C16_full [BandOps] (ratio : ℚ) (hr : 1 ≤ ratio) (len : ℕ) (hl : 1 ≤ len) : band ratio len = len - 1 := by
  rw [band_eq_bandWidth (le_trans zero_le_one hr) hl]
  unfold bandWidth
  have := Nat.le_floor (BandOps.full ratio len hr)
  omega

example : band (1 / 10) 25 = 2 ∧ band (1 / 10) 9 = 0 ∧ band (3 / 2) 9 = 8 := by decide +kernel

/-! ## C01 -/

/-- The unbounded value of `M` is the least cost of an alignment in the band, and infinity iff there is none. -/
def IsBandedOptimum (M : DM K) [BandOps] (ratio : ℚ) (a b : List K) (cost : List (ℕ × ℕ) → K) : Prop :=
  let costs := bandedCosts a.length b.length (bandWidth ratio (max a.length b.length)) cost
  (costs.Nonempty ∧ ∃ x, warpedValue M ratio (a.map fin) (b.map fin) .inf = .ok (fin x) ∧ IsLeast costs x) ∨
  (¬ costs.Nonempty ∧ warpedValue M ratio (a.map fin) (b.map fin) .inf = .ok .inf)

theorem isBandedOptimum_of {M : DM K} [BandOps] {ratio : ℚ} {a b : List K} (L : Mono M a.length b.length)
    (V : List (ℕ × ℕ) → K) (hV : ∀ c p, PathTo c p → L.val (pathAcc M a b p) = V p) (hr : 0 ≤ ratio)
    (hm : 2 ≤ a.length) (hn : 2 ≤ b.length) : IsBandedOptimum M ratio a b V := by
  have hb := band_eq_bandWidth hr (len := max a.length b.length) (by omega)
  have hal := fun p => allowed_inBand (r := bandWidth ratio (max a.length b.length)) hm hn p
  rcases warped_isLeast L V hV hb (by omega) (by omega) with ⟨x, e, l⟩ | ⟨e, n⟩
  · simp only [hal] at l
    exact Or.inl ⟨⟨x, l.1⟩, x, e, l⟩
  · simp only [hal] at n
    exact Or.inr ⟨fun ⟨v, p, h1, h2, _⟩ => n ⟨p, h1, h2⟩, e⟩

/-- C01 euclidean_dtw: the least root of the summed squares along an alignment in the band, over twice the longer
length. -/
theorem C01_euclidean_dtw [HasSqrt K] [LawfulSqrt K] [BandOps] (ratio : ℚ) (hr : 0 ≤ ratio) (a b : List K)
    (hm : 2 ≤ a.length) (hn : 2 ≤ b.length) :
    IsBandedOptimum (euclidean K) ratio a b
      (fun p => HasSqrt.sqrt (sqCost a b p) / ((2 * max a.length b.length : ℕ) : K)) :=
  isBandedOptimum_of (monoEuclidean (by omega)) _
    (valE a b _) hr hm hn

/-- C01 manhattan_dtw: the least sum of absolute differences, over twice the longer length. -/
theorem C01_manhattan_dtw [BandOps] (ratio : ℚ) (hr : 0 ≤ ratio) (a b : List K) (hm : 2 ≤ a.length) (hn : 2 ≤ b.length) :
    IsBandedOptimum (manhattan K) ratio a b (fun p => absCost a b p / ((2 * max a.length b.length : ℕ) : K)) :=
  isBandedOptimum_of (monoManhattan (by omega)) _
    (valM a b _) hr hm hn

/-- C01 chebyshev_dtw: the least possible largest absolute difference. -/
theorem C01_chebyshev_dtw [BandOps] (ratio : ℚ) (hr : 0 ≤ ratio) (a b : List K) (hm : 2 ≤ a.length) (hn : 2 ≤ b.length) :
    IsBandedOptimum (chebyshev K) ratio a b (fun p => maxCost a b p) :=
  isBandedOptimum_of monoChebyshev _
    (valC a b) hr hm hn

/-- C01 feasibility: there is an alignment in the band iff the lengths differ by at most its width. -/
theorem C01_feasible (m n r : ℕ) (hm : 1 ≤ m) (hn : 1 ≤ n) (cost : List (ℕ × ℕ) → K) :
    (bandedCosts m n r cost).Nonempty ↔ m ≤ n + r ∧ n ≤ m + r := by
  rw [bandedCosts_nonempty]; omega

/-- Concrete values: full band, narrow band, infeasible. -/
example : warpedValue (manhattan ℚ) 1 [fin 0, fin 5, fin 1] [fin 0, fin 0, fin 5, fin 2] .inf = .ok (fin (1 / 8)) ∧
    warpedValue (manhattan ℚ) 0 [fin 0, fin 5, fin 1] [fin 1, fin 0, fin 5] .inf = .ok (fin (5 / 3)) ∧
    warpedValue (manhattan ℚ) 0 [fin 0, fin 5, fin 1] [fin 0, fin 0, fin 5, fin 2] .inf = .ok .inf := by
  decide +kernel
/-- The hypotheses over the reals. -/
example := C01_euclidean_dtw (K := ℝ) (1 / 2) (by norm_num) [0, 5, 1] [0, 0, 5, 2] (by simp) (by simp)

/-! ## C02 -/

/-- C02 for all series, unless the second has one point and the first has more than the band reaches but not more than twice that.
Missing: that case, where the claim is false, see `C02_column_false`. -/
theorem C02_dropout_partial [HasSqrt K] [LawfulSqrt K] (m : Metric) (hm : m ≠ .sorensen ∧ m ≠ .cosine) [BandOps] (ratio : ℚ)
    (hr : 0 ≤ ratio) (a b : List K) (ha : 1 ≤ a.length) (hb : 1 ≤ b.length) (h1 : b.length = 1 → a.length ≤ bandWidth ratio a.length + 1 ∨ 2 * bandWidth ratio a.length + 1 < a.length)
    (d : Dbl K) : DropExact (fun d => warpedValue (m.dm K) ratio (a.map fin) (b.map fin) d) d := by
  have hbw := band_eq_bandWidth hr (len := max a.length b.length) (by omega)
  have h1' : b.length = 1 → a.length ≤ bandWidth ratio (max a.length b.length) + 1 ∨ 2 * bandWidth ratio (max a.length b.length) + 1 < a.length := by
    intro h
    rw [show max a.length b.length = a.length by omega]
    exact h1 h
  cases m with
  | euclidean =>
    obtain ⟨F, -, h⟩ := warped_dropExact (monoEuclidean (K := K) (by omega)).toGrow hbw ha hb h1' d
    exact ⟨F, h⟩
  | manhattan =>
    obtain ⟨F, -, h⟩ := warped_dropExact (monoManhattan (K := K) (by omega)).toGrow hbw ha hb h1' d
    exact ⟨F, h⟩
  | chebyshev =>
    obtain ⟨F, -, h⟩ := warped_dropExact (monoChebyshev (K := K)).toGrow hbw ha hb h1' d
    exact ⟨F, h⟩
  | cosine => exact absurd rfl hm.2
  | sorensen => exact absurd rfl hm.1

/-- C02 is false in the case left out, for all series and all bounds: there is a finite value, but every finite bound, however large,
gives infinity. -/
theorem C02_column_false [HasSqrt K] [LawfulSqrt K] (m : Metric) (hm : m ≠ .sorensen ∧ m ≠ .cosine) [BandOps] (ratio : ℚ)
    (hr : 0 ≤ ratio) (a b : List K) (hb : b.length = 1) (h1 : bandWidth ratio a.length + 1 < a.length)
    (h2 : a.length ≤ 2 * bandWidth ratio a.length + 1) :
    ∃ x, warpedValue (m.dm K) ratio (a.map fin) (b.map fin) .inf = .ok (fin x) ∧
      ∀ d, warpedValue (m.dm K) ratio (a.map fin) (b.map fin) (fin d) = .ok .inf := by
  have hmax : max a.length b.length = a.length := by omega
  have hbw := band_eq_bandWidth hr (len := max a.length b.length) (by omega)
  rw [← hmax] at h1 h2
  have key : ∀ L : Grow (m.dm K) a.length b.length, ∃ x, warpedValue (m.dm K) ratio (a.map fin) (b.map fin) .inf = .ok (fin x) ∧
      ∀ d, warpedValue (m.dm K) ratio (a.map fin) (b.map fin) (fin d) = .ok .inf := by
    intro L
    obtain ⟨x, e⟩ := warped_column_value L hbw hb (by omega) (by omega)
    exact ⟨x, e, fun d => warped_column_dropped L hbw hb (by omega) (fin d) (by simp)⟩
  cases m with
  | euclidean => exact key (monoEuclidean (K := K) (by omega)).toGrow
  | manhattan => exact key (monoManhattan (K := K) (by omega)).toGrow
  | chebyshev => exact key (monoChebyshev (K := K)).toGrow
  | cosine => exact absurd rfl hm.2
  | sorensen => exact absurd rfl hm.1

/-- One point against three in a wide, four in a middle and five in a narrow band. -/
noncomputable example (d : Dbl ℝ) := C02_dropout_partial (K := ℝ) .manhattan (by simp) 1 (by norm_num) [4, 2, 3] [1] (by simp) (by simp)
  (fun _ => Or.inl (by simp [bandWidth, BandOps.mul])) d
noncomputable example := C02_column_false (K := ℝ) .manhattan (by simp) (1 / 2) (by norm_num) [0, 1, 2, 3] [0] (by simp)
  (by norm_num [bandWidth, BandOps.mul]) (by norm_num [bandWidth, BandOps.mul])
noncomputable example (d : Dbl ℝ) := C02_dropout_partial (K := ℝ) .manhattan (by simp) 0 (by norm_num) [4, 2, 3] [1] (by simp) (by simp)
  (fun _ => Or.inr (by simp [bandWidth, BandOps.mul])) d

/-- Both outcomes occur. -/
example : warpedValue (manhattan ℚ) 1 [fin 9, fin 5, fin 1] [fin 0, fin 0, fin 5] (fin 1) = .ok .inf ∧
    warpedValue (manhattan ℚ) 1 [fin 9, fin 5, fin 1] [fin 0, fin 0, fin 5] (fin 5) = .ok (fin 3) ∧
    warpedValue (manhattan ℚ) 1 [fin 9, fin 5, fin 1] [fin 0, fin 0, fin 5] .inf = .ok (fin 3) := by
  decide +kernel

/-- C02 is false when the second series has a single point: the value 3/4 is below the bound 100, but the call returns
infinity. -/
theorem C02_single_point_false : ∃ (ratio d : ℚ) (a b : List ℚ), 0 ≤ ratio ∧ 1 ≤ a.length ∧ 1 ≤ b.length ∧
    ¬ DropExact (fun d => warpedValue (manhattan ℚ) ratio (a.map fin) (b.map fin) d) (fin d) := by
  refine ⟨1 / 2, 100, [0, 1, 2, 3], [0], by norm_num, by simp, by simp, ?_⟩
  rintro ⟨F, h1, h2⟩
  have e1 : warpedValue (manhattan ℚ) (1 / 2) (([0, 1, 2, 3] : List ℚ).map fin) (([0] : List ℚ).map fin) .inf
      = .ok (fin (3 / 4)) := by decide +kernel
  have e2 : warpedValue (manhattan ℚ) (1 / 2) (([0, 1, 2, 3] : List ℚ).map fin) (([0] : List ℚ).map fin) (fin 100)
      = .ok .inf := by decide +kernel
  simp only [e1, e2, Except.ok.injEq] at h1 h2
  subst h1
  revert h2
  decide +kernel

/-! ## C11 -/

/-- C11 symmetry: the order of the arguments does not matter. -/
theorem C11_symmetric [HasSqrt K] (m : Metric) (hm : m ≠ .sorensen ∧ m ≠ .cosine)
    (hs : m = .euclidean → LawfulSqrt K) [BandOps] (ratio : ℚ) (hr : 0 ≤ ratio) (a b : List K) (ha : 1 ≤ a.length) (hb : 1 ≤ b.length) :
    warpedValue (m.dm K) ratio (a.map fin) (b.map fin) .inf =
      warpedValue (m.dm K) ratio (b.map fin) (a.map fin) .inf := by
  cases m with
  | euclidean =>
    have := hs rfl
    refine warped_symm (M := euclidean K) hr (monoEuclidean (by omega)) (monoEuclidean (by omega))
      (fun p => HasSqrt.sqrt (sqCost a b p) / ((2 * max a.length b.length : ℕ) : K))
      (fun p => HasSqrt.sqrt (sqCost b a p) / ((2 * max b.length a.length : ℕ) : K))
      (valE a b _) (valE b a _)
      (fun p => by simp only [sqCost_swap, max_comm]) ha hb
  | manhattan =>
    refine warped_symm (M := manhattan K) hr (monoManhattan (by omega)) (monoManhattan (by omega))
      (fun p => absCost a b p / ((2 * max a.length b.length : ℕ) : K))
      (fun p => absCost b a p / ((2 * max b.length a.length : ℕ) : K))
      (valM a b _) (valM b a _)
      (fun p => by simp only [absCost_swap, max_comm]) ha hb
  | chebyshev =>
    refine warped_symm (M := chebyshev K) hr monoChebyshev monoChebyshev
      (fun p => maxCost a b p) (fun p => maxCost b a p)
      (valC a b) (valC b a)
      (fun p => by simp only [maxCost_swap]) ha hb
  | cosine => exact absurd rfl hm.2
  | sorensen => exact absurd rfl hm.1

example : warpedValue (manhattan ℚ) (1 / 2) [fin 9, fin 5, fin 1] [fin 0, fin 5] .inf = .ok (fin (13 / 6)) ∧
    warpedValue (manhattan ℚ) (1 / 2) [fin 0, fin 5] [fin 9, fin 5, fin 1] .inf = .ok (fin (13 / 6)) := by
  decide +kernel
example := C11_symmetric (K := ℚ) .manhattan (by simp) (by simp) (1 / 2) (by norm_num) [9, 5, 1] [0, 5] (by simp) (by simp)

/-- Bounds on the value derived from one alignment. -/
theorem warped_le {M : DM K} {a b : List K} [BandOps] {ratio : ℚ} (L : Mono M a.length b.length)
    (V : List (ℕ × ℕ) → K) (hV : ∀ c p, PathTo c p → L.val (pathAcc M a b p) = V p) (hr : 0 ≤ ratio)
    (hm : 1 ≤ a.length) (hn : 1 ≤ b.length) :
    (∀ x, warpedValue M ratio (a.map fin) (b.map fin) .inf = .ok x →
      x = .inf ∨ ∃ p, Alignment a.length b.length p ∧ x = fin (V p)) ∧
    (a.length = b.length → ∃ x, warpedValue M ratio (a.map fin) (b.map fin) .inf = .ok (fin x) ∧
      x ≤ V (diag a.length)) := by
  have hb := band_eq_bandWidth hr (len := max a.length b.length) (by omega)
  have hd : a.length = b.length → Alignment a.length b.length (diag a.length) ∧
      ∀ c ∈ diag a.length, Allowed a.length b.length (bandWidth ratio (max a.length b.length)) c.1 c.2 := by
    intro he
    constructor
    · rw [alignment_iff, ← he]
      have := diag_path (a.length - 1)
      rwa [show a.length - 1 + 1 = a.length by omega] at this
    · intro c hc
      exact Or.inl (diag_inBand _ _ c hc)
  rcases warped_isLeast L V hV hb hm hn with ⟨x, e, l⟩ | ⟨e, n⟩
  · constructor
    · intro y hy
      rw [e, Except.ok.injEq] at hy
      obtain ⟨p, h1, -, h3⟩ := l.1
      exact Or.inr ⟨p, h1, by rw [← hy, h3]⟩
    · intro he
      exact ⟨x, e, l.2 ⟨_, (hd he).1, (hd he).2, rfl⟩⟩
  · constructor
    · intro y hy
      rw [e, Except.ok.injEq] at hy
      exact Or.inl hy.symm
    · intro he
      exact absurd ⟨_, hd he⟩ n

theorem diffs_diag_map {f : K → K} (a b : List K) (h : a.length = b.length) :
    (diffs a b (diag a.length)).map f = List.zipWith (fun x y => f (x - y)) a b := by
  apply List.ext_getElem
  · simp [diffs, diag, h]
  · intro i h1 h2
    simp only [List.length_zipWith] at h2
    have ha : i < a.length := by omega
    have hb : i < b.length := by omega
    simp [diffs, diag, ha, hb]

/-- C11: never negative, never NaN. -/
theorem C11_nonneg [HasSqrt K] (m : Metric) (hm : m ≠ .sorensen ∧ m ≠ .cosine)
    (hs : m = .euclidean → LawfulSqrt K) [BandOps] (ratio : ℚ) (hr : 0 ≤ ratio) (a b : List K) (ha : 1 ≤ a.length) (hb : 1 ≤ b.length) :
    ∃ x, warpedValue (m.dm K) ratio (a.map fin) (b.map fin) .inf = .ok x ∧ fin 0 ≤ x := by
  have key : ∀ (M : DM K) (L : Mono M a.length b.length) (V : List (ℕ × ℕ) → K),
      (∀ c p, PathTo c p → L.val (pathAcc M a b p) = V p) → (∀ p, 0 ≤ V p) →
      ∃ x, warpedValue M ratio (a.map fin) (b.map fin) .inf = .ok x ∧ fin 0 ≤ x := by
    intro M L V hV h0
    have hbw := band_eq_bandWidth hr (len := max a.length b.length) (by omega)
    rcases warped_isLeast L V hV hbw ha hb with ⟨x, e, l⟩ | ⟨e, n⟩
    · obtain ⟨p, -, -, h⟩ := l.1
      exact ⟨_, e, by rw [fin_le_fin, ← h]; exact h0 p⟩
    · exact ⟨_, e, by simp⟩
  have hpos : (0 : K) ≤ ((2 * max a.length b.length : ℕ) : K) := by positivity
  cases m with
  | euclidean =>
    have := hs rfl
    exact key (euclidean K) (monoEuclidean (by omega)) (fun p => HasSqrt.sqrt (sqCost a b p) / ((2 * max a.length b.length : ℕ) : K))
      (valE a b _)
      (fun p => div_nonneg (LawfulSqrt.sqrt_nonneg (sqCost_nonneg _ _ _)) hpos)
  | manhattan =>
    exact key (manhattan K) (monoManhattan (by omega)) (fun p => absCost a b p / ((2 * max a.length b.length : ℕ) : K))
      (valM a b _)
      (fun p => div_nonneg (absCost_nonneg _ _ _) hpos)
  | chebyshev =>
    exact key (chebyshev K) monoChebyshev (fun p => maxCost a b p)
      (valC a b) (fun p => maxCost_nonneg _ _ _)
  | cosine => exact absurd rfl hm.2
  | sorensen => exact absurd rfl hm.1

/-- C11: on equal lengths the warped distance is finite and at most the pairwise distance of the same metric. -/
theorem C11_le_pairwise [HasSqrt K] (m : Metric) (hm : m ≠ .sorensen ∧ m ≠ .cosine)
    (hs : m = .euclidean → LawfulSqrt K) [BandOps] (ratio : ℚ) (hr : 0 ≤ ratio) (a b : List K) (hl : a.length = b.length) (ha : 1 ≤ a.length) :
    ∃ x y, warpedValue (m.dm K) ratio (a.map fin) (b.map fin) .inf = .ok (fin x) ∧
      pairwiseDistance (m.dm K) (a.map fin) (b.map fin) .inf = .ok (fin y) ∧ x ≤ y := by
  have hk : (1 : K) ≤ (a.length : K) := by exact_mod_cast ha
  have hk0 : (0 : K) < (a.length : K) := by linarith
  cases m with
  | euclidean =>
    have := hs rfl
    obtain ⟨x, h1, h2⟩ := (warped_le (monoEuclidean (K := K) (m := a.length) (n := b.length) (by omega))
      (fun p => HasSqrt.sqrt (sqCost a b p) / ((2 * max a.length b.length : ℕ) : K))
      (valE a b _) hr ha (by omega)).2 hl
    refine ⟨x, _, h1, C03_euclidean a b hl ha, le_trans h2 ?_⟩
    simp only [rms, sqCost, diffs_diag_map a b hl, ← hl, max_self]
    set S := (List.zipWith (fun x y => (x - y) ^ 2) a b).sum with hS
    have hS0 : 0 ≤ S := sumsq_nonneg a b
    have hd0 := div_nonneg hS0 (le_of_lt hk0)
    apply le_of_sq_le (LawfulSqrt.sqrt_nonneg hd0)
    rw [div_mul_div_comm, LawfulSqrt.mul_self hS0, LawfulSqrt.mul_self hd0]
    apply div_le_div_of_nonneg_left hS0 hk0
    push_cast
    nlinarith
  | manhattan =>
    obtain ⟨x, h1, h2⟩ := (warped_le (monoManhattan (K := K) (m := a.length) (n := b.length) (by omega))
      (fun p => absCost a b p / ((2 * max a.length b.length : ℕ) : K))
      (valM a b _) hr ha (by omega)).2 hl
    refine ⟨x, _, h1, C03_manhattan a b hl ha, le_trans h2 ?_⟩
    simp only [meanAbs, absCost, diffs_diag_map a b hl, ← hl, max_self]
    apply div_le_div_of_nonneg_left (sumabs_nonneg a b) hk0
    push_cast
    linarith
  | chebyshev =>
    obtain ⟨x, h1, h2⟩ := (warped_le (monoChebyshev (K := K) (m := a.length) (n := b.length))
      (fun p => maxCost a b p) (valC a b) hr ha (by omega)).2 hl
    refine ⟨x, _, h1, C03_chebyshev a b hl ha, le_trans h2 ?_⟩
    simp only [maxAbs, maxCost, diffs_diag_map a b hl]
    exact le_refl _
  | cosine => exact absurd rfl hm.2
  | sorensen => exact absurd rfl hm.1

/-- C11: the distance of a series to itself is 0. -/
theorem C11_self [HasSqrt K] (m : Metric) (hm : m ≠ .sorensen ∧ m ≠ .cosine)
    (hs : m = .euclidean → LawfulSqrt K) [BandOps] (ratio : ℚ) (hr : 0 ≤ ratio) (a : List K) (ha : 1 ≤ a.length) :
    warpedValue (m.dm K) ratio (a.map fin) (a.map fin) .inf = .ok (fin 0) := by
  obtain ⟨x, y, h1, h2, h3⟩ := C11_le_pairwise m hm hs ratio hr a a rfl ha
  obtain ⟨z, h4, h5⟩ := C11_nonneg m hm hs ratio hr a a ha ha
  rw [h1, Except.ok.injEq] at h4
  subst h4
  rw [fin_le_fin] at h5
  have hy : y = 0 := by
    cases m with
    | euclidean =>
      have := hs rfl
      obtain ⟨D, hD, hD'⟩ := C10_euclidean (K := K) a.length ha
      have := hD' a a rfl rfl
      have h2' : pairwiseDistance (euclidean K) (a.map fin) (a.map fin) .inf = .ok (fin y) := h2
      rw [h2', Except.ok.injEq, Dbl.fin.injEq] at this
      rw [this]; exact (hD.zero a a rfl rfl).2 rfl
    | manhattan =>
      obtain ⟨D, hD, hD'⟩ := C10_manhattan (K := K) a.length ha
      have := hD' a a rfl rfl
      have h2' : pairwiseDistance (manhattan K) (a.map fin) (a.map fin) .inf = .ok (fin y) := h2
      rw [h2', Except.ok.injEq, Dbl.fin.injEq] at this
      rw [this]; exact (hD.zero a a rfl rfl).2 rfl
    | chebyshev =>
      obtain ⟨D, hD, hD'⟩ := C10_chebyshev (K := K) a.length ha
      have := hD' a a rfl rfl
      have h2' : pairwiseDistance (chebyshev K) (a.map fin) (a.map fin) .inf = .ok (fin y) := h2
      rw [h2', Except.ok.injEq, Dbl.fin.injEq] at this
      rw [this]; exact (hD.zero a a rfl rfl).2 rfl
    | cosine => exact absurd rfl hm.2
    | sorensen => exact absurd rfl hm.1
  subst hy
  rw [h1, le_antisymm h3 h5]

example : warpedValue (manhattan ℚ) (1 / 3) [fin 9, fin 5, fin 1] [fin 9, fin 5, fin 1] .inf = .ok (fin 0) := by
  decide +kernel

/-! ## C12 -/

/-- Safety laws for the three sum/max metrics. -/
noncomputable def sumMaxSafe [HasSqrt K] (m : Metric) (hm : m ≠ .sorensen ∧ m ≠ .cosine)
    (hs : m = .euclidean → LawfulSqrt K) (l1 l2 : ℕ) (h : 1 ≤ max l1 l2) : Grow (m.dm K) l1 l2 :=
  match m, hm, hs with
  | .euclidean, _, hs => have := hs rfl; (monoEuclidean h).toGrow
  | .manhattan, _, _ => (monoManhattan h).toGrow
  | .chebyshev, _, _ => monoChebyshev.toGrow
  | .cosine, hm, _ => absurd rfl hm.2
  | .sorensen, hm, _ => absurd rfl hm.1

/-- C12 for all series except a pair of single points, every ratio (also negative) and bound.
Missing: two single points, where the claim is false, see `C12_single_points_false`. -/
theorem C12_matching_partial [HasSqrt K] (m : Metric) (hm : m ≠ .sorensen ∧ m ≠ .cosine)
    (hs : m = .euclidean → LawfulSqrt K) [BandOps] (ratio : ℚ) (a b : List K) (ha : 1 ≤ a.length) (hb : 1 ≤ b.length) (h1 : ¬ (a.length = 1 ∧ b.length = 1)) (d : Dbl K) :
    ∃ x p, warpedDistance (m.dm K) ratio (a.map fin) (b.map fin) d [] = .ok (x, p) ∧
      Alignment a.length b.length p := by
  obtain ⟨x, q, h1, h2⟩ := warped_total ratio (sumMaxSafe (K := K) m hm hs a.length b.length (by omega)).toSafe
    (fun _ _ _ _ => (sumMaxSafe (K := K) m hm hs a.length b.length (by omega)).all _ _) ha hb h1 d []
  exact ⟨x, q, by simpa using h2, alignment_iff.2 h1⟩

example : warpedDistance (manhattan ℚ) 1 [fin 0, fin 5, fin 1] [fin 0, fin 0, fin 5, fin 2] .inf [] =
    .ok (fin (1 / 8), [(0, 0), (0, 1), (1, 2), (2, 3)]) := by decide +kernel

/-- C12 is false for two single points: no pair is returned. -/
theorem C12_single_points_false : ∃ (a b : List ℚ), 1 ≤ a.length ∧ 1 ≤ b.length ∧
    ∃ x p, warpedDistance (manhattan ℚ) 1 (a.map fin) (b.map fin) .inf [] = .ok (x, p) ∧
      ¬ Alignment a.length b.length p := by
  refine ⟨[3], [4], by simp, by simp, fin (1 / 2), [], by decide +kernel, ?_⟩
  intro h
  have := h.first
  simp at this

/-! ## C13 -/

/-- C13 for the full band.
Missing: narrower bands, for which both halves of the claim are false, see `C13_leaves_band`. -/
theorem C13_full_band_partial [HasSqrt K] [BandOps] (ratio : ℚ) (hr : 1 ≤ ratio) (a b : List K)
    (ha : 2 ≤ a.length) (hb : 2 ≤ b.length) :
    (LawfulSqrt K → ∃ p, warpedDistance (euclidean K) ratio (a.map fin) (b.map fin) .inf [] =
        .ok (fin (HasSqrt.sqrt (sqCost a b p) / ((2 * max a.length b.length : ℕ) : K)), p) ∧
      InBand (bandWidth ratio (max a.length b.length)) p) ∧
    (∃ p, warpedDistance (manhattan K) ratio (a.map fin) (b.map fin) .inf [] =
        .ok (fin (absCost a b p / ((2 * max a.length b.length : ℕ) : K)), p) ∧
      InBand (bandWidth ratio (max a.length b.length)) p) ∧
    (∃ p, warpedDistance (chebyshev K) ratio (a.map fin) (b.map fin) .inf [] = .ok (fin (maxCost a b p), p) ∧
      InBand (bandWidth ratio (max a.length b.length)) p) := by
  have hr0 : 0 ≤ ratio := le_trans zero_le_one hr
  have hbw := band_eq_bandWidth hr0 (len := max a.length b.length) (by omega)
  have hfull : bandWidth ratio (max a.length b.length) = max a.length b.length - 1 := by
    have := C16_full ratio hr (max a.length b.length) (by omega)
    rw [hbw] at this
    omega
  have hall : ∀ i j, i < a.length → j < b.length →
      Allowed a.length b.length (bandWidth ratio (max a.length b.length)) i j := by
    intro i j hi hj
    rw [hfull]
    unfold Allowed inB
    omega
  have key : ∀ (M : DM K) (L : Mono M a.length b.length) (V : List (ℕ × ℕ) → K),
      (∀ c p, PathTo c p → L.val (pathAcc M a b p) = V p) →
      ∃ p, warpedDistance M ratio (a.map fin) (b.map fin) .inf [] = .ok (fin (V p), p) ∧
        InBand (bandWidth ratio (max a.length b.length)) p := by
    intro M L V hV
    obtain ⟨mtF, f1, f2, -⟩ := warped_run L.toSafe (fun _ _ _ _ => L.all _ _) hbw (by omega) (by omega) (by omega)
    have hp := backPath_path f1.nonan (a.length - 1 + (b.length - 1)) (a.length - 1, b.length - 1) (le_refl _)
    obtain ⟨s, g1, g2⟩ := backPath_attains (L := L) f1 hall _ (a.length - 1, b.length - 1) (le_refl _)
      (by simp only; omega) (by simp only; omega)
    have hin : ∀ x ∈ (backPath mtF.ncost (a.length - 1 + (b.length - 1)) (a.length - 1, b.length - 1)).reverse,
        x.1 < a.length ∧ x.2 < b.length ∧
          Allowed a.length b.length (bandWidth ratio (max a.length b.length)) x.1 x.2 := by
      intro x hx
      have := hp.bound x hx
      simp only at this
      exact ⟨by omega, by omega, hall _ _ (by omega) (by omega)⟩
    obtain ⟨s', k1, k2, k3⟩ := lower (L := L) f1 hp hin
    rw [g1, Option.some.injEq] at k1
    subst k1
    obtain ⟨s'', c1, c2, c3, -⟩ := f1.cell (a.length - 1) (b.length - 1) (by omega) (by omega)
      (hall _ _ (by omega) (by omega)) (by omega)
    rw [g1, Option.some.injEq] at c1
    subst c1
    refine ⟨_, ?_, (allowed_inBand ha hb _).1 (fun x hx => (hin x hx).2.2)⟩
    rw [f2]
    simp only [List.reverse_nil, List.append_nil]
    rw [c3, ← hV _ _ hp, le_antisymm k3 g2]
  refine ⟨?_, ?_, ?_⟩
  · intro
    exact key (euclidean K) (monoEuclidean (by omega)) _ (valE a b _)
  · exact key (manhattan K) (monoManhattan (by omega)) _ (valM a b _)
  · exact key (chebyshev K) monoChebyshev _ (valC a b)

example : warpedDistance (manhattan ℚ) 1 [fin 0, fin 5, fin 1] [fin 0, fin 0, fin 5, fin 2] .inf [] =
    .ok (fin (1 / 8), [(0, 0), (0, 1), (1, 2), (2, 3)]) ∧
    absCost (K := ℚ) [0, 5, 1] [0, 0, 5, 2] [(0, 0), (0, 1), (1, 2), (2, 3)] / 8 = 1 / 8 := by decide +kernel

/-- C13 is false for a narrow band: here the band is 0, but the returned matching pairs positions one apart, and its cost
is not the returned distance. -/
theorem C13_leaves_band : ∃ (ratio : ℚ) (a b : List ℚ), 0 ≤ ratio ∧ 2 ≤ a.length ∧ 2 ≤ b.length ∧
    ∃ x p, warpedDistance (manhattan ℚ) ratio (a.map fin) (b.map fin) .inf [] = .ok (fin x, p) ∧
      ¬ InBand (bandWidth ratio (max a.length b.length)) p ∧
      x ≠ absCost a b p / ((2 * max a.length b.length : ℕ) : ℚ) := by
  refine ⟨0, [1, 2, 3, 4], [4, 3, 2, 1], le_refl _, by simp, by simp, 1, [(0, 0), (0, 1), (1, 2), (2, 3), (3, 3)],
    by decide +kernel, ?_, by decide +kernel⟩
  intro h
  have h1 := h (0, 1) (by simp)
  have h2 : bandWidth 0 (max [(1 : ℚ), 2, 3, 4].length [(4 : ℚ), 3, 2, 1].length) = 0 := by decide +kernel
  rw [h2] at h1
  simp at h1

/-! ## C14 -/

/-- A call that returns normally. -/
def Returns {α : Type} (r : Res α) : Prop := ∃ x, r = .ok x

/-- C14 for the five pairwise distances and for the DTW distances of euclidean, manhattan and chebyshev; for sorensen_dtw
and cosine_dtw on data without zeros (and, for sorensen, without negative values).
Missing: the other data for sorensen_dtw and cosine_dtw, where the claim is false, see `C14_diverges` and
`C14_null_pointer`. -/
theorem C14_returns_partial [HasSqrt K] (m : Metric) (he : m = .euclidean ∨ m = .cosine → LawfulSqrt K) [BandOps] (ratio : ℚ) (a b : List K) (ha : 1 ≤ a.length)
    (hb : 1 ≤ b.length) (d : Dbl K) (acc : List (ℕ × ℕ))
    (hs : m = .sorensen → ∀ x, x ∈ a ∨ x ∈ b → 0 < x) (hc : m = .cosine → ∀ x, x ∈ a ∨ x ∈ b → x ≠ 0) :
    (a.length = b.length → Returns (pairwiseDistance (m.dm K) (a.map fin) (b.map fin) d)) ∧
    Returns (warpedDistance (m.dm K) ratio (a.map fin) (b.map fin) d acc) := by
  constructor
  · intro hl
    unfold pairwiseDistance
    rw [if_neg (by simp [hl])]
    exact ⟨_, rfl⟩
  · by_cases h1 : a.length = 1 ∧ b.length = 1
    · unfold warpedDistance
      simp only [List.length_map, if_pos h1]
      exact ⟨_, rfl⟩
    · have key : ∀ (L : Safe (m.dm K) a.length b.length), InDom a b L →
          Returns (warpedDistance (m.dm K) ratio (a.map fin) (b.map fin) d acc) := by
        intro L hD
        obtain ⟨x, q, -, h⟩ := warped_total ratio L hD ha hb h1 d acc
        exact ⟨_, h⟩
      have hget : ∀ (l : List K) i, i < l.length → l.getD i 0 ∈ l := by
        intro l i hi
        rw [List.getD_eq_getElem?_getD, List.getElem?_eq_getElem hi, Option.getD_some]
        exact List.getElem_mem hi
      by_cases h2 : m = .sorensen
      · subst h2
        refine key safeSorensen ?_
        intro i j hi hj
        exact ⟨hs rfl _ (Or.inl (hget _ _ hi)), hs rfl _ (Or.inr (hget _ _ hj))⟩
      · by_cases h3 : m = .cosine
        · have := he (.inr h3)
          subst h3
          refine key safeCosine ?_
          intro i j hi hj
          exact ⟨hc rfl _ (Or.inl (hget _ _ hi)), hc rfl _ (Or.inr (hget _ _ hj))⟩
        · exact key (sumMaxSafe m ⟨h2, h3⟩ (fun h => he (.inl h)) a.length b.length (by omega)).toSafe
            (fun _ _ _ _ => (sumMaxSafe (K := K) m ⟨h2, h3⟩ (fun h => he (.inl h)) a.length b.length (by omega)).all _ _)

example : Returns (warpedDistance (sorensen ℚ) (1 / 2) [fin 1, fin 2, fin 3] [fin 2, fin 2, fin 1] (fin 1) []) := by
  refine ⟨?x, ?_⟩
  case x => exact (fin (1 / 5), [(0, 0), (1, 0), (1, 1), (2, 2)])
  decide +kernel

/-- C14 is false: matchingBetween with sorensen_dtw does not return when both series start with zeros. -/
theorem C14_diverges : ∃ (a b : List ℚ), 1 ≤ a.length ∧ 1 ≤ b.length ∧
    warpedDistance (sorensen ℚ) 1 (a.map fin) (b.map fin) .inf [] = .error .diverge :=
  ⟨[0, 1], [0, 1], by simp, by simp, by decide +kernel⟩

/-- C14 is false: with the default ratio, sorensen_dtw dereferences a null pointer on such series. -/
theorem C14_null_pointer : ∃ (a b : List ℚ) (msg : String), 1 ≤ a.length ∧ 1 ≤ b.length ∧
    warpedDistance (sorensen ℚ) (1 / 10) (a.map fin) (b.map fin) .inf [] = .error (.ub msg) :=
  ⟨[0, 1], [0, 1], "reduce dereferences a null accumulator", by simp, by simp, by decide +kernel⟩

end Genex.Props
