import Verif.Lemmas.RoundedError
import Verif.Props.Rounded

/-!
# C73: error of the distances in floating point

`rd` rounds with relative error at most `u`, up to the absolute error `θ ^ 2` of numbers that underflow.  Rounding to 53 binary digits
has `u = 2 ^ -53` and `θ = 0` (`C73_digits`); `double` has the same `u` and `θ = 2 ^ -537` (`C73_double`).
-/

set_option linter.unusedSectionVars false

namespace Genex.Props

open Dbl Spec

variable {K : Type} [Field K] [LinearOrder K] [IsStrictOrderedRing K] {rd : K → K} {u θ : K}

/-- C73: rounding to `p` digits has relative error at most `2 ^ -p`. -/
theorem C73_digits [FloorRing K] {p : ℕ} (hp : 1 ≤ p) : FloatOps (roundTo (K := K) p) (1 / 2 ^ p) 0 := roundTo_ops hp

/-- C73: the rounding of `double`, with underflow: relative error at most `2 ^ -53` up to an absolute error of at most `2 ^ -1074`, and
sums and differences of numbers of type `double` do not have the latter. -/
theorem C73_double [FloorRing K] : FloatOps (roundDouble (K := K)) (1 / 2 ^ 53) (1 / 2 ^ 537) := roundDouble_ops

/-- C73: numbers of at most 53 binary digits, not below `2 ^ -1074`, are numbers of type `double`. -/
theorem C73_representable [FloorRing K] (m k : ℤ) (hm : |m| ≤ 2 ^ 53) (hk : -1074 ≤ k) :
    roundDouble ((m : K) * 2 ^ k) = m * 2 ^ k := by
  have e : (m : K) * 2 ^ k = ((m * 2 ^ (k + 1074).toNat : ℤ) : K) * 2 ^ (-1074 : ℤ) := by
    have h : k = ((k + 1074).toNat : ℤ) + (-1074) := by omega
    rw [h, zpow_add₀ (by norm_num), zpow_natCast]
    push_cast
    rw [Int.toNat_of_nonneg (by omega)]
    have : (k + 1074 + -1074 + 1074) = k + 1074 := by ring
    rw [this]
    ring
  unfold roundDouble
  by_cases hl : (-1074 : ℤ) ≤ lastDigit 53 ((m : K) * 2 ^ k)
  · rw [roundSub_normal hl]
    exact roundTo_digits (by norm_num) m k hm
  · unfold roundSub
    rw [max_eq_right (by omega), e, mul_div_assoc, div_self (two_zpow (K := K) _).ne', mul_one, roundEven_int]

/-- A value between two multiples of `D`. -/
theorem near_of {D x l h e t s c c' α : K} (hD : 0 ≤ D) (h1 : l * (D - t) - c ≤ x) (h2 : x ≤ h * (D + s) + c') (hl : 1 - e ≤ l) (hl1 : l ≤ 1)
    (hh : h ≤ 1 + e) (he : e ≤ 1) (ht : 0 ≤ t) (hs : 0 ≤ s) (hα : t + c ≤ α) (hα' : 2 * s + c' ≤ α) : |x - D| ≤ e * D + α := by
  have a1 := mul_le_mul_of_nonneg_right hl hD
  have a2 := mul_le_mul_of_nonneg_right hh hD
  have a3 := mul_le_mul_of_nonneg_right hl1 ht
  have a4 := mul_le_mul_of_nonneg_right (le_trans hh (by linarith : 1 + e ≤ 2)) hs
  rw [abs_le]
  constructor <;> linarith

theorem FloatOps.sq_le (hp : FloatOps rd u θ) (hu1 : u ≤ 1) : θ ^ 2 ≤ θ ∧ θ ^ 2 ≤ u ^ 3 ∧ θ ^ 2 ≤ u * θ := by
  have h0 := hp.u_nonneg
  have ht := hp.θ_nonneg
  have hu2 : u ^ 2 ≤ u := by
    rw [pow_two]; exact mul_le_of_le_one_left h0 hu1
  have h1 : θ ≤ u := le_trans hp.θ_le hu2
  have h2 : θ ^ 2 ≤ u * θ := by
    rw [pow_two]; exact mul_le_mul_of_nonneg_right h1 ht
  refine ⟨le_trans h2 (mul_le_of_le_one_left ht hu1), le_trans h2 ?_, h2⟩
  calc u * θ ≤ u * u ^ 2 := mul_le_mul_of_nonneg_left hp.θ_le h0
    _ = u ^ 3 := by ring

theorem LeastCost.nonneg [BandOps] {ratio : ℚ} {a b : List K} {V : List (ℕ × ℕ) → K} (hV : ∀ p, 0 ≤ V p) {D : K}
    (h : LeastCost ratio a b V (fin D)) : 0 ≤ D := by
  rcases h with ⟨x, e, l⟩ | ⟨e, -⟩
  · cases e
    obtain ⟨p, -, -, rfl⟩ := l.1
    exact hV p
  · cases e

/-- C73: the computed DTW distance of series of `m` and `n` points is the DTW distance up to a relative error of `12 (m + n) u` and an
absolute error of `4 θ`. -/
theorem C73_dtw [HasSqrt K] (hp : FloatOps rd u θ) (m : Metric) (hm : m ≠ .sorensen ∧ m ≠ .cosine)
    (hs : m = .euclidean → LawfulSqrt K) [BandOps] (ratio : ℚ) (hr : 0 ≤ ratio) (a b : List K) (hFa : Floats rd a) (hFb : Floats rd b)
    (ha : 1 ≤ a.length) (hb : 1 ≤ b.length) (hw : 12 * ((a.length + b.length : ℕ) * u) ≤ 1) (D : K) (hD : Dtw m ratio a b (fin D)) :
    ∃ x, warpedValue (m.dmR rd) ratio (a.map fin) (b.map fin) .inf = .ok (fin x) ∧
      |x - D| ≤ 12 * ((a.length + b.length : ℕ) * u) * D + 4 * θ := by
  have hrd := hp.toRounding
  have hu := hp.u_nonneg
  have hw2 : (2 : K) ≤ ((a.length + b.length : ℕ) : K) := by exact_mod_cast (by omega : 2 ≤ a.length + b.length)
  have hpos : (0 : K) ≤ ((2 * max a.length b.length : ℕ) : K) := by positivity
  have hwu : 2 * u ≤ ((a.length + b.length : ℕ) : K) * u := mul_le_mul_of_nonneg_right hw2 hu
  have hu1 : u < 1 := by linarith
  have hm0 : 0 ≤ 1 - u := by linarith
  have hm1 : ∀ k : ℕ, (1 - u) ^ k ≤ 1 := fun k => pow_le_one₀ hm0 (by linarith)
  have ht := hp.θ_nonneg
  have hη : 0 ≤ θ ^ 2 := sq_nonneg θ
  obtain ⟨s1, s2, s3⟩ := FloatOps.sq_le hp (le_of_lt hu1)
  have hPa : ∀ i, rd (a.getD i 0) = a.getD i 0 := fun i => Floats.getD hFa hrd i
  have hPb : ∀ i, rd (b.getD i 0) = b.getD i 0 := fun i => Floats.getD hFb hrd i
  cases m with
  | manhattan =>
    have hD0 : 0 ≤ D := LeastCost.nonneg (fun p => div_nonneg (absCost_nonneg _ _ _) hpos) hD
    obtain ⟨x, h1, h2, h3⟩ := leastCost_near ha hb (fun D => (1 - u) ^ (a.length + b.length + 1) * D - θ ^ 2)
      (fun D => ((1 + u) / (1 - u)) ^ (2 * (a.length + b.length)) * (D + 3 * ((a.length + b.length : ℕ) * θ ^ 2)) + θ ^ 2)
      (fun x y h => sub_le_sub_right (mul_le_mul_of_nonneg_left h (pow_nonneg hm0 _)) _)
      (fun q hq hal => manhattanR_near hrd hp.on hu hu1 hη hPa hPb hr ha hb (by linarith) hq hal) hD
    have hwη : ((a.length + b.length : ℕ) : K) * θ ^ 2 ≤ θ / 12 := by
      have := mul_le_mul_of_nonneg_left s3 (le_trans (by norm_num) hw2)
      have := mul_le_mul_of_nonneg_right hw ht
      linarith
    refine ⟨x, h1, near_of (t := 0) (c := θ ^ 2) (l := (1 - u) ^ (a.length + b.length + 1)) hD0 (by rw [sub_zero]; exact h2) h3 ?_ (hm1 _) ?_ hw (le_refl _) (by positivity) (by linarith) (by linarith)⟩
    · refine le_trans ?_ (pow_ge_linear hu hu1 _)
      push_cast at hw2 hwu ⊢
      linarith
    · have := rho_pow_le hu (2 * (a.length + b.length)) (by push_cast at hw hw2 hwu ⊢; linarith) (by omega)
      refine le_trans this ?_
      push_cast at hw hw2 hwu ⊢
      linarith
  | euclidean =>
    have := hs rfl
    have hD0 : 0 ≤ D := LeastCost.nonneg (fun p => div_nonneg (LawfulSqrt.sqrt_nonneg (sqCost_nonneg _ _ _)) hpos) hD
    obtain ⟨x, h1, h2, h3⟩ := leastCost_near ha hb (fun D => (1 - u) ^ (a.length + b.length + 4) * (D - θ) - 2 * θ ^ 2)
      (fun D => ((1 + u) / (1 - u)) ^ (3 * (a.length + b.length)) * (D + θ) + 2 * θ ^ 2)
      (fun x y h => sub_le_sub_right (mul_le_mul_of_nonneg_left (sub_le_sub_right h _) (pow_nonneg hm0 _)) _)
      (fun q hq hal => euclideanR_near hrd hp.on hu hu1 hη hPa hPb hr ha hb ht (le_of_eq (pow_two θ)) s2 hw hq hal) hD
    refine ⟨x, h1, near_of hD0 h2 h3 ?_ (hm1 _) ?_ hw ht ht (by linarith) (by linarith)⟩
    · refine le_trans ?_ (pow_ge_linear hu hu1 _)
      push_cast at hw2 hwu ⊢
      linarith
    · have := rho_pow_le hu (3 * (a.length + b.length)) (by push_cast at hw hw2 hwu ⊢; linarith) (by omega)
      refine le_trans this ?_
      push_cast at hw hw2 hwu ⊢
      linarith
  | chebyshev =>
    have hD0 : 0 ≤ D := LeastCost.nonneg (fun p => maxCost_nonneg _ _ _) hD
    refine ⟨rd D, (leastCost_warped hr monoChebyshevR _ (valCR hrd a b) ha hb).1 (leastCost_map hrd hD), ?_⟩
    refine le_trans (hp.err D) ?_
    rw [abs_of_nonneg hD0]
    have := mul_le_mul_of_nonneg_right (by linarith : u ≤ 12 * (((a.length + b.length : ℕ) : K) * u)) hD0
    linarith
  | cosine => exact absurd rfl hm.2
  | sorensen => exact absurd rfl hm.1

/-- C73: where there is no alignment in the band, the computed distance is infinite, and only there; for any rounding. -/
theorem C73_infinite [HasSqrt K] (hrd : Rounding rd) (m : Metric) (hm : m ≠ .sorensen ∧ m ≠ .cosine)
    (hs : m = .euclidean → LawfulSqrt K) [BandOps] (ratio : ℚ) (hr : 0 ≤ ratio) (a b : List K) (ha : 1 ≤ a.length) (hb : 1 ≤ b.length) :
    warpedValue (m.dmR rd) ratio (a.map fin) (b.map fin) .inf = .ok .inf ↔ Dtw m ratio a b .inf := by
  cases m with
  | euclidean => have := hs rfl; exact leastCost_inf hr (growEuclideanR hrd (by omega)) ha hb
  | manhattan => exact leastCost_inf hr (growManhattanR hrd (by omega)) ha hb
  | chebyshev => exact leastCost_inf hr (monoChebyshevR (rd := rd)).toGrow ha hb
  | cosine => exact absurd rfl hm.2
  | sorensen => exact absurd rfl hm.1

/-- C73: a series that is computed to be no farther than another is no farther up to the error. -/
theorem C73_order [HasSqrt K] (hp : FloatOps rd u θ) (m : Metric) (hm : m ≠ .sorensen ∧ m ≠ .cosine)
    (hs : m = .euclidean → LawfulSqrt K) [BandOps] (ratio : ℚ) (hr : 0 ≤ ratio) (q a b : List K)
    (hFq : Floats rd q) (hFa : Floats rd a) (hFb : Floats rd b) (hq : 1 ≤ q.length) (ha : 1 ≤ a.length)
    (hb : 1 ≤ b.length) (w : ℕ) (hwa : q.length + a.length ≤ w) (hwb : q.length + b.length ≤ w) (hw : 12 * (w * u) ≤ 1) (x y : Dbl K)
    (hx : warpedValue (m.dmR rd) ratio (q.map fin) (a.map fin) .inf = .ok x)
    (hy : warpedValue (m.dmR rd) ratio (q.map fin) (b.map fin) .inf = .ok y) (hxy : x ≤ y) (D E : K)
    (hD : Dtw m ratio q a (fin D)) (hE : Dtw m ratio q b (fin E)) :
    (1 - 12 * (w * u)) * D ≤ (1 + 12 * (w * u)) * E + 8 * θ := by
  have hu := hp.u_nonneg
  have mono : ∀ n : ℕ, n ≤ w → 12 * ((n : K) * u) ≤ 12 * (w * u) := by
    intro n hn
    have h1 : (n : K) ≤ w := by exact_mod_cast hn
    have := mul_le_mul_of_nonneg_right h1 hu
    linarith
  have nn : ∀ {c : List K} {F : K}, Dtw m ratio q c (fin F) → 0 ≤ F := by
    intro c F h
    have hpos : (0 : K) ≤ ((2 * max q.length c.length : ℕ) : K) := by positivity
    cases m with
    | euclidean => have := hs rfl; exact LeastCost.nonneg (fun p => div_nonneg (LawfulSqrt.sqrt_nonneg (sqCost_nonneg _ _ _)) hpos) h
    | manhattan => exact LeastCost.nonneg (fun p => div_nonneg (absCost_nonneg _ _ _) hpos) h
    | chebyshev => exact LeastCost.nonneg (fun p => maxCost_nonneg _ _ _) h
    | cosine => exact absurd rfl hm.2
    | sorensen => exact absurd rfl hm.1
  have hD0 := nn hD
  have hE0 := nn hE
  obtain ⟨x', e1, h1⟩ := C73_dtw hp m hm hs ratio hr q a hFq hFa hq ha (le_trans (mono _ hwa) hw) D hD
  obtain ⟨y', e2, h2⟩ := C73_dtw hp m hm hs ratio hr q b hFq hFb hq hb (le_trans (mono _ hwb) hw) E hE
  rw [hx, Except.ok.injEq] at e1
  rw [hy, Except.ok.injEq] at e2
  subst e1 e2
  rw [fin_le_fin] at hxy
  have h1' := (abs_le.1 h1).1
  have h2' := (abs_le.1 h2).2
  have g1 := mul_le_mul_of_nonneg_right (mono _ hwa) hD0
  have g2 := mul_le_mul_of_nonneg_right (mono _ hwb) hE0
  linarith

/-- C73: the pairwise distances of `n` points, up to a relative error of `2 (n + 4) u` and an absolute error of `4 θ`. -/
theorem C73_pairwise [HasSqrt K] (hp : FloatOps rd u θ) (a b : List K) (hFa : Floats rd a) (hFb : Floats rd b) (hl : a.length = b.length)
    (hn : 1 ≤ a.length) (hw : 2 * ((a.length + 4 : ℕ) * u) ≤ 1) :
    (∃ x, pairwiseDistance (manhattanR rd) (a.map fin) (b.map fin) .inf = .ok (fin x) ∧
      |x - meanAbs a b| ≤ 2 * ((a.length + 4 : ℕ) * u) * meanAbs a b + 4 * θ) ∧
    (∃ x, pairwiseDistance (chebyshevR rd) (a.map fin) (b.map fin) .inf = .ok (fin x) ∧
      |x - maxAbs a b| ≤ u * maxAbs a b + 4 * θ) ∧
    (∀ _ : LawfulSqrt K, ∃ x, pairwiseDistance (euclideanR rd) (a.map fin) (b.map fin) .inf = .ok (fin x) ∧
      |x - rms a b| ≤ 2 * ((a.length + 4 : ℕ) * u) * rms a b + 4 * θ) := by
  have hrd := hp.toRounding
  have hu := hp.u_nonneg
  have ht := hp.θ_nonneg
  have hη : 0 ≤ θ ^ 2 := sq_nonneg θ
  have hn0 : (0 : K) < (a.length : K) := by exact_mod_cast hn
  have hnu : 0 ≤ (a.length : K) * u := mul_nonneg (le_of_lt hn0) hu
  have hu1 : u < 1 := by push_cast at hw; linarith
  have hm1 : ∀ k : ℕ, (1 - u) ^ k ≤ 1 := fun k => pow_le_one₀ (by linarith) (by linarith)
  obtain ⟨s1, -, -⟩ := FloatOps.sq_le hp (le_of_lt hu1)
  refine ⟨?_, ?_, ?_⟩
  · obtain ⟨x, h1, h2, h3⟩ := pairwise_manhattanR hrd hp.on hu hu1 a b hl hFa hFb hn
    refine ⟨x, h1, near_of (t := 0) (s := 0) (c := θ ^ 2) (c' := θ ^ 2) (l := (1 - u) ^ (a.length + 2)) (h := (1 + u) ^ (a.length + 2)) (div_nonneg (sumabs_nonneg a b) (le_of_lt hn0)) (by rw [sub_zero]; exact h2)
      (by rw [add_zero]; exact h3) ?_ (hm1 _) ?_ hw (le_refl _) (le_refl _) (by linarith) (by linarith)⟩
    · refine le_trans ?_ (pow_ge_linear hu hu1 _)
      push_cast; linarith
    · refine le_trans (one_add_pow_le hu _ (by push_cast at hw ⊢; linarith)) ?_
      push_cast; linarith
  · refine ⟨_, pairwise_chebyshevR hrd a b hl hn, le_trans (hp.err _) ?_⟩
    rw [abs_of_nonneg (maxabs_nonneg a b)]
    linarith
  · intro hs
    obtain ⟨x, h1, h2, h3⟩ := pairwise_euclideanR hrd hp.on hu hu1 a b hl hFa hFb hη ht (le_of_eq (pow_two θ)) hn
      (by push_cast at hw; linarith)
    have hr0 : 0 ≤ rms a b := LawfulSqrt.sqrt_nonneg (div_nonneg (sumsq_nonneg a b) (le_of_lt hn0))
    refine ⟨x, h1, near_of (t := 0) (l := (1 - u) ^ (a.length + 4)) (c := 2 * θ + θ ^ 2) hr0 (by linarith) h3 ?_ (hm1 _) ?_ hw (le_refl _) (by linarith) (by linarith) (by linarith)⟩
    · refine le_trans ?_ (pow_ge_linear hu hu1 _)
      push_cast; linarith
    · refine le_trans (one_add_pow_le hu _ (by push_cast at hw ⊢; linarith)) ?_
      push_cast; linarith

/-- C73: the pairwise euclidean distance with a bound is the value computed without one, or infinity, and then the bound is below the
distance up to the error (without the error this is false, `C72_euclidean_false`). -/
theorem C73_giving_up [HasSqrt K] [LawfulSqrt K] (hp : FloatOps rd u θ) (a b : List K) (hFa : Floats rd a) (hFb : Floats rd b)
    (hl : a.length = b.length) (hw : 2 * ((a.length + 4 : ℕ) * u) ≤ 1) (d : Dbl K) :
    ∃ F, pairwiseDistance (euclideanR rd) (a.map fin) (b.map fin) .inf = .ok F ∧
      (pairwiseDistance (euclideanR rd) (a.map fin) (b.map fin) d = .ok F ∨
        (d < fin ((1 + 2 * ((a.length + 4 : ℕ) * u)) * rms a b + 4 * θ) ∧
          pairwiseDistance (euclideanR rd) (a.map fin) (b.map fin) d = .ok .inf)) := by
  obtain ⟨F, h1, h2⟩ := euclideanR_within hp.toRounding hp.on hp.u_nonneg a b hl hFa hFb (sq_nonneg θ) hp.θ_nonneg (le_of_eq (pow_two θ))
    (le_refl _) hw d
  refine ⟨F, h1, h2.imp_right (fun h => ⟨lt_of_lt_of_le h.1 ?_, h.2⟩)⟩
  rw [fin_le_fin]
  have := mul_le_mul_of_nonneg_right hw hp.θ_nonneg
  linarith

/-! ## Cases -/

/-- `double`, any two series of up to a thousand points. -/
example (a b : List ℝ) (hFa : Floats roundDouble a) (hFb : Floats roundDouble b) (ha : 1 ≤ a.length) (hb : 1 ≤ b.length)
    (h1 : a.length ≤ 1000) (h2 : b.length ≤ 1000) (D : ℝ) (hD : Dtw .euclidean (1 / 10) a b (fin D)) :
    ∃ x, warpedValue (euclideanR roundDouble) (1 / 10) (a.map fin) (b.map fin) .inf = .ok (fin x) ∧
      |x - D| ≤ D / 10 ^ 11 + 1 / 2 ^ 535 := by
  have hlen : ((a.length + b.length : ℕ) : ℝ) ≤ 2000 := by exact_mod_cast (by omega : a.length + b.length ≤ 2000)
  have hle : 12 * (((a.length + b.length : ℕ) : ℝ) * (1 / 2 ^ 53)) ≤ 1 / 10 ^ 11 := by
    have := mul_le_mul_of_nonneg_right hlen (by norm_num : (0 : ℝ) ≤ 1 / 2 ^ 53)
    refine le_trans (mul_le_mul_of_nonneg_left this (by norm_num)) (by norm_num)
  obtain ⟨x, e, h⟩ := C73_dtw (K := ℝ) C73_double .euclidean (by simp) (fun _ => inferInstance) (1 / 10) (by norm_num) a b hFa hFb ha hb
    (le_trans hle (by norm_num)) D hD
  refine ⟨x, e, le_trans h ?_⟩
  have hD0 : 0 ≤ D := LeastCost.nonneg (fun p => div_nonneg (LawfulSqrt.sqrt_nonneg (sqCost_nonneg _ _ _)) (by positivity)) hD
  have := mul_le_mul_of_nonneg_right hle hD0
  have h4 : 4 * (1 / 2 ^ 537 : ℝ) = 1 / 2 ^ 535 := by
    rw [show (537 : ℕ) = 535 + 2 from rfl, pow_add]
    have : (2 : ℝ) ^ 535 ≠ 0 := pow_ne_zero _ (by norm_num)
    generalize (2 : ℝ) ^ 535 = t at *
    field_simp
    norm_num
  linarith

/-- Rounded to seven digits the distance is not the exact one. -/
example : warpedValue (manhattanR (roundTo 7)) 1 [fin (77 / 256 : ℚ), fin 1] [fin 0, fin (45 / 64)] .inf = .ok (fin (19 / 128)) ∧
    warpedValue (manhattan ℚ) 1 [fin (77 / 256 : ℚ), fin 1] [fin 0, fin (45 / 64)] .inf = .ok (fin (153 / 1024)) := by decide +kernel

/-- Underflow: the squares vanish, and the distance becomes 0; the absolute error is needed. -/
example : warpedValue (euclideanR roundDouble) 1 [fin (1 / 2 ^ 600 : ℚ), fin 0] [fin 0, fin 0] .inf = .ok (fin 0) := by decide +kernel

/-- 0.1 and 0.7 as numbers of type `double`. -/
theorem exDoubles : Floats (K := ℚ) roundDouble [3602879701896397 / 2 ^ 55, 3152519739159347 / 2 ^ 52] := by decide +kernel

example := (C73_infinite (K := ℚ) (C73_digits (p := 53) (by norm_num)).toRounding .manhattan (by simp)
  (by simp) (1 / 10) (by norm_num) [0, 1, 2, 3] [1, 2] (by simp) (by simp)).1 (by decide +kernel)

example := C73_order (K := ℚ) C73_double .manhattan (by simp) (by simp) 1 (by norm_num) [3, 1] [0, 7] [0, 50] (by decide +kernel)
  (by decide +kernel) (by decide +kernel) (by simp) (by simp) (by simp) 4 (by simp) (by simp) (by norm_num)
  (fin (9 / 4)) (fin 13) (by decide +kernel) (by decide +kernel) (by decide +kernel) (9 / 4) 13 ((dtw_iff (by simp) (by simp) (by norm_num) (by simp) (by simp)).2 (by decide +kernel))
  ((dtw_iff (by simp) (by simp) (by norm_num) (by simp) (by simp)).2 (by decide +kernel))

example := (C73_pairwise (K := ℚ) C73_double _ [1, 1 / 4] exDoubles (by decide +kernel) rfl (by simp) (by norm_num)).1

example (x y z t : ℝ) (h : Floats roundDouble [x, y]) (h' : Floats roundDouble [z, t]) :=
  (C73_pairwise C73_double _ _ h h' rfl (by simp) (by norm_num)).2.2 inferInstance

example (x y z t : ℝ) (h : Floats roundDouble [x, y]) (h' : Floats roundDouble [z, t]) :=
  C73_giving_up C73_double _ _ h h' rfl (by norm_num) (fin 0.2)

end Genex.Props
