import Verif.Lemmas.RoundedBack
import Verif.Props.RoundedError
import Verif.Props.Interface
import Verif.Props.MachineDist

/-!
# C98: the alignment returned, in floating point

Rounding makes different costs equal, so the trace-back need not follow the neighbour that the cell was computed from, and the alignment it
returns need not be an optimal one (`C98_optimal_false`).  For the full band it is optimal up to the error of rounding.
-/

set_option linter.unusedSectionVars false

namespace Genex.Props

open Dbl Spec Genex.Registry

section

variable {K : Type} [Field K] [LinearOrder K] [IsStrictOrderedRing K] {rd : K → K} {u θ : K}

/-- C98: with any rounding, band and bound the returned pairs are an alignment.  Missing: two single points, as in C12. -/
theorem C98_valid_partial [HasSqrt K] (hrd : Spec.Rounding rd) (m : Metric) (hm : m ≠ .sorensen ∧ m ≠ .cosine)
    (hs : m = .euclidean → LawfulSqrt K) [BandOps] (ratio : ℚ) (a b : List K) (ha : 1 ≤ a.length) (hb : 1 ≤ b.length)
    (h1 : ¬ (a.length = 1 ∧ b.length = 1)) (d : Dbl K) :
    ∃ x p, warpedDistance (m.dmR rd) ratio (a.map fin) (b.map fin) d [] = .ok (x, p) ∧ Alignment a.length b.length p := by
  have key : ∀ (M : DM K) (L : Grow M a.length b.length),
      ∃ x p, warpedDistance M ratio (a.map fin) (b.map fin) d [] = .ok (x, p) ∧ Alignment a.length b.length p := by
    intro M L
    obtain ⟨x, q, h1, h2⟩ := warped_total ratio L.toSafe (fun _ _ _ _ => L.all _ _) ha hb h1 d []
    exact ⟨x, q, by simpa using h2, alignment_iff.2 h1⟩
  cases m with
  | euclidean => have := hs rfl; exact key _ (growEuclideanR hrd (by omega))
  | manhattan => exact key _ (growManhattanR hrd (by omega))
  | chebyshev => exact key _ (monoChebyshevR (rd := rd)).toGrow
  | cosine => exact absurd rfl hm.2
  | sorensen => exact absurd rfl hm.1

/-- C98 for the full band: the cost of the returned alignment is the returned distance up to a relative error of `12 (m + n) u` and an
absolute error of `3 θ`. -/
theorem cost_le_value [HasSqrt K] (hp : FloatOps rd u θ) (m : Metric) (hm : m ≠ .sorensen ∧ m ≠ .cosine)
    (hs : m = .euclidean → LawfulSqrt K) [BandOps] (ratio : ℚ) (hr : 1 ≤ ratio) (a b : List K) (hFa : Floats rd a) (hFb : Floats rd b)
    (ha : 1 ≤ a.length) (hb : 1 ≤ b.length) (h1 : ¬ (a.length = 1 ∧ b.length = 1)) (hw : 12 * ((a.length + b.length : ℕ) * u) ≤ 1) :
    ∃ x p v, warpedDistance (m.dmR rd) ratio (a.map fin) (b.map fin) .inf [] = .ok (fin x, p) ∧ Alignment a.length b.length p ∧
      alignCost m a b p = some v ∧ v ≤ (1 + 12 * ((a.length + b.length : ℕ) * u)) * x + 3 * θ := by
  have hrd := hp.toRounding
  have hu := hp.u_nonneg
  have hw2 : (2 : K) ≤ ((a.length + b.length : ℕ) : K) := by exact_mod_cast (by omega : 2 ≤ a.length + b.length)
  have hwu : 2 * u ≤ ((a.length + b.length : ℕ) : K) * u := mul_le_mul_of_nonneg_right hw2 hu
  have hu1 : u < 1 := by linarith
  have ht := hp.θ_nonneg
  have hη : 0 ≤ θ ^ 2 := sq_nonneg θ
  obtain ⟨s1, s2, s3⟩ := FloatOps.sq_le hp (le_of_lt hu1)
  have hPa : ∀ i, rd (a.getD i 0) = a.getD i 0 := fun i => Floats.getD hFa hrd i
  have hPb : ∀ i, rd (b.getD i 0) = b.getD i 0 := fun i => Floats.getD hFb hrd i
  have hwη : ((a.length + b.length : ℕ) : K) * θ ^ 2 ≤ θ / 12 := by
    have := mul_le_mul_of_nonneg_left s3 (le_trans (by norm_num) hw2)
    have := mul_le_mul_of_nonneg_right hw ht
    linarith
  have hη12 : 2 * θ ^ 2 ≤ θ / 12 := le_trans (mul_le_mul_of_nonneg_right hw2 hη) hwη
  cases m with
  | manhattan =>
    obtain ⟨x, p, p1, p2, p0, p3⟩ := manhattanR_back hrd hp.on hu hu1 hη hPa hPb hr ha hb h1 (by linarith)
    refine ⟨x, p, _, p2, alignment_iff.2 p1, rfl, le_trans p3 ?_⟩
    have hρ := rho_pow_le hu (2 * (a.length + b.length)) (by push_cast at hw hw2 hwu ⊢; linarith) (by omega)
    generalize a.length + b.length = w at hρ hw hw2 hwu hwη ⊢
    refine le_trans (mul_le_mul_of_nonneg_right hρ (by positivity)) ?_
    push_cast
    have e1 : (1 + 4 * (2 * (w : K) * u)) * (x + 4 * (w * θ ^ 2)) =
        (1 + 8 * (w * u)) * x + (1 + 8 * (w * u)) * (4 * (w * θ ^ 2)) := by ring
    rw [e1]
    have e2 : (1 + 8 * ((w : K) * u)) * (4 * (w * θ ^ 2)) ≤ 2 * (θ / 3) :=
      mul_le_mul (by linarith) (by linarith) (by positivity) (by norm_num)
    have e3 : (1 + 8 * ((w : K) * u)) * x ≤ (1 + 12 * (w * u)) * x := mul_le_mul_of_nonneg_right (by linarith) p0
    linarith
  | euclidean =>
    have := hs rfl
    obtain ⟨x, p, p1, p2, p0, p3⟩ := euclideanR_back hrd hp.on hu hu1 hη hPa hPb hr ha hb h1 ht (le_of_eq (pow_two θ)) s2 hw
    refine ⟨x, p, _, p2, alignment_iff.2 p1, rfl, le_trans p3 ?_⟩
    have hρ := rho_pow_le hu (3 * (a.length + b.length)) (by push_cast at hw hw2 hwu ⊢; linarith) (by omega)
    generalize a.length + b.length = w at hρ hw hw2 hwu hwη ⊢
    refine le_trans (mul_le_mul_of_nonneg_right hρ (by positivity)) ?_
    push_cast
    have e1 : (1 + 4 * (3 * (w : K) * u)) * (x + 2 * θ ^ 2 + θ) =
        (1 + 12 * (w * u)) * x + (1 + 12 * (w * u)) * (2 * θ ^ 2 + θ) := by ring
    rw [e1]
    have e2 : (1 + 12 * ((w : K) * u)) * (2 * θ ^ 2 + θ) ≤ 2 * (3 * θ / 2) :=
      mul_le_mul (by linarith) (by linarith) (by positivity) (by norm_num)
    linarith
  | chebyshev =>
    obtain ⟨p, p1, p2⟩ := chebyshevR_back (rd := rd) (a := a) (b := b) hrd hr ha hb h1
    refine ⟨_, p, _, p2, alignment_iff.2 p1, rfl, ?_⟩
    have h0 := maxCost_nonneg a b p
    have h2 := hrd.nonneg h0
    have h3 := le_rd hp.on h0
    generalize maxCost a b p = v at *
    generalize rd v = x at *
    have h4 : (1 - u) * v ≤ x + θ ^ 2 := by linarith
    have h5 : (1 - u) * v ≤ (1 - u) * ((1 + 2 * u) * x + 2 * θ ^ 2) := by
      refine le_trans h4 ?_
      have a1 : 0 ≤ u * (1 - 2 * u) * x := mul_nonneg (mul_nonneg hu (by linarith)) h2
      have a2 : 0 ≤ (1 - 2 * u) * θ ^ 2 := mul_nonneg (by linarith) hη
      nlinarith
    have h6 : v ≤ (1 + 2 * u) * x + 2 * θ ^ 2 := le_of_mul_le_mul_left h5 (by linarith)
    have h7 : (1 + 2 * u) * x ≤ (1 + 12 * (((a.length + b.length : ℕ) : K) * u)) * x := mul_le_mul_of_nonneg_right (by linarith) h2
    linarith
  | cosine => exact absurd rfl hm.2
  | sorensen => exact absurd rfl hm.1

theorem least_le [HasSqrt K] {m : Metric} (hm : m ≠ .sorensen ∧ m ≠ .cosine) (hs : m = .euclidean → LawfulSqrt K) [BandOps] {ratio : ℚ}
    (hr : 1 ≤ ratio) {a b : List K} (ha : 1 ≤ a.length) (hb : 1 ≤ b.length) {p : List (ℕ × ℕ)} (hp : Alignment a.length b.length p) {D v : K}
    (hD : Dtw m ratio a b (fin D)) (hv : alignCost m a b p = some v) : 0 ≤ D ∧ D ≤ v := by
  have hal : InBand (dtwBand ratio a.length b.length) p := by
    refine (allowed_dtwBand ha hb hp).1 (fun c hc => ?_)
    have := (alignment_iff.1 hp).bound c hc
    simp only at this
    exact allowed_full hr (by omega) _ _ (by omega) (by omega)
  have key : ∀ V : List (ℕ × ℕ) → K, LeastCost ratio a b V (fin D) → D ≤ V p := by
    intro V h
    rcases h with ⟨x, e, l⟩ | ⟨e, -⟩
    · cases e
      exact l.2 ⟨p, hp, hal, rfl⟩
    · cases e
  have hpos : (0 : K) ≤ ((2 * max a.length b.length : ℕ) : K) := by positivity
  cases m with
  | euclidean =>
    cases hv
    have := hs rfl
    exact ⟨LeastCost.nonneg (fun p => div_nonneg (LawfulSqrt.sqrt_nonneg (sqCost_nonneg _ _ _)) hpos) hD, key _ hD⟩
  | manhattan => cases hv; exact ⟨LeastCost.nonneg (fun p => div_nonneg (absCost_nonneg _ _ _) hpos) hD, key _ hD⟩
  | chebyshev => cases hv; exact ⟨LeastCost.nonneg (fun p => maxCost_nonneg _ _ _) hD, key _ hD⟩
  | cosine => exact absurd rfl hm.2
  | sorensen => exact absurd rfl hm.1

/-- C98 for the full band: the cost of the returned alignment is at most the DTW distance `D`, up to a relative error of `36 (m + n) u` and
an absolute error of `11 θ`, and it is the returned distance up to a relative error of `24 (m + n) u` and an absolute error of `7 θ`.
Missing: narrower bands, where this is false even of exact arithmetic, see `C13_leaves_band`, and two single points. -/
theorem C98_alignment_partial [HasSqrt K] (hp : FloatOps rd u θ) (m : Metric) (hm : m ≠ .sorensen ∧ m ≠ .cosine)
    (hs : m = .euclidean → LawfulSqrt K) [BandOps] (ratio : ℚ) (hr : 1 ≤ ratio) (a b : List K) (hFa : Floats rd a) (hFb : Floats rd b)
    (ha : 1 ≤ a.length) (hb : 1 ≤ b.length) (h1 : ¬ (a.length = 1 ∧ b.length = 1)) (hw : 12 * ((a.length + b.length : ℕ) * u) ≤ 1)
    (D : K) (hD : Dtw m ratio a b (fin D)) :
    ∃ x p v, warpedDistance (m.dmR rd) ratio (a.map fin) (b.map fin) .inf [] = .ok (fin x, p) ∧ Alignment a.length b.length p ∧
      alignCost m a b p = some v ∧ D ≤ v ∧ v ≤ (1 + 36 * ((a.length + b.length : ℕ) * u)) * D + 11 * θ ∧
      |x - v| ≤ 24 * ((a.length + b.length : ℕ) * u) * D + 7 * θ := by
  obtain ⟨x, p, v, e1, e2, e3, e4⟩ := cost_le_value hp m hm hs ratio hr a b hFa hFb ha hb h1 hw
  obtain ⟨x', f1, f2⟩ := C73_dtw hp m hm hs ratio (le_trans zero_le_one hr) a b hFa hFb ha hb hw D hD
  have hx : x' = x := by
    unfold warpedValue at f1
    rw [e1] at f1
    simpa [Except.map] using f1.symm
  subst hx
  obtain ⟨h0, hDv⟩ := least_le hm hs hr ha hb e2 hD e3
  have hwu : 0 ≤ ((a.length + b.length : ℕ) : K) * u := mul_nonneg (Nat.cast_nonneg _) hp.u_nonneg
  have ht := hp.θ_nonneg
  generalize ((a.length + b.length : ℕ) : K) * u = c at *
  have g := abs_le.1 f2
  have g1 : x' ≤ (1 + 12 * c) * D + 4 * θ := by linarith [g.2]
  have g2 := mul_le_mul_of_nonneg_left g1 (by linarith : 0 ≤ 1 + 12 * c)
  have g3 : 12 * c * (12 * c * D) ≤ 1 * (12 * c * D) := mul_le_mul_of_nonneg_right hw (mul_nonneg (by linarith) h0)
  have g4 : 12 * c * θ ≤ 1 * θ := mul_le_mul_of_nonneg_right hw ht
  refine ⟨x', p, v, e1, e2, e3, hDv, ?_, ?_⟩
  · linarith
  · rw [abs_le]
    have g5 : 12 * c * x' ≤ 12 * c * ((1 + 12 * c) * D + 4 * θ) := mul_le_mul_of_nonneg_left g1 (by linarith)
    constructor
    · linarith
    · have := mul_nonneg hwu h0
      linarith [g.2]

/-- With the full band there is a DTW distance. -/
theorem dtw_exists [HasSqrt K] (m : Metric) (hm : m ≠ .sorensen ∧ m ≠ .cosine) (hs : m = .euclidean → LawfulSqrt K) [BandOps] (ratio : ℚ)
    (hr : 1 ≤ ratio) (a b : List K) (ha : 1 ≤ a.length) (hb : 1 ≤ b.length) (h1 : ¬ (a.length = 1 ∧ b.length = 1)) :
    ∃ D, Dtw m ratio a b (fin D) := by
  have hr0 : 0 ≤ ratio := le_trans zero_le_one hr
  obtain ⟨x, p, -, hp⟩ := C12_matching_partial m hm hs ratio a b ha hb h1 .inf
  rcases warped_attain (sumMaxSafe (K := K) m hm hs a.length b.length (by omega))
    (band_eq_bandWidth hr0 (len := max a.length b.length) (by omega)) ha hb with ⟨q, -, -, e⟩ | ⟨-, hno⟩
  · exact ⟨_, (dtw_iff hm hs hr0 ha hb).2 e⟩
  · refine absurd ⟨p, alignment_iff.1 hp, fun c hc => ?_⟩ hno
    have := (alignment_iff.1 hp).bound c hc
    simp only at this
    exact allowed_full hr (by omega) _ _ (by omega) (by omega)

end

section

variable {K : Type} [Field K] [LinearOrder K] [IsStrictOrderedRing K] [FloorRing K] [HasSqrt K]

/-- C98, `matchingBetween` with numbers of type `double` and `int`: for the full band the answer is an alignment, whose cost is at most the
DTW distance up to the error of rounding.  Missing: as in `C98_alignment_partial`; longer series, greater numbers. -/
theorem C98_machine_partial [BandOps] [A : Arith K] (hA : A = machineArith (rndMax roundDouble maxDouble)) (E : Env K) (s : Api K) (m : Metric)
    (hm : m ≠ .sorensen ∧ m ≠ .cosine) (hs : m = .euclidean → LawfulSqrt K) (hr : 1 ≤ s.ratio)
    (n1 n2 : String) (i1 a1 b1 i2 a2 b2 : Int) (x y : List K) (hx : Query E s n1 i1 a1 b1 x) (hy : Query E s n2 i2 a2 b2 y)
    (h1 : 1 ≤ x.length) (h2 : 1 ≤ y.length) (h3 : ¬ (x.length = 1 ∧ y.length = 1)) (N : ℕ) (hxN : x.length ≤ N) (hyN : y.length ≤ N)
    (hN : N < 2 ^ 30) (hband : ⌊BandOps.mul s.ratio N⌋ < 2 ^ 31) (hFx : Floats roundDouble x) (hFy : Floats roundDouble y)
    (hBx : ∀ z ∈ x, |z| ≤ 2 ^ 480) (hBy : ∀ z ∈ y, |z| ≤ 2 ^ 480) :
    ∃ p v D, s.exec E (.matching n1 i1 a1 b1 n2 i2 a2 b2 (metricName m ++ "_dtw")) = (s, .ret (.ok (.matching p))) ∧
      Alignment x.length y.length p ∧ alignCost m x y p = some v ∧ Dtw m s.ratio x y (fin D) ∧
      D ≤ v ∧ v ≤ (1 + 36 * ((x.length + y.length : ℕ) * (1 / 2 ^ 53))) * D + 11 * (1 / 2 ^ 537) := by
  have hr0 : 0 ≤ s.ratio := le_trans zero_le_one hr
  have hw : 12 * (((x.length + y.length : ℕ) : K) * (1 / 2 ^ 53)) ≤ 1 := by
    have : ((x.length + y.length : ℕ) : K) ≤ ((2 ^ 31 : ℕ) : K) := by exact_mod_cast (by omega : x.length + y.length ≤ 2 ^ 31)
    have := mul_le_mul_of_nonneg_right this (by positivity : (0 : K) ≤ 1 / 2 ^ 53)
    refine le_trans (mul_le_mul_of_nonneg_left this (by norm_num)) (by norm_num)
  obtain ⟨D, hD⟩ := dtw_exists m hm hs s.ratio hr x y h1 h2 h3
  obtain ⟨d, p, v, e1, e2, e3, e4, e5, -⟩ := C98_alignment_partial C73_double m hm hs s.ratio hr x y hFx hFy h1 h2 h3 hw D hD
  refine ⟨p, v, D, ?_, e2, e3, hD, e4, e5⟩
  have hn : Api.notDtw (metricName m ++ "_dtw") = .ok false := by cases m <;> decide +kernel
  have hmatch : Arith.matching s.ratio (.warped m) (x.map fin) (y.map fin) = .ok p := by
    rw [hA]
    change (DistRef.warped m).matchingI _ _ _ _ = _
    rw [(C93_distance _ s.ratio hr0 N hband (.warped m) hN _ _ (by simpa using hxN) (by simpa using hyN)).2]
    change (warpedDistance _ _ _ _ _ _).map Prod.snd = _
    have hC := (C87_matching_partial roundDouble roundDouble_rounding maxDouble (2 ^ 480) max_fixed one_le_max (.warped m) hs s.ratio hr0 x y hBx hBy
      (C87_double m hm _ (by omega))).2
    simp only [metricOf] at hC
    rw [hC, e1]
    rfl
  rw [matching_exec hx hy, (C48_lookup _ _).2 ⟨m, .inr ⟨rfl, rfl⟩⟩]
  simp only [bind, Except.bind, hn, hmatch]
  rfl

end

/-! ## Cases -/

/-- C98, optimality is false of rounded arithmetic: the two ways to the last cell differ by less than the division by 6 can tell, and the
trace-back takes the worse. -/
theorem C98_optimal_false : ∃ a b : List ℚ, Floats roundDouble a ∧ Floats roundDouble b ∧ 2 ≤ a.length ∧ 2 ≤ b.length ∧
    ∃ x p q, warpedDistance (Metric.manhattan.dmR roundDouble) 1 (a.map fin) (b.map fin) .inf [] = .ok (fin x, p) ∧
      Alignment a.length b.length q ∧ absCost a b q < absCost a b p := by
  refine ⟨[1, 2 + 1 / 2 ^ 51, 1 / 2], [3 + 1 / 2 ^ 51, 1, 1 + 1 / 2 ^ 52], by decide +kernel, by decide +kernel, by simp, by simp,
    1313549891316395 / 2251799813685248, [(0, 0), (1, 1), (2, 2)], [(0, 0), (0, 1), (1, 2), (2, 2)], by decide +kernel, ?_, by decide +kernel⟩
  exact ⟨rfl, rfl, by decide⟩

/-- The series of the counterexample meet the hypotheses for the full band. -/
example := C98_alignment_partial (K := ℚ) C73_double .manhattan (by simp) (by simp) 1 le_rfl [1, 2 + 1 / 2 ^ 51, 1 / 2]
  [3 + 1 / 2 ^ 51, 1, 1 + 1 / 2 ^ 52] (by decide +kernel) (by decide +kernel) (by simp) (by simp) (by simp) (by norm_num)
  (3940649673949185 / 1125899906842624 / 6) ((dtw_iff (by simp) (by simp) (by norm_num) (by simp) (by simp)).2 (by decide +kernel))

/-- `double`, any two series of two to a thousand points. -/
example (a b : List ℝ) (hFa : Floats roundDouble a) (hFb : Floats roundDouble b) (ha : 2 ≤ a.length) (hb : 2 ≤ b.length)
    (h1 : a.length ≤ 1000) (h2 : b.length ≤ 1000) : ∃ D, Dtw .euclidean 1 a b (fin D) ∧
    ∃ x p v, warpedDistance (euclideanR roundDouble) 1 (a.map fin) (b.map fin) .inf [] = .ok (fin x, p) ∧
      alignCost .euclidean a b p = some v ∧ D ≤ v ∧ v ≤ (1 + 36 * ((a.length + b.length : ℕ) * (1 / 2 ^ 53))) * D + 11 * (1 / 2 ^ 537) := by
  obtain ⟨D, hD⟩ := dtw_exists (K := ℝ) .euclidean (by simp) (fun _ => inferInstance) 1 le_rfl a b (by omega) (by omega) (by omega)
  have hlen : ((a.length + b.length : ℕ) : ℝ) ≤ 2000 := by exact_mod_cast (by omega : a.length + b.length ≤ 2000)
  have hle : 12 * (((a.length + b.length : ℕ) : ℝ) * (1 / 2 ^ 53)) ≤ 1 := by
    have := mul_le_mul_of_nonneg_right hlen (by norm_num : (0 : ℝ) ≤ 1 / 2 ^ 53)
    refine le_trans (mul_le_mul_of_nonneg_left this (by norm_num)) (by norm_num)
  obtain ⟨x, p, v, e1, -, e3, e4, e5, -⟩ := C98_alignment_partial (K := ℝ) C73_double .euclidean (by simp) (fun _ => inferInstance) 1 le_rfl a b
    hFa hFb (by omega) (by omega) (by omega) hle D hD
  exact ⟨D, hD, x, p, v, e1, e3, e4, e5⟩

example (d : Dbl ℚ) := C98_valid_partial (K := ℚ) (rd := roundTo 7) (C73_digits (by norm_num)).toRounding .manhattan (by simp) (by simp) (1 / 10)
  [0, 1, 2, 3] [1, 2] (by simp) (by simp) (by simp) d

/-- A session on the machine, with the full band. -/
example : ∃ p v D, @Api.exec ℚ _ _ _ (machineArith overD) _ exEnv exBroad (.matching "f" 0 1 3 "f" 1 0 3 "manhattan_dtw") = (exBroad, .ret (.ok (.matching p))) ∧
    Alignment 2 3 p ∧ alignCost .manhattan [4, 2] [2, 3, 5] p = some v ∧ Dtw .manhattan exBroad.ratio [4, 2] [2, 3, 5] (fin D) ∧
      D ≤ v ∧ v ≤ (1 + 36 * (((5 : ℕ) : ℚ) * (1 / 2 ^ 53))) * D + 11 * (1 / 2 ^ 537) :=
  @C98_machine_partial ℚ _ _ _ _ _ _ (machineArith overD) rfl exEnv exBroad .manhattan (by simp) (by simp) (by decide +kernel) "f" "f" 0 1 3 1 0 3
    [4, 2] [2, 3, 5] exBroad_query exBroad_query' (by simp) (by simp) (by simp) 3 (by simp) (by simp) (by norm_num) (by decide +kernel)
    (by decide +kernel) (by decide +kernel) (by decide +kernel) (by decide +kernel)

end Genex.Props
