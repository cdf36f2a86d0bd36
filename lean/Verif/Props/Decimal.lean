import Verif.Lemmas.Decimal
import Verif.Props.OldFormat

/-!
# C77: sixteen digits

The points of the centroids are written with `setprecision(std::numeric_limits<data_t>::digits10 + 1)` (genex/TimeSeries.cpp:228), that is
with sixteen digits; a `double` takes seventeen.
-/

namespace Genex.Props

open Dbl Spec

/-- C77: a point is read back as its value rounded to sixteen digits, rounded to `double`. -/
theorem C77_reads (x : ℚ) : numberOf (doublePrinter.high (fin x)) = some (fin (roundDouble (decimal 16 x))) := numberOf_printed 16 x

/-- C77: and that is near. -/
theorem C77_error (x y : ℚ) (h : numberOf (doublePrinter.high (fin x)) = some (fin y)) :
    |y - x| ≤ 7 / 10 ^ 16 * |x| + 1 / 2 ^ 1074 := by
  rw [C77_reads, Option.some.injEq, Dbl.fin.injEq] at h
  subst h
  have h1 := decimal_err (n := 16) x
  rw [show (10 : ℚ) ^ (1 - ((16 : ℕ) : ℤ)) = 1 / 10 ^ 15 by norm_num] at h1
  have h2 : |roundDouble (decimal 16 x) - decimal 16 x| ≤ 1 / 2 ^ 53 * |decimal 16 x| + 1 / 2 ^ 1074 := by
    have := (roundDouble_ops (K := ℚ)).err (decimal 16 x)
    refine le_trans this ?_
    have : (1 / 2 ^ 537 : ℚ) ^ 2 = 1 / 2 ^ 1074 := by rw [div_pow, one_pow, ← pow_mul]
    rw [this]
  have h3 : |decimal 16 x| ≤ |x| + |decimal 16 x - x| := by
    have := abs_add_le x (decimal 16 x - x)
    rwa [add_sub_cancel] at this
  have h4 : |roundDouble (decimal 16 x) - x| ≤ |roundDouble (decimal 16 x) - decimal 16 x| + |decimal 16 x - x| :=
    abs_sub_le _ _ _
  have hx := abs_nonneg x
  have h5 : (1 / 2 ^ 53 : ℚ) * |decimal 16 x| ≤ 1 / 2 ^ 53 * ((1 + 1 / 2 * (1 / 10 ^ 15)) * |x|) := by
    refine mul_le_mul_of_nonneg_left ?_ (by positivity)
    linarith
  have h6 : (1 / 2 ^ 53 * (1 + 1 / 2 * (1 / 10 ^ 15)) + 1 / 2 * (1 / 10 ^ 15) : ℚ) ≤ 7 / 10 ^ 16 := by norm_num
  have h7 := mul_le_mul_of_nonneg_right h6 hx
  generalize (1 / 2 ^ 1074 : ℚ) = E at *
  nlinarith

/-- C77: a `double` that was read from a text of at most sixteen digits, and is not a power of two, is read back as it is. -/
theorem C77_sixteen_partial (d : ℚ) (hd : Digits 16 d) (h2 : ¬ PowerOfTwo (roundDouble d)) :
    numberOf (doublePrinter.high (fin (roundDouble d))) = some (fin (roundDouble d)) := by
  rw [C77_reads, Option.some.injEq, Dbl.fin.injEq]
  by_cases h0 : roundDouble d = 0
  · rw [h0, decimal_zero]
    exact roundSub_zero (K := ℚ) 53 (-1074)
  · exact roundSub_nearer (p := 53) (by norm_num) rfl (decimal_nearest (by norm_num) h0 hd) h2 h0

/-- C77: a `double` that is itself a number of at most sixteen digits is read back as it is. -/
theorem C77_exact (x : ℚ) (hx : roundDouble x = x) (hd : Digits 16 x) :
    numberOf (doublePrinter.high (fin x)) = some (fin x) := by
  rw [C77_reads, decimal_exact (by norm_num) hd, hx]

/-- C77: so groups of data read from texts of at most sixteen digits, powers of two excepted, are loaded from their text as they were
saved, and the searches give the same as with the groups of an archive. -/
theorem C77_search_partial [HasSqrt ℚ] [Arith ℚ] [PairwiseEvals ℚ] (rows : List (List ℚ)) (name : String) (t : ℚ) (whole : Bool) (z : GSet ℚ)
    (hz : Ready (rows.map (·.map fin)) name (fin t) whole z) (hw : ∀ gs, z.groups = some gs → gs.whole = whole)
    (dst : GSet ℚ) (Hd : Holds dst.ds (rows.map (·.map fin))) (hmax : dst.ds.maxCol = z.ds.maxCol)
    (hrows : ∀ r ∈ rows, ∀ x ∈ r, ∃ d, Digits 16 d ∧ roundDouble d = x ∧ (PowerOfTwo x → d = x))
    (old : Option (List (Lex ℚ))) [BandOps] (ratio : ℚ) (query : List (Dbl ℚ)) :
    (∃ gs gs', z.groups = some gs ∧ dst.loadOld (z.saveOld doublePrinter false old true).1 = (⟨dst.ds, some gs'⟩, .ok gs.total) ∧
      SameButCopies id z.ds dst.ds gs gs') ∧
    (dst.loadOld (z.saveOld doublePrinter false old true).1).1.getBestMatch ratio query = (dst.load z.save.1).1.getBestMatch ratio query ∧
    ∀ (v : Dbl ℚ) (A : Algos (Cand ℚ)) (B : Algos (GIdx ℚ)) (k h : Int),
      (leftover v (dst.loadOld (z.saveOld doublePrinter false old true).1).1).getKBestMatches A B ratio query k h =
        (dst.load z.save.1).1.getKBestMatches A B ratio query k h := by
  have hP : ReadsBack doublePrinter (rows.map (·.map fin)) id := by
    intro r hr x hx
    obtain ⟨r', hr', rfl⟩ := List.mem_map.1 hr
    obtain ⟨x', hx', rfl⟩ := List.mem_map.1 hx
    obtain ⟨d, h1, rfl, h3⟩ := hrows r' hr' x' hx'
    by_cases h2 : PowerOfTwo (roundDouble d)
    · have := h3 h2
      exact C77_exact _ (by rw [← this]; exact this.symm) (by rw [← this]; exact h1)
    · exact C77_sixteen_partial d h1 h2
  have hlow : numberOf (doublePrinter.low (fin t)) ≠ none := by
    rw [show doublePrinter.low (fin t) = printed 6 (fin t) from rfl, numberOf_printed]
    simp
  exact ⟨(C76_round_trip_partial _ _ _ _ z hz hw doublePrinter dst Hd hmax id hP hlow old).2,
    C76_search_partial _ _ _ _ z hz hw doublePrinter dst Hd hmax hP hlow old ratio query⟩

/-! ### Examples -/

/-- 0.1, read from its text. -/
def exTenth : ℚ := roundDouble (1 / 10)

theorem exTenth_digits : Digits 16 (1 / 10) := ⟨1, -1, by norm_num, by norm_num⟩

theorem exTenth_eq : exTenth = 3602879701896397 / 2 ^ 55 := by decide +kernel

theorem not_powerOfTwo {x : ℚ} (k : ℤ) (h1 : (2 : ℚ) ^ k < |x|) (h2 : |x| < 2 ^ (k + 1)) : ¬ PowerOfTwo x := by
  rintro ⟨j, hj⟩
  rw [hj] at h1 h2
  have a := (zpow_lt_zpow_iff_right₀ (by norm_num : (1 : ℚ) < 2)).1 h1
  have b := (zpow_lt_zpow_iff_right₀ (by norm_num : (1 : ℚ) < 2)).1 h2
  omega

theorem exTenth_notPower : ¬ PowerOfTwo exTenth := by
  rw [exTenth_eq]
  exact not_powerOfTwo (-4) (by norm_num) (by norm_num)

example := C77_reads exTenth
example := C77_error exTenth _ (C77_reads _)
example := C77_sixteen_partial (1 / 10) exTenth_digits exTenth_notPower
example := C77_exact (3 / 4) (by decide +kernel) ⟨75, -2, by norm_num, by norm_num⟩
example := C77_search_partial [[7, 2, 3], [4, 12]] _ 10 _ exGrouped.1 exGrouped_ready exGrouped_notWhole exSet exSet_holds
  (by decide +kernel) (by
    intro r hr x hx
    refine ⟨x, ?_, ?_, fun _ => rfl⟩
    · simp only [List.mem_cons, List.not_mem_nil, or_false] at hr
      rcases hr with rfl | rfl <;> simp only [List.mem_cons, List.not_mem_nil, or_false] at hx
      · rcases hx with rfl | rfl | rfl
        exacts [⟨7, 0, by norm_num, by norm_num⟩, ⟨2, 0, by norm_num, by norm_num⟩, ⟨3, 0, by norm_num, by norm_num⟩]
      · rcases hx with rfl | rfl
        exacts [⟨4, 0, by norm_num, by norm_num⟩, ⟨12, 0, by norm_num, by norm_num⟩]
    · revert r x
      decide +kernel) none (1 / 2) [fin 3, fin 2]

/-! ### What does not hold -/

/-- The sum of 0.1 and 0.2 is read back as the next smaller number, 0.3. -/
theorem C77_sum_false : ¬ ∀ x : ℚ, roundDouble x = x → numberOf (doublePrinter.high (fin x)) = some (fin x) := by
  intro h
  exact absurd (h (roundDouble (roundDouble (1 / 10) + roundDouble (2 / 10))) (by decide +kernel)) (by decide +kernel)

/-- A power of two read from fourteen digits is not. -/
theorem C77_power_false : ¬ ∀ d : ℚ, Digits 16 d →
    numberOf (doublePrinter.high (fin (roundDouble d))) = some (fin (roundDouble d)) := by
  intro h
  exact absurd (h (71362384635298 * 10 ^ (31 : ℤ)) ⟨71362384635298, 31, by norm_num, by norm_num⟩) (by decide +kernel)

end Genex.Props
