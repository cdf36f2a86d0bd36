import Verif.Lemmas.BandDouble
import Verif.Props.Traverse
import Verif.Props.Double

/-!
# C89: the warping band in the arithmetic of `double`
-/

set_option linter.unusedSectionVars false

namespace Genex.Props

open Dbl Spec Genex.Api Genex.Registry

section
local instance (priority := 2000) roundedBand : BandOps := doubleBand

theorem bandWidth_double (ratio : ℚ) (len : ℕ) (hl : len ≤ 2 ^ 26) : bandWidth ratio len = doubleWidth ratio len := by
  unfold bandWidth doubleWidth
  change min ⌊doubleMul ratio len⌋₊ _ = _
  rw [doubleMul_le hl, mul_comm]

theorem comparable_double {ratio : ℚ} {q ℓ : ℕ} (hl : max q ℓ ≤ 2 ^ 26) : Comparable ratio q ℓ ↔ ComparableDouble ratio q ℓ := by
  unfold Comparable ComparableDouble
  rw [bandWidth_double _ _ hl]

theorem dtw_double {K : Type} [Field K] [LinearOrder K] [HasSqrt K] {m : Metric} {ratio : ℚ} {a b : List K} {d : Dbl K}
    (hl : max a.length b.length ≤ 2 ^ 26) : Dtw m ratio a b d ↔ DtwIn m (dtwWidth ratio a.length b.length) a b d := by
  have : dtwBand ratio a.length b.length = dtwWidth ratio a.length b.length := by
    unfold dtwBand dtwWidth
    rw [bandWidth_double _ _ hl]
  cases m <;> simp only [Dtw, DtwIn, LeastCost, LeastIn, this]

/-! ## The width -/

/-- C89: the band is the fraction of the length, rounded to a double and then down, and at most `len - 1`. -/
theorem C89_value (ratio : ℚ) (hr : 0 ≤ ratio) (len : ℕ) (h1 : 1 ≤ len) (hl : len ≤ 2 ^ 26) :
    band ratio len = (doubleWidth ratio len : Int) := by
  rw [band_eq_bandWidth hr h1, bandWidth_double ratio len hl]

/-- C89: rounding the product makes the band the exact one or one wider. -/
theorem C89_off_by_one (ratio : ℚ) (hr : 0 ≤ ratio) (len : ℕ) (hl : len ≤ 2 ^ 26) :
    min ⌊ratio * len⌋₊ (len - 1) ≤ doubleWidth ratio len ∧ doubleWidth ratio len ≤ min ⌊ratio * len⌋₊ (len - 1) + 1 := by
  have h0 : 0 ≤ ratio * len := by positivity
  unfold doubleWidth
  by_cases hc : len - 1 ≤ ⌊ratio * (len : ℚ)⌋₊
  · have : len - 1 ≤ ⌊roundDouble (ratio * (len : ℚ))⌋₊ := by
      apply Nat.le_floor
      have := round_ge (z := (len - 1 : ℕ)) (x := ratio * len) (by rw [abs_of_nonneg (by omega)]; norm_num; omega)
        (by have := (Nat.le_floor_iff h0).1 hc; exact_mod_cast this)
      exact_mod_cast this
    omega
  · have h1 : ⌊ratio * (len : ℚ)⌋₊ ≤ ⌊roundDouble (ratio * (len : ℚ))⌋₊ := by
      apply Nat.le_floor
      have := round_ge (z := (⌊ratio * (len : ℚ)⌋₊ : ℕ)) (x := ratio * len) (by rw [abs_of_nonneg (by omega)]; norm_num; omega)
        (by have := Nat.floor_le h0; exact_mod_cast this)
      exact_mod_cast this
    have h2 : ⌊roundDouble (ratio * (len : ℚ))⌋₊ ≤ ⌊ratio * (len : ℚ)⌋₊ + 1 := by
      have h3 := roundDouble_rounding.mono _ _ (Nat.lt_floor_add_one (ratio * (len : ℚ))).le
      have h4 := roundDouble_int (z := (⌊ratio * (len : ℚ)⌋₊ + 1 : ℕ)) (by rw [abs_of_nonneg (by omega)]; norm_num; omega)
      push_cast at h4
      rw [h4] at h3
      have := Nat.floor_le_floor h3
      rwa [Nat.floor_add_one (by positivity), Nat.floor_natCast] at this
    omega

/-- A tenth of 25 points, seven tenths of 10, and more than all of 9. -/
example : band (roundDouble (1 / 10)) 25 = 2 ∧ band (roundDouble (7 / 10)) 10 = 7 ∧ band (3 / 2) 9 = 8 := by decide +kernel
example := C89_value (roundDouble (7 / 10)) (by decide +kernel) 10 (by norm_num) (by norm_num)
example := C89_off_by_one (roundDouble (7 / 10)) (by decide +kernel) 10 (by norm_num)

/-- C89: the band is not the rounded-down fraction of the length that the stored ratio is. -/
theorem C89_exact_false : ∃ (ratio : ℚ) (len : ℕ), 0 ≤ ratio ∧ roundDouble ratio = ratio ∧ 1 ≤ len ∧
    band ratio len ≠ (min ⌊ratio * len⌋₊ (len - 1) : ℕ) :=
  ⟨roundDouble (7 / 10), 10, by decide +kernel, by decide +kernel, by decide, by decide +kernel⟩

theorem near_tenth {r : ℚ} (h1 : 1 / 10 ≤ r) (h2 : r ≤ 1 / 10 + 1 / 2 ^ 50) (len : ℕ) (hl : len ≤ 2 ^ 26) :
    doubleWidth r len = min (len / 10) (len - 1) := by
  have hlen : (len : ℚ) ≤ 2 ^ 26 := by exact_mod_cast hl
  have hlen0 : (0 : ℚ) ≤ len := by positivity
  have hdm : (len : ℚ) = 10 * (len / 10 : ℕ) + (len % 10 : ℕ) := by exact_mod_cast (Nat.div_add_mod len 10).symm
  have hmod : ((len % 10 : ℕ) : ℚ) ≤ 9 := by exact_mod_cast (by omega : len % 10 ≤ 9)
  have hmod0 : (0 : ℚ) ≤ (len % 10 : ℕ) := by positivity
  have hx1 : (len : ℚ) / 10 ≤ r * len := by nlinarith
  have hx2 : r * len ≤ len / 10 + 1 / 2 ^ 24 := by
    have := mul_le_mul_of_nonneg_right h2 hlen0
    have : (1 / 2 ^ 50 : ℚ) * len ≤ 1 / 2 ^ 50 * 2 ^ 26 := mul_le_mul_of_nonneg_left hlen (by positivity)
    have e : (1 / 2 ^ 50 : ℚ) * 2 ^ 26 = 1 / 2 ^ 24 := by norm_num
    linarith
  unfold doubleWidth
  congr 1
  rw [Nat.floor_eq_iff (round_nonneg (by positivity))]
  constructor
  · have := round_ge (z := (len / 10 : ℕ)) (x := r * len) (by rw [abs_of_nonneg (by omega)]; norm_num; omega)
      (by rw [Int.cast_natCast]; linarith)
    exact_mod_cast this
  · have herr := (roundDouble_ops (K := ℚ)).err (r * len)
    rw [abs_of_nonneg (show 0 ≤ r * len by positivity)] at herr
    have h3 := (abs_le.1 herr).2
    have h4 : r * len ≤ 2 ^ 26 := by
      have : (len : ℚ) / 10 + 1 / 2 ^ 24 ≤ 2 ^ 26 := by
        have : (1 : ℚ) / 2 ^ 24 ≤ 1 := by norm_num
        have : (2 : ℚ) ^ 26 / 10 + 1 ≤ 2 ^ 26 := by norm_num
        linarith
      linarith
    have h5 : (1 / 2 ^ 53 : ℚ) * (r * len) ≤ 1 / 2 ^ 53 * 2 ^ 26 := mul_le_mul_of_nonneg_left h4 (by positivity)
    have h6 : (1 / 2 ^ 53 : ℚ) * 2 ^ 26 + 1 / 100 + 1 / 2 ^ 24 < 1 / 10 := by norm_num
    have h7 : ((1 : ℚ) / 2 ^ 537) ^ 2 ≤ 1 / 100 := by
      have a1 : (1 : ℚ) / 2 ^ 537 ≤ 1 / 2 ^ 4 := one_div_le_one_div_of_le (by positivity) (pow_le_pow_right₀ (by norm_num) (by norm_num))
      have a2 : (0 : ℚ) ≤ 1 / 2 ^ 537 := by positivity
      have := pow_le_pow_left₀ a2 a1 2
      exact _root_.le_trans this (by norm_num)
    linarith

/-- C89: the band that is set at the start, the double nearest to a tenth, is exactly a tenth of the length, rounded down (and so is that of
the ratio `1 / 10` which the model starts with). -/
theorem C89_tenth (len : ℕ) (hl : len ≤ 2 ^ 26) :
    doubleWidth (roundDouble (1 / 10)) len = min (len / 10) (len - 1) ∧ doubleWidth (1 / 10) len = min (len / 10) (len - 1) ∧
      min ⌊(1 / 10 : ℚ) * len⌋₊ (len - 1) = min (len / 10) (len - 1) := by
  refine ⟨near_tenth (by decide +kernel) (by decide +kernel) len hl, near_tenth le_rfl (by norm_num) len hl, ?_⟩
  have hdm : (len : ℚ) = 10 * (len / 10 : ℕ) + (len % 10 : ℕ) := by exact_mod_cast (Nat.div_add_mod len 10).symm
  have hmod : ((len % 10 : ℕ) : ℚ) ≤ 9 := by exact_mod_cast (by omega : len % 10 ≤ 9)
  have hmod0 : (0 : ℚ) ≤ (len % 10 : ℕ) := by positivity
  congr 1
  rw [Nat.floor_eq_iff (by positivity)]
  constructor <;> linarith

example : doubleWidth (roundDouble (1 / 10)) 25 = 2 ∧ roundDouble (1 / 10 : ℚ) ≠ 1 / 10 := by decide +kernel
example := C89_tenth 25 (by norm_num)

/-- C89: it grows with the length, by at most one from one length to the next.
Missing: lengths from `2 ^ 26` on, where it can be false, see `C89_grows_false`. -/
theorem C89_grows_partial (ratio : ℚ) (hr : 0 ≤ ratio) (len : ℕ) (h1 : 1 ≤ len) (hl : len < 2 ^ 26) :
    doubleWidth ratio len ≤ doubleWidth ratio (len + 1) ∧ doubleWidth ratio (len + 1) ≤ doubleWidth ratio len + 1 := by
  rw [← bandWidth_double ratio len (by omega), ← bandWidth_double ratio (len + 1) (by omega)]
  refine ⟨?_, band_step hr len h1⟩
  have := C16_mono ratio hr len (len + 1) h1 (by omega)
  rw [band_eq_bandWidth hr h1, band_eq_bandWidth hr (by omega)] at this
  omega

example := C89_grows_partial (roundDouble (7 / 10)) (by decide +kernel) 9 (by norm_num) (by norm_num)
example : doubleWidth (roundDouble (7 / 10)) 9 = 6 ∧ doubleWidth (roundDouble (7 / 10)) 10 = 7 := by decide +kernel

/-- C89: of very long series it can grow by two. -/
theorem C89_grows_false : ∃ (ratio : ℚ) (len : ℕ), 0 ≤ ratio ∧ ratio < 1 ∧ roundDouble ratio = ratio ∧ 1 ≤ len ∧ len < 2 ^ 31 - 1 ∧
    doubleWidth ratio (len + 1) = doubleWidth ratio len + 2 :=
  ⟨1 - 150994942 / 2 ^ 53, 536870921, by decide +kernel, by decide +kernel, by decide +kernel, by decide, by decide, by decide +kernel⟩

/-! ## The conversion to `int` -/

/-- C89: the conversion of the product to `int` is defined if the product fits.
Missing: greater products, where it is not, see `C89_converts_false`. -/
theorem C89_converts_partial (ratio : ℚ) (hr : 0 ≤ ratio) (len : ℕ) (hl : len ≤ 2 ^ 26) (h : ratio * len ≤ 2 ^ 31 - 1) :
    bandInt ratio len = .ok (band ratio len) := by
  have h1 : ⌊doubleMul ratio len⌋ ≤ 2 ^ 31 - 1 := by
    rw [doubleMul_le hl, mul_comm]
    have h3 := roundDouble_rounding.mono _ _ h
    have h4 := roundDouble_int (z := 2 ^ 31 - 1) (by norm_num)
    push_cast at h4
    rw [show (2 : ℚ) ^ 31 - 1 = 2147483647 by norm_num] at h3
    rw [h4] at h3
    have := Int.floor_le_floor h3
    norm_num at this ⊢
    exact this
  have h2 : 0 ≤ ⌊doubleMul ratio len⌋ := Int.floor_nonneg.2 (BandOps.nonneg ratio len hr)
  unfold bandInt
  rw [if_pos ⟨le_trans (by norm_num) h2, by change ⌊doubleMul ratio len⌋ < _; omega⟩]
  rfl

/-- C89: beyond that it is undefined. -/
theorem C89_converts_false (ratio : ℚ) (len : ℕ) (hl : len ≤ 2 ^ 26) (h : 2 ^ 31 ≤ ratio * len) :
    ∃ w, bandInt ratio len = .error (.ub w) := by
  have h1 : 2 ^ 31 ≤ ⌊doubleMul ratio len⌋ := by
    rw [doubleMul_le hl, mul_comm, Int.le_floor]
    exact round_ge (by norm_num) (by exact_mod_cast h)
  unfold bandInt
  rw [if_neg (fun hc => by have : ⌊doubleMul ratio len⌋ < 2 ^ 31 := hc.2; omega)]
  exact ⟨_, rfl⟩

example := C89_converts_partial (3 / 2) (by norm_num) 1000 (by norm_num) (by norm_num)
example : bandInt (3 / 2) 1000 = .ok 999 := by decide +kernel
/-- A ratio that means "all of it" to its author. -/
example := C89_converts_false (10 ^ 9) 3 (by norm_num) (by norm_num)

/-! ## What the searches make of it -/

/-- C89: the traversal names exactly the lengths that differ from the query's by at most the band of the longer.
Missing: lengths beyond `2 ^ 26`, see `C89_grows_false`. -/
theorem C89_traverse_partial (ratio : ℚ) (hr : 0 ≤ ratio) (q N : ℕ) (h1 : 1 ≤ q) (hq : q ≤ N) (hN : N ≤ 2 ^ 26) :
    ∃ l : List Int, generateTraverseOrder ratio q N = .ok l ∧ l.head? = some (q : Int) ∧ l.Nodup ∧
      (∀ x ∈ l, x = (q : Int) ∨ (2 ≤ x ∧ x ≤ N)) ∧
      ∀ x : ℕ, 2 ≤ x → x ≤ N → ((x : Int) ∈ l ↔ ComparableDouble ratio q x) := by
  obtain ⟨l, h2, h3, h4, h5, h6⟩ := C15_traverse ratio hr q N h1 hq
  refine ⟨l, h2, h3, h4, h5, fun x hx hxN => ?_⟩
  rw [h6 x hx hxN, bandWidth_double ratio _ (by omega)]
  rfl

example := C89_traverse_partial (roundDouble (7 / 10)) (by decide +kernel) 3 10 (by norm_num) (by norm_num) (by norm_num)
/-- Length 10 is comparable to 3 only because the band is rounded up. -/
example : generateTraverseOrder (roundDouble (7 / 10)) 3 10 = .ok [3, 2, 4, 5, 6, 7, 8, 9, 10] := by decide +kernel
example : @generateTraverseOrder exactBand (roundDouble (7 / 10)) 3 10 = .ok [3, 2, 4, 5, 6, 7, 8, 9] := by decide +kernel

/-- C89: the warped distance is the least cost of an alignment in that band, and infinity iff there is none. -/
theorem C89_dtw {K : Type} [Field K] [LinearOrder K] [IsStrictOrderedRing K] [HasSqrt K] (m : Metric) (hm : m ≠ .sorensen ∧ m ≠ .cosine)
    (hs : m = .euclidean → LawfulSqrt K) (ratio : ℚ) (hr : 0 ≤ ratio) (a b : List K) (ha : 2 ≤ a.length) (hb : 2 ≤ b.length)
    (hl : max a.length b.length ≤ 2 ^ 26) :
    ∃ d, warpedValue (m.dm K) ratio (a.map fin) (b.map fin) .inf = .ok d ∧
      DtwIn m (doubleWidth ratio (max a.length b.length)) a b d := by
  have key : ∀ (M : DM K) V, IsBandedOptimum M ratio a b V → ∃ d, warpedValue M ratio (a.map fin) (b.map fin) .inf = .ok d ∧
      LeastIn (doubleWidth ratio (max a.length b.length)) a b V d := by
    intro M V hV
    unfold LeastIn
    rw [← bandWidth_double ratio _ hl]
    rcases hV with ⟨-, x, h1, h2⟩ | ⟨h1, h2⟩
    · exact ⟨_, h1, .inl ⟨x, rfl, h2⟩⟩
    · exact ⟨_, h2, .inr ⟨rfl, Set.not_nonempty_iff_eq_empty.1 h1⟩⟩
  cases m with
  | euclidean => have := hs rfl; exact key _ _ (C01_euclidean_dtw ratio hr a b ha hb)
  | manhattan => exact key _ _ (C01_manhattan_dtw ratio hr a b ha hb)
  | chebyshev => exact key _ _ (C01_chebyshev_dtw ratio hr a b ha hb)
  | sorensen => exact absurd rfl hm.1
  | cosine => exact absurd rfl hm.2

noncomputable example := C89_dtw (K := ℝ) .euclidean (by simp) (fun _ => inferInstance) (roundDouble (7 / 10)) (by decide +kernel) [0, 5, 1] [0, 0, 5, 2]
  (by simp) (by simp) (by norm_num)
example : warpedValue (manhattan ℚ) (roundDouble (7 / 10)) ([0, 1, 2].map fin) ([0, 0, 0, 0, 0, 0, 0, 0, 1, 2].map fin) .inf = .ok (fin 0) ∧
    @warpedValue ℚ _ _ (manhattan ℚ) exactBand (roundDouble (7 / 10)) ([0, 1, 2].map fin) ([0, 0, 0, 0, 0, 0, 0, 0, 1, 2].map fin) .inf =
      .ok .inf := by decide +kernel

section

variable {K : Type} [Field K] [LinearOrder K] [IsStrictOrderedRing K] [FloorRing K] [HasSqrt K] [A : Arith K] {E : Env K} {s : Api K}
  {name : String} {R W : ℕ} {file rows : List (List K)} (hA : A = doubleArith) (hf : Sized roundDouble (2 ^ 480) file) (hRW : R * W ≤ 2 ^ 52)

include hA hf hRW

theorem rows_short {distance : String} {t : Dbl K} {whole : Bool}
    (hg : GroupedOn E (Serves E roundDouble name R W file rows) name distance t whole s) {ℓ i p : ℕ} {y : List K}
    (hy : SubOf rows ℓ i p y) : y.length = ℓ ∧ ℓ ≤ W := by
  obtain ⟨start, -, -, -⟩ := hg
  obtain ⟨-, -, g, -, H, -, hW, -⟩ := serves_double hA hf hRW start
  obtain ⟨r, h1, h2, h3⟩ := hy
  have := H.fits i (r.map fin) (by rw [List.getElem?_map, h1]; rfl)
  rw [List.length_map] at this
  subst h3
  constructor
  · rw [List.length_take, List.length_drop]; omega
  · omega

/-- C89: `C88_best` with the band computed in double arithmetic too: the answer of `getBestMatch` is a part of a line of the file, or of the
normalised data, of a length comparable in that band, with its DTW distance in that band up to the error.
Missing: lengths beyond `2 ^ 26`. -/
theorem C89_best_partial (m : Metric) (hm : m ≠ .sorensen ∧ m ≠ .cosine) (hs : m = .euclidean → LawfulSqrt K) (t : Dbl K) (whole : Bool)
    (hg : GroupedOn E (Serves E roundDouble name R W file rows) name (metricName m) t whole s) (hr : 0 ≤ s.ratio)
    (qname : String) (index start stop : Int) (q : List K) (hq : Query E s qname index start stop q) (hqs : Sized roundDouble (2 ^ 480) [q])
    (hlen : q.length ≤ 2 ^ 26) (hW : W ≤ 2 ^ 26)
    (e : K) (he : 12 * ((q.length : K) + W) ≤ e * 2 ^ 53) (he1 : e ≤ 1) (s' : Api K) (c : Cand K)
    (hc : s.exec E (.bestMatch name qname index start stop) = (s', .ret (.ok (.cand c)))) :
    s' = s ∧ ∃ i p ℓ y x D, Names c i p ℓ ∧ SubOf rows ℓ i p y ∧ ComparableDouble s.ratio q.length ℓ ∧ c.dist = fin x ∧
      DtwIn m (dtwWidth s.ratio q.length ℓ) q y (fin D) ∧ |x - D| ≤ e * D + 4 * (1 / 2 ^ 537) := by
  obtain ⟨h0, i, p, ℓ, y, x, D, h1, h2, h3, h4, h5, h6, -⟩ := C88_best hA hf hRW m hm hs t whole hg hr qname index start stop q hq hqs e he he1 s' c hc
  obtain ⟨rfl, hℓ⟩ := rows_short hA hf hRW hg h2
  exact ⟨h0, i, p, _, y, x, D, h1, h2, (comparable_double (by omega)).1 h3, h4, (dtw_double (by omega)).1 h5, h6⟩

/-- C89: `C88_near` with the band computed in double arithmetic too: no part of a comparable length is nearer by more than the threshold
allows, up to the error.
Missing: lengths beyond `2 ^ 26`. -/
theorem C89_near_partial (m : Metric) (hm : m = .euclidean ∨ m = .chebyshev) (hs : m = .euclidean → LawfulSqrt K) (τ : K) (hτ : 0 ≤ τ)
    (hg : GroupedOn E (Serves E roundDouble name R W file rows) name (metricName m) (fin τ) false s) (hr : 0 ≤ s.ratio)
    (qname : String) (index start stop : Int) (q : List K) (hq : Query E s qname index start stop q) (hqs : Sized roundDouble (2 ^ 480) [q])
    (hlen : q.length ≤ 2 ^ 26) (hW : W ≤ 2 ^ 26)
    (e : K) (he : 12 * ((q.length : K) + W) ≤ e * 2 ^ 53) (he1 : e < 1) (s' : Api K) (c : Cand K)
    (hc : s.exec E (.bestMatch name qname index start stop) = (s', .ret (.ok (.cand c))))
    (ℓ i p : ℕ) (y : List K) (h2 : 2 ≤ ℓ) (hy : SubOf rows ℓ i p y) (hcom : ComparableDouble s.ratio q.length ℓ) (x : K)
    (hx : DtwIn m (dtwWidth s.ratio q.length ℓ) q y (fin x)) :
    ∃ i' p' ℓ' y' D, Names c i' p' ℓ' ∧ SubOf rows ℓ' i' p' y' ∧ DtwIn m (dtwWidth s.ratio q.length ℓ') q y' (fin D) ∧
      (1 - e) ^ 2 * D ≤ (1 + e) ^ 2 * (x + (τ + 8 * (1 / 2 ^ 537)) / ((if m = .euclidean then 4 else 2) * (1 - e))) + 16 * (1 / 2 ^ 537) := by
  obtain ⟨rfl, hℓ⟩ := rows_short hA hf hRW hg hy
  obtain ⟨i', p', ℓ', y', D, h1, h2, h3, h4⟩ := C88_near hA hf hRW m hm hs τ hτ hg hr qname index start stop q hq hqs e he he1 s' c hc
    _ i p y h2 hy ((comparable_double (by omega)).2 hcom) x ((dtw_double (by omega)).2 hx)
  obtain ⟨rfl, hℓ'⟩ := rows_short hA hf hRW hg h2
  exact ⟨i', p', _, y', D, h1, h2, (dtw_double (by omega)).1 h3, h4⟩

end

local instance (priority := 2000) : Arith ℚ := doubleArith

example (s' : Api ℚ) (c : Cand ℚ) := C89_best_partial rfl exRawD_sized (by norm_num) .chebyshev (by decide) (by simp) _ _ exServedD_grouped
  (by decide +kernel) _ _ _ _ _ exQueryD_ok.1 exQueryD_ok.2 (by decide) (by decide) (1 / 10 ^ 14) exErrorD (by norm_num) s' c
example (s' : Api ℚ) (c : Cand ℚ) := C89_near_partial rfl exRawD_sized (by norm_num) .chebyshev (by decide) (by simp) _ (by norm_num)
  exServedD_grouped (by decide +kernel) _ _ _ _ _ exQueryD_ok.1 exQueryD_ok.2 (by decide) (by decide) (1 / 10 ^ 14) exErrorD (by norm_num) s' c

end

end Genex.Props
