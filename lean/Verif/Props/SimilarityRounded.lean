import Verif.Lemmas.CosineRounded
import Verif.Lemmas.Exact
import Verif.Lemmas.Float
import Verif.Model.Overflow
import Verif.Props.Dtw

/-!
# C100: the sorensen and the cosine distance in floating point

How far the values the code computes are from those of C99.  `u` and `θ` are as in C73; for `double` they are `2 ^ -53` and `2 ^ -537`.
-/

set_option linter.unusedSectionVars false

namespace Genex.Props

open Dbl Spec

section

variable {K : Type} [Field K] [LinearOrder K] [IsStrictOrderedRing K] {rd : K → K} {u θ : K}

/-- C100, sorensen: on data without negative values, not all of them zero, the value is finite, lies between 0 and 1, is exactly symmetric, is
exactly 0 for equal series, and differs from Sorensen's dissimilarity by a relative error of at most `6 (n + 1) u`, apart from underflow. -/
theorem C100_sorensen (hp : FloatOps rd u θ) (h1 : rd 1 = 1) (a b : List K) (hl : a.length = b.length) (fa : Floats rd a) (fb : Floats rd b)
    (ha : ∀ x ∈ a, 0 ≤ x) (hb : ∀ x ∈ b, 0 ≤ x) (h0 : 0 < a.sum + b.sum) (hn : 4 * (((a.length + 1 : ℕ) : K) * u) ≤ 1) :
    ∃ v, pairwiseDistance (sorensenR rd) (a.map fin) (b.map fin) .inf = .ok (fin v) ∧
      pairwiseDistance (sorensenR rd) (b.map fin) (a.map fin) .inf = .ok (fin v) ∧ 0 ≤ v ∧ v ≤ 1 ∧ (a = b → v = 0) ∧
      |v - sorensenOf a b| ≤ 6 * (((a.length + 1 : ℕ) : K) * u) * sorensenOf a b + θ ^ 2 := by
  have hrd := hp.toRounding
  have e1 : ((a.zip b).map fun c => |c.1 - c.2|).sum = (List.zipWith (fun x y => |x - y|) a b).sum := by
    rw [List.zip, List.map_zipWith]
  have e2 : ((a.zip b).map fun c => |c.1 + c.2|).sum = a.sum + b.sum := by
    rw [List.zip, List.map_zipWith, zipWith_add_sum hl ha hb]
  have hz : (a.zip b).length = a.length := by simp [hl]
  have hm : ∀ c ∈ a.zip b, c.1 ∈ a ∧ c.2 ∈ b := fun c hc => List.of_mem_zip hc
  obtain ⟨k1, k2⟩ := quotR_error hp (a.zip b) (fun c hc => ⟨fa _ (hm c hc).1, fb _ (hm c hc).2⟩) (by rw [e2]; exact h0) (by rw [hz]; exact hn)
  rw [e1, e2, hz] at k2
  have n0 := numR_nonneg hrd (a.zip b)
  have nd := numR_le_denR hrd (l := a.zip b) (fun c hc => ⟨ha _ (hm c hc).1, hb _ (hm c hc).2⟩)
  refine ⟨rd (numR rd (a.zip b) / denR rd (a.zip b)), ?_, ?_, hrd.nonneg (div_nonneg n0 (le_of_lt k1)), ?_, ?_, k2⟩
  · rw [pairwise_sorensenR a b hl, fin_div_fin (ne_of_gt k1)]; rfl
  · have es : b.zip a = (a.zip b).map Prod.swap := (List.zip_swap a b).symm
    rw [pairwise_sorensenR b a hl.symm, es, numR_swap hrd, denR_swap, fin_div_fin (ne_of_gt k1)]; rfl
  · rw [← h1]
    exact hrd.mono _ _ ((div_le_one k1).2 nd)
  · rintro rfl
    have hs : ∀ c ∈ a.zip a, c.1 = c.2 := by
      intro c hc
      rw [List.mem_iff_getElem] at hc
      obtain ⟨i, hi, rfl⟩ := hc
      simp
    rw [numR_same hrd hs, zero_div, hrd.zero]

/-- C100, sorensen_dtw: on positive data the value lies between 0 and 1 and is, up to the error, Sorensen's dissimilarity along an alignment
in the band; infinity if there is none.  Missing: that alignment is not always the best one, not even without rounding (`C99_least_false`). -/
theorem C100_sorensen_dtw_partial [BandOps] (hp : FloatOps rd u θ) (h1 : rd 1 = 1) (ratio : ℚ) (hr : 0 ≤ ratio) (a b : List K)
    (ha : 1 ≤ a.length) (hb : 1 ≤ b.length) (fa : Floats rd a) (fb : Floats rd b) (pa : ∀ x ∈ a, 0 < x) (pb : ∀ x ∈ b, 0 < x)
    (hn : 4 * (((a.length + b.length : ℕ) : K) * u) ≤ 1) :
    ∃ d, warpedValue (sorensenR rd) ratio (a.map fin) (b.map fin) .inf = .ok d ∧
      ((∃ x, d = fin x ∧ 0 ≤ x ∧ x ≤ 1 ∧ ∃ p, Alignment a.length b.length p ∧ InBand (dtwBand ratio a.length b.length) p ∧
          |x - sorensenAlong a b p| ≤ 6 * (((a.length + b.length : ℕ) : K) * u) * sorensenAlong a b p + θ ^ 2) ∨
        (d = .inf ∧ ¬ ∃ p, Alignment a.length b.length p ∧ InBand (dtwBand ratio a.length b.length) p)) := by
  have hrd := hp.toRounding
  have hu := hp.u_nonneg
  have hu1 : u < 1 := by
    have : (1 : K) ≤ ((a.length + b.length : ℕ) : K) := by exact_mod_cast (by omega : 1 ≤ a.length + b.length)
    have := le_mul_of_one_le_left hu this
    linarith
  have hD : InDom a b (safeSorensenR hp hu1 (m := a.length) (n := b.length)) := fun i j hi hj => by
    refine ⟨⟨pa _ ?_, fa.getD hrd _⟩, pb _ ?_, fb.getD hrd _⟩ <;>
      rw [List.getD_eq_getElem?_getD, List.getElem?_eq_getElem (by assumption), Option.getD_some] <;> exact List.getElem_mem _
  rcases warped_attain_safe _ hD (band_eq_bandWidth hr (by omega)) ha hb with ⟨p, g1, g2, g3⟩ | ⟨g1, g2⟩
  · refine ⟨_, g3, Or.inl ⟨_, rfl, ?_⟩⟩
    have e := pathAcc_sorensenR (rd := rd) a b p
    rw [e]
    change 0 ≤ rd (numR rd (meet a b p) / denR rd (meet a b p)) ∧ rd (numR rd (meet a b p) / denR rd (meet a b p)) ≤ 1 ∧ _
    have hmem : ∀ c ∈ meet a b p, (0 ≤ c.1 ∧ 0 ≤ c.2) ∧ rd c.1 = c.1 ∧ rd c.2 = c.2 := by
      intro c hc
      obtain ⟨d, -, rfl⟩ := List.mem_map.1 hc
      exact ⟨⟨getD_nonneg' pa _, getD_nonneg' pb _⟩, fa.getD hrd _, fb.getD hrd _⟩
    have hal := alignment_iff.2 g1
    have e1 : ((meet a b p).map fun c => |c.1 - c.2|).sum = (p.map fun c => |a.getD c.1 0 - b.getD c.2 0|).sum := by
      simp [meet, Function.comp_def]
    have e2 : ((meet a b p).map fun c => |c.1 + c.2|).sum = (p.map fun c => a.getD c.1 0 + b.getD c.2 0).sum := by
      have : ∀ c : ℕ × ℕ, |a.getD c.1 0 + b.getD c.2 0| = a.getD c.1 0 + b.getD c.2 0 := fun c =>
        abs_of_nonneg (add_nonneg (getD_nonneg' pa _) (getD_nonneg' pb _))
      simp only [meet, List.map_map, Function.comp_def, this]
    have hpos : 0 < (p.map fun c => a.getD c.1 0 + b.getD c.2 0).sum := by
      refine List.sum_pos _ ?_ ?_
      · intro x hx
        obtain ⟨c, hc, rfl⟩ := List.mem_map.1 hx
        have hb' := g1.bound c hc
        refine add_pos (pa _ ?_) (pb _ ?_) <;>
          rw [List.getD_eq_getElem?_getD, List.getElem?_eq_getElem (by omega), Option.getD_some] <;> exact List.getElem_mem _
      · intro h
        rw [List.map_eq_nil_iff] at h
        subst h
        exact absurd hal.1 (by simp)
    have hlen : (meet a b p).length + 1 ≤ a.length + b.length := by
      have := g1.length_le
      simp only [meet, List.length_map]
      omega
    have hcast : (((meet a b p).length + 1 : ℕ) : K) * u ≤ ((a.length + b.length : ℕ) : K) * u :=
      mul_le_mul_of_nonneg_right (by exact_mod_cast hlen) hu
    obtain ⟨k1, k2⟩ := quotR_error hp (meet a b p) (fun c hc => (hmem c hc).2) (by rw [e2]; exact hpos) (by linarith)
    have n0 := numR_nonneg hrd (meet a b p)
    have nd := numR_le_denR hrd (fun c hc => (hmem c hc).1)
    refine ⟨hrd.nonneg (div_nonneg n0 (le_of_lt k1)), ?_, p, hal, (allowed_dtwBand ha hb hal).1 g2, ?_⟩
    · rw [← h1]
      exact hrd.mono _ _ ((div_le_one k1).2 nd)
    · rw [e1, e2] at k2
      refine le_trans k2 (add_le_add (mul_le_mul_of_nonneg_right (by linarith) ?_) (le_refl _))
      refine div_nonneg (List.sum_nonneg fun x hx => ?_) (le_of_lt hpos)
      obtain ⟨c, -, rfl⟩ := List.mem_map.1 hx
      exact abs_nonneg _
  · refine ⟨_, g1, Or.inr ⟨rfl, ?_⟩⟩
    rintro ⟨p, k1, k2⟩
    exact g2 ⟨p, alignment_iff.1 k1, (allowed_dtwBand ha hb k1).2 k2⟩

/-! ## Cosine -/

variable [HasSqrt K] [LawfulSqrt K]

/-- C100, cosine: if the sums of squares are not so small that underflow matters, the value is finite and within `22 (n + 1) u` of the cosine.
Missing: it can be larger than 1 (`C100_range_false`), and with underflow it is NaN (`C100_underflow_false`). -/
theorem C100_cosine_partial (hp : FloatOps rd u θ) (a b : List K) (hl : a.length = b.length) (ha : ∃ x ∈ a, x ≠ 0) (hb : ∃ x ∈ b, x ≠ 0)
    (ta : θ ≤ u * dot a a) (tb : θ ≤ u * dot b b) (hn : 60 * (((a.length + 1 : ℕ) : K) * u) ≤ 1) :
    ∃ v, pairwiseDistance (cosineR rd) (a.map fin) (b.map fin) .inf = .ok (fin v) ∧
      |v - cosineOf a b| ≤ 22 * (((a.length + 1 : ℕ) : K) * u) := by
  have f1 : (a.zip b).map Prod.fst = a := List.map_fst_zip (le_of_eq hl)
  have f2 : (a.zip b).map Prod.snd = b := List.map_snd_zip (le_of_eq hl.symm)
  have hz : (a.zip b).length = a.length := by simp [hl]
  have h := cosR_error hp (a.zip b) (w := ((a.length + 1 : ℕ) : K) * u) (by rw [hz]) hn (by rw [f1]; exact dot_self_pos ha)
    (by rw [f2]; exact dot_self_pos hb) (by rw [f1]; exact ta) (by rw [f2]; exact tb)
  have k := pairwise_cosineR (rd := rd) (a.zip b)
  rw [f1, f2] at h k
  obtain ⟨h1, h2, h3⟩ := h
  refine ⟨_, ?_, h3⟩
  rw [k, fin_mul_fin, rnd_fin, sqrt_fin (le_of_lt h1), rnd_fin, fin_div_fin (ne_of_gt h2)]
  rfl

/-- C100, cosine_dtw: if no square of a point is so small that underflow matters, the value is within `22 (m + n) u` of the cosine of the two
series with points repeated along some alignment in the band; infinity if there is none.  Missing: which alignment, as in C99. -/
theorem C100_cosine_dtw_partial [BandOps] (hp : FloatOps rd u θ) (ratio : ℚ) (hr : 0 ≤ ratio) (a b : List K)
    (ha : 1 ≤ a.length) (hb : 1 ≤ b.length) (pa : ∀ x ∈ a, x ≠ 0 ∧ θ ≤ u * (x * x)) (pb : ∀ x ∈ b, x ≠ 0 ∧ θ ≤ u * (x * x))
    (hn : 60 * (((a.length + b.length : ℕ) : K) * u) ≤ 1) :
    ∃ d, warpedValue (cosineR rd) ratio (a.map fin) (b.map fin) .inf = .ok d ∧
      ((∃ x, d = fin x ∧ ∃ p, Alignment a.length b.length p ∧ InBand (dtwBand ratio a.length b.length) p ∧
          |x - cosineAlong a b p| ≤ 22 * (((a.length + b.length : ℕ) : K) * u)) ∨
        (d = .inf ∧ ¬ ∃ p, Alignment a.length b.length p ∧ InBand (dtwBand ratio a.length b.length) p)) := by
  have hu := hp.u_nonneg
  have hu1 : 8 * u ≤ 1 := by
    have : (1 : K) ≤ ((a.length + b.length : ℕ) : K) := by exact_mod_cast (by omega : 1 ≤ a.length + b.length)
    have := le_mul_of_one_le_left hu this
    linarith
  have getA : ∀ i, i < a.length → a.getD i 0 ∈ a := fun i hi => by
    rw [List.getD_eq_getElem?_getD, List.getElem?_eq_getElem hi, Option.getD_some]; exact List.getElem_mem _
  have getB : ∀ i, i < b.length → b.getD i 0 ∈ b := fun i hi => by
    rw [List.getD_eq_getElem?_getD, List.getElem?_eq_getElem hi, Option.getD_some]; exact List.getElem_mem _
  have hD : InDom a b (safeCosineR hp hu1 (m := a.length) (n := b.length)) := fun i j hi hj => ⟨pa _ (getA i hi), pb _ (getB j hj)⟩
  rcases warped_attain_safe _ hD (band_eq_bandWidth hr (by omega)) ha hb with ⟨p, g1, g2, g3⟩ | ⟨g1, g2⟩
  · have hal := alignment_iff.2 g1
    refine ⟨_, g3, Or.inl ⟨_, rfl, p, hal, (allowed_dtwBand ha hb hal).1 g2, ?_⟩⟩
    have e := pathAcc_cosineR (rd := rd) a b p
    rw [e]
    have m1 : (meet a b p).map Prod.fst = p.map fun c => a.getD c.1 0 := by simp [meet, Function.comp_def]
    have m2 : (meet a b p).map Prod.snd = p.map fun c => b.getD c.2 0 := by simp [meet, Function.comp_def]
    have hlen : (meet a b p).length + 1 ≤ a.length + b.length := by
      have := g1.length_le
      simp only [meet, List.length_map]
      omega
    have hh : (0, 0) ∈ p := List.mem_of_mem_head? (by rw [hal.1]; rfl)
    have big : ∀ (l : List K) (x : K), x ∈ l → x * x ≤ dot l l := by
      intro l x hx
      induction l with
      | nil => simp at hx
      | cons y ys ih =>
        have e : dot (y :: ys) (y :: ys) = y * y + dot ys ys := by simp [dot]
        rw [e]
        rcases List.mem_cons.1 hx with rfl | hx
        · exact le_add_of_nonneg_right (dot_self_nonneg _)
        · exact le_trans (ih hx) (le_add_of_nonneg_left (mul_self_nonneg _))
    have x1 := pa _ (getA 0 ha)
    have x2 := pb _ (getB 0 hb)
    have i1 : a.getD 0 0 ∈ p.map fun c => a.getD c.1 0 := List.mem_map.2 ⟨(0, 0), hh, rfl⟩
    have i2 : b.getD 0 0 ∈ p.map fun c => b.getD c.2 0 := List.mem_map.2 ⟨(0, 0), hh, rfl⟩
    have h := cosR_error hp (meet a b p) (w := ((a.length + b.length : ℕ) : K) * u) (mul_le_mul_of_nonneg_right (by exact_mod_cast hlen) hu) hn
      (by rw [m1]; exact dot_self_pos ⟨_, i1, x1.1⟩) (by rw [m2]; exact dot_self_pos ⟨_, i2, x2.1⟩)
      (by rw [m1]; exact le_trans x1.2 (mul_le_mul_of_nonneg_left (big _ _ i1) hu))
      (by rw [m2]; exact le_trans x2.2 (mul_le_mul_of_nonneg_left (big _ _ i2) hu))
    rw [m1, m2] at h
    exact h.2.2
  · refine ⟨_, g1, Or.inr ⟨rfl, ?_⟩⟩
    rintro ⟨p, k1, k2⟩
    exact g2 ⟨p, alignment_iff.1 k1, (allowed_dtwBand ha hb k1).2 k2⟩

end

/-- C100: in `double`, the cosine of two series can be larger than 1.  The root that is taken is that of 1. -/
theorem C100_range_false : ∃ (a b : List ℚ) (x : ℚ), Floats roundDouble a ∧ Floats roundDouble b ∧
    pairwiseDistance (cosineR roundDouble) (a.map fin) (b.map fin) .inf = .ok (fin x) ∧ 1 < x :=
  ⟨[7225758167893481 / 9007199254740992, 5377551237666391 / 9007199254740992],
    [3612879083946741 / 4503599627370496, 2688775618833195 / 4503599627370496], 1 + 1 / 2 ^ 52,
    by decide +kernel, by decide +kernel, by decide +kernel, by decide +kernel⟩

/-- C100: in `double`, the cosine of two small nonzero series is NaN. -/
theorem C100_underflow_false : ∃ a : List ℚ, Floats roundDouble a ∧ (∀ x ∈ a, x ≠ 0) ∧
    pairwiseDistance (cosineR roundDouble) (a.map fin) (a.map fin) .inf = .ok .nan :=
  ⟨[1 / 2 ^ 600], by decide +kernel, by decide +kernel, by decide +kernel⟩

/-- C100: with overflow, sorensen of large series is NaN. -/
theorem C100_overflow_false : ∃ a b : List ℚ, Floats roundDouble a ∧ Floats roundDouble b ∧ (∀ x ∈ a, 0 ≤ x ∧ x ≤ maxDouble) ∧
    (∀ x ∈ b, 0 ≤ x ∧ x ≤ maxDouble) ∧ sorensenOf a b = 1 ∧
    pairwiseDistance (sorensenW (rndMax roundDouble maxDouble)) (a.map fin) (b.map fin) .inf = .ok .nan :=
  ⟨[maxDouble, maxDouble], [0, 0], by decide +kernel, by decide +kernel, by decide +kernel, by decide +kernel, by decide +kernel,
    by decide +kernel⟩

/-! ## Concrete cases -/

example := C100_sorensen (roundDouble_ops (K := ℚ)) (by decide +kernel) [1, 2, roundDouble (1 / 10)] [3, 0, roundDouble (1 / 3)] (by simp)
  (by decide +kernel) (by decide +kernel) (by decide +kernel) (by decide +kernel) (by decide +kernel) (by decide +kernel)

/-- The value is not exact. -/
example : ∃ v, pairwiseDistance (sorensenR roundDouble) ([1, 1].map fin) ([2, (1 : ℚ)].map fin) .inf = .ok (fin v) ∧ v ≠ 1 / 5 ∧
    sorensenOf [1, 1] [2, (1 : ℚ)] = 1 / 5 := ⟨roundDouble (1 / 5), by decide +kernel, by decide +kernel, by decide +kernel⟩

example := C100_sorensen_dtw_partial (roundDouble_ops (K := ℚ)) (by decide +kernel) (1 / 2) (by norm_num) [1, 2, roundDouble (1 / 10)] [3, 1]
  (by simp) (by simp) (by decide +kernel) (by decide +kernel) (by decide +kernel) (by decide +kernel) (by decide +kernel)

theorem small_theta {x : ℝ} (h : 1 ≤ x) : (1 : ℝ) / 2 ^ 537 ≤ 1 / 2 ^ 53 * x := by
  have : (1 : ℝ) / 2 ^ 537 ≤ 1 / 2 ^ 53 := one_div_le_one_div_of_le (by positivity) (pow_le_pow_right₀ (by norm_num) (by norm_num))
  exact le_trans this (le_mul_of_one_le_right (by positivity) h)

example := C100_cosine_partial (roundDouble_ops (K := ℝ)) [1, 2] [2, 0] rfl ⟨1, by simp, by norm_num⟩ ⟨2, by simp, by norm_num⟩
  (small_theta (by norm_num [dot])) (small_theta (by norm_num [dot])) (by norm_num)

example := C100_cosine_dtw_partial (roundDouble_ops (K := ℝ)) (1 / 2) (by norm_num) [1, 2, 3] [2, -1] (by simp) (by simp)
  (by intro x hx; simp at hx; rcases hx with rfl | rfl | rfl <;> exact ⟨by norm_num, small_theta (by norm_num)⟩)
  (by intro x hx; simp at hx; rcases hx with rfl | rfl <;> exact ⟨by norm_num, small_theta (by norm_num)⟩) (by norm_num)

end Genex.Props
