import Verif.Lemmas.Similarity
import Verif.Lemmas.Exact
import Verif.Props.Dtw

/-!
# C99: what the sorensen and the cosine distance compute

The sorensen distance is Sorensen's dissimilarity.  The cosine "distance" is the cosine itself: it is largest, not least, for a series and
itself (`C99_cosine_self`), so that the matches the searches return for it are the most dissimilar ones.
-/

set_option linter.unusedSectionVars false

namespace Genex.Props

open Dbl Spec

section

variable {K : Type} [Field K] [LinearOrder K] [IsStrictOrderedRing K]

/-- C99, sorensen: the value is the sum of the distances over the sum of the magnitudes; if the latter is zero, the value is NaN for two zero
series and infinity for a series and its negative. -/
theorem C99_sorensen (a b : List K) (hl : a.length = b.length) :
    pairwiseDistance (sorensen K) (a.map fin) (b.map fin) .inf = .ok (
      if (List.zipWith (fun x y => |x + y|) a b).sum ≠ 0 then
        fin ((List.zipWith (fun x y => |x - y|) a b).sum / (List.zipWith (fun x y => |x + y|) a b).sum)
      else if a = b then .nan else .inf) := by
  rw [pairwise_sorensen a b hl]
  have h0 := zipWith_sub_nonneg a b
  have hz := zipWith_sub_zero hl
  generalize (List.zipWith (fun x y => |x + y|) a b).sum = t at *
  generalize (List.zipWith (fun x y => |x - y|) a b).sum = s at *
  by_cases ht : t = 0
  · subst ht
    rw [if_neg (by simp)]
    by_cases hab : a = b
    · rw [if_pos hab, hz.2 hab]
      simp [HDiv.hDiv, Div.div, Dbl.div]
    · rw [if_neg hab]
      have hs : 0 < s := lt_of_le_of_ne h0 (fun e => hab (hz.1 e.symm))
      simp [HDiv.hDiv, Div.div, Dbl.div, hs, ne_of_gt hs]
  · rw [if_pos ht, fin_div_fin ht]

/-- C99, sorensen: on data without negative values it is Sorensen's dissimilarity. -/
theorem C99_sorensen_value (a b : List K) (hl : a.length = b.length) (ha : ∀ x ∈ a, 0 ≤ x) (hb : ∀ x ∈ b, 0 ≤ x)
    (h0 : 0 < a.sum + b.sum) : pairwiseDistance (sorensen K) (a.map fin) (b.map fin) .inf = .ok (fin (sorensenOf a b)) := by
  rw [C99_sorensen a b hl, zipWith_add_sum hl ha hb, if_pos (ne_of_gt h0)]
  rfl

/-- C99, sorensen: on such data it lies between 0 and 1, is 0 for equal series only, and is symmetric. -/
theorem C99_sorensen_laws (a b : List K) (hl : a.length = b.length) (ha : ∀ x ∈ a, 0 ≤ x) (hb : ∀ x ∈ b, 0 ≤ x)
    (h0 : 0 < a.sum + b.sum) : ∃ v, pairwiseDistance (sorensen K) (a.map fin) (b.map fin) .inf = .ok (fin v) ∧
      pairwiseDistance (sorensen K) (b.map fin) (a.map fin) .inf = .ok (fin v) ∧ 0 ≤ v ∧ v ≤ 1 ∧ (v = 0 ↔ a = b) := by
  refine ⟨sorensenOf a b, C99_sorensen_value a b hl ha hb h0, ?_, ?_, ?_, ?_⟩
  · rw [C99_sorensen_value b a hl.symm hb ha (by linarith)]
    unfold sorensenOf
    rw [zipWith_sub_comm b a, add_comm b.sum]
  · exact div_nonneg (zipWith_sub_nonneg a b) (le_of_lt h0)
  · unfold sorensenOf
    rw [div_le_one h0]
    exact zipWith_sub_le hl ha hb
  · unfold sorensenOf
    rw [div_eq_zero_iff, zipWith_sub_zero hl]
    exact ⟨fun h => h.resolve_right (ne_of_gt h0), Or.inl⟩

/-- C99, sorensen_dtw: on positive data the value is Sorensen's dissimilarity along some alignment in the band; infinity if there is none.
Missing: that alignment is not always the best one, see `C99_least_false`. -/
theorem C99_sorensen_dtw_partial [BandOps] (ratio : ℚ) (hr : 0 ≤ ratio) (a b : List K) (ha : 1 ≤ a.length) (hb : 1 ≤ b.length)
    (pa : ∀ x ∈ a, 0 < x) (pb : ∀ x ∈ b, 0 < x) :
    let costs := bandedCosts a.length b.length (dtwBand ratio a.length b.length) (sorensenAlong a b)
    ∃ d, warpedValue (sorensen K) ratio (a.map fin) (b.map fin) .inf = .ok d ∧ ((∃ x, d = fin x ∧ x ∈ costs) ∨ (d = .inf ∧ costs = ∅)) := by
  have hD : InDom a b (safeSorensen (K := K) (m := a.length) (n := b.length)) := fun i j hi hj => by
    refine ⟨pa _ ?_, pb _ ?_⟩ <;> rw [List.getD_eq_getElem?_getD, List.getElem?_eq_getElem (by assumption), Option.getD_some] <;>
      exact List.getElem_mem _
  rcases warped_attain_safe _ hD (band_eq_bandWidth hr (by omega)) ha hb with ⟨p, h1, h2, h3⟩ | ⟨h1, h2⟩
  · refine ⟨_, h3, Or.inl ⟨_, rfl, p, alignment_iff.2 h1, (allowed_dtwBand ha hb (alignment_iff.2 h1)).1 h2, ?_⟩⟩
    have e := pathAcc_sorensen pa pb p
    rw [e]
    rfl
  · refine ⟨_, h1, Or.inr ⟨rfl, ?_⟩⟩
    ext v
    simp only [Set.mem_empty_iff_false, iff_false]
    rintro ⟨p, k1, k2, -⟩
    exact h2 ⟨p, alignment_iff.1 k1, (allowed_dtwBand ha hb k1).2 k2⟩

/-- C99, sorensen_dtw: a positive series is at distance 0 from itself. -/
theorem C99_sorensen_dtw_self [BandOps] (ratio : ℚ) (hr : 0 ≤ ratio) (a : List K) (ha : 1 ≤ a.length) (pa : ∀ x ∈ a, 0 < x) :
    warpedValue (sorensen K) ratio (a.map fin) (a.map fin) .inf = .ok (fin 0) := by
  have hD : InDom a a (safeSorensen (K := K) (m := a.length) (n := a.length)) := fun i j hi hj => by
    refine ⟨pa _ ?_, pa _ ?_⟩ <;> rw [List.getD_eq_getElem?_getD, List.getElem?_eq_getElem (by assumption), Option.getD_some] <;>
      exact List.getElem_mem _
  have hb := band_eq_bandWidth hr (len := max a.length a.length) (by omega)
  by_cases h1 : a.length = 1 ∧ a.length = 1
  · rcases warped_attain_safe _ hD hb ha ha with ⟨p, k1, k2, k3⟩ | ⟨-, k2⟩
    · have e := pathAcc_sorensen pa pa p
      rw [k3, e]
      have : p = [(0, 0)] := by
        rw [h1.1] at k1
        rcases k1.cases with ⟨-, rfl⟩ | ⟨q, d, rfl, hq, hs⟩
        · rfl
        · exfalso
          have : Step (d.1, d.2) (0, 0) := hs
          rw [step_iff] at this; omega
      subst this
      simp [safeSorensen]
    · exfalso
      refine k2 ⟨[(0, 0)], ?_, ?_⟩
      · rw [h1.1]; exact PathTo.single
      · intro c hc
        simp only [List.mem_singleton] at hc
        subst hc
        exact Or.inl ⟨by simp, by simp⟩
  · obtain ⟨mt, f1, f2, -⟩ := warped_run safeSorensen hD hb ha ha h1
    obtain ⟨s, k1, k2⟩ := sorensen_diag pa f1 (a.length - 1) (by omega)
    have hal : Allowed a.length a.length (bandWidth ratio (max a.length a.length)) (a.length - 1) (a.length - 1) := Or.inl ⟨by omega, by omega⟩
    obtain ⟨s', g1, g2, g3, -⟩ := f1.cell (a.length - 1) (a.length - 1) (by omega) (by omega) hal (Or.inl (by omega))
    have e := Option.some.inj (k1.symm.trans g1)
    subst e
    unfold warpedValue
    rw [f2, g3]
    change Except.ok (fin (Dbl.toFin s.1 / Dbl.toFin s.2)) = _
    rw [k2]
    simp

/-! ## Cosine -/

variable [HasSqrt K]

/-- C99, cosine: the value is the cosine of the angle of the two series. -/
theorem C99_cosine [LawfulSqrt K] (a b : List K) (hl : a.length = b.length) (ha : ∃ x ∈ a, x ≠ 0) (hb : ∃ x ∈ b, x ≠ 0) :
    pairwiseDistance (cosine K) (a.map fin) (b.map fin) .inf = .ok (fin (cosineOf a b)) := by
  have pa := dot_self_pos ha
  have pb := dot_self_pos hb
  rw [pairwise_cosine a b hl, fin_mul_fin, sqrt_fin (le_of_lt (mul_pos pa pb)), sqrt_mul' (le_of_lt pa) (le_of_lt pb),
    fin_div_fin (ne_of_gt (mul_pos (sqrt_pos' pa) (sqrt_pos' pb)))]
  rfl

/-- C99, cosine: with a zero series the value is NaN. -/
theorem C99_cosine_zero [LawfulSqrt K] (a b : List K) (hl : a.length = b.length) (h : (∀ x ∈ a, x = 0) ∨ (∀ x ∈ b, x = 0)) :
    pairwiseDistance (cosine K) (a.map fin) (b.map fin) .inf = .ok .nan := by
  have h1 : dot a b = 0 := by
    rcases h with h | h
    · exact dot_zero h b
    · rw [dot_comm]; exact dot_zero h a
  have h2 : dot a a * dot b b = 0 := by
    rcases h with h | h
    · rw [dot_zero h a, zero_mul]
    · rw [dot_zero h b, mul_zero]
  rw [pairwise_cosine a b hl, fin_mul_fin, h1, h2, sqrt_fin (le_refl _), (sqrt_eq_zero_iff (le_refl _)).2 rfl]
  simp [HDiv.hDiv, Div.div, Dbl.div]

/-- C99, cosine: the value lies between -1 and 1, is symmetric, and no series has a larger value with `a` than `a` itself. -/
theorem C99_cosine_self [LawfulSqrt K] (a b : List K) (hl : a.length = b.length) (ha : ∃ x ∈ a, x ≠ 0) (hb : ∃ x ∈ b, x ≠ 0) :
    ∃ v, pairwiseDistance (cosine K) (a.map fin) (b.map fin) .inf = .ok (fin v) ∧
      pairwiseDistance (cosine K) (b.map fin) (a.map fin) .inf = .ok (fin v) ∧
      pairwiseDistance (cosine K) (a.map fin) (a.map fin) .inf = .ok (fin 1) ∧ -1 ≤ v ∧ v ≤ 1 := by
  have h := abs_le.1 (cosineOf_abs hl (dot_self_pos ha) (dot_self_pos hb))
  refine ⟨cosineOf a b, C99_cosine a b hl ha hb, ?_, ?_, h.1, h.2⟩
  · rw [C99_cosine b a hl.symm hb ha]
    unfold cosineOf
    rw [dot_comm b a, mul_comm (HasSqrt.sqrt (dot b b))]
  · rw [C99_cosine a a rfl ha ha, cosineOf_self (dot_self_pos ha)]

/-- C99, cosine_dtw: on data without zeros the value is the cosine of the two series with points repeated along some alignment in the band;
infinity if there is none.  Missing: which alignment, see `C99_least_false`. -/
theorem C99_cosine_dtw_partial [LawfulSqrt K] [BandOps] (ratio : ℚ) (hr : 0 ≤ ratio) (a b : List K) (ha : 1 ≤ a.length) (hb : 1 ≤ b.length)
    (pa : ∀ x ∈ a, x ≠ 0) (pb : ∀ x ∈ b, x ≠ 0) :
    let costs := bandedCosts a.length b.length (dtwBand ratio a.length b.length) (cosineAlong a b)
    ∃ d, warpedValue (cosine K) ratio (a.map fin) (b.map fin) .inf = .ok d ∧ ((∃ x, d = fin x ∧ x ∈ costs) ∨ (d = .inf ∧ costs = ∅)) := by
  have hD : InDom a b (safeCosine (K := K) (m := a.length) (n := b.length)) := fun i j hi hj => by
    refine ⟨pa _ ?_, pb _ ?_⟩ <;> rw [List.getD_eq_getElem?_getD, List.getElem?_eq_getElem (by assumption), Option.getD_some] <;>
      exact List.getElem_mem _
  rcases warped_attain_safe _ hD (band_eq_bandWidth hr (by omega)) ha hb with ⟨p, h1, h2, h3⟩ | ⟨h1, h2⟩
  · refine ⟨_, h3, Or.inl ⟨_, rfl, p, alignment_iff.2 h1, (allowed_dtwBand ha hb (alignment_iff.2 h1)).1 h2, ?_⟩⟩
    have e := pathAcc_cosine a b p
    rw [e]
    unfold cosineAlong cosineOf
    rw [← sqrt_mul' (dot_self_nonneg _) (dot_self_nonneg _)]
    rfl
  · refine ⟨_, h1, Or.inr ⟨rfl, ?_⟩⟩
    ext v
    simp only [Set.mem_empty_iff_false, iff_false]
    rintro ⟨p, k1, k2, -⟩
    exact h2 ⟨p, alignment_iff.1 k1, (allowed_dtwBand ha hb k1).2 k2⟩

end

/-- C99: sorensen_dtw is not the least over the alignments: it keeps the prefix with the least quotient (here 7/13,
against 5/9), which need not have the least quotient later (7/17, against 5/13). -/
theorem C99_least_false : ∃ (a b : List ℚ) (x : ℚ) (p : List (ℕ × ℕ)), (∀ x ∈ a, 0 < x) ∧ (∀ x ∈ b, 0 < x) ∧
    warpedValue (sorensen ℚ) 1 (a.map fin) (b.map fin) .inf = .ok (fin x) ∧ Alignment a.length b.length p ∧ sorensenAlong a b p < x :=
  ⟨[1, 2], [5, 2], 7 / 17, [(0, 0), (0, 1), (1, 1)], by decide +kernel, by decide +kernel, by decide +kernel, ⟨rfl, rfl, by decide⟩,
    by decide +kernel⟩

/-- C99: sorensen violates the triangle inequality, on which the grouping bounds of the other distances rest. -/
theorem C99_triangle_false : ∃ (a b c : List ℚ) (x y z : ℚ), a.length = b.length ∧ b.length = c.length ∧
    (∀ x, x ∈ a ∨ x ∈ b ∨ x ∈ c → 0 < x) ∧
    pairwiseDistance (sorensen ℚ) (a.map fin) (b.map fin) .inf = .ok (fin x) ∧
    pairwiseDistance (sorensen ℚ) (b.map fin) (c.map fin) .inf = .ok (fin y) ∧
    pairwiseDistance (sorensen ℚ) (a.map fin) (c.map fin) .inf = .ok (fin z) ∧ x + y < z := by
  refine ⟨[9, 1], [9, 9], [1, 9], 2 / 7, 2 / 7, 4 / 5, rfl, rfl, ?_, by decide +kernel, by decide +kernel, by decide +kernel, by norm_num⟩
  intro x hx
  simp at hx
  rcases hx with (h | h) | h | (h | h) <;> rw [h] <;> norm_num

/-- C99: among the nonzero series, the one farthest from `a` in every sense, its negative, is the "nearest" for cosine. -/
theorem C99_cosine_false : ∃ (a b : List ℚ) (x y : ℚ), a ≠ b ∧
    pairwiseDistance (cosine ℚ) (a.map fin) (b.map fin) .inf = .ok (fin x) ∧
    pairwiseDistance (cosine ℚ) (a.map fin) (a.map fin) .inf = .ok (fin y) ∧ x < y :=
  ⟨[3, 4], [-3, -4], -1, 1, by decide, by decide +kernel, by decide +kernel, by norm_num⟩

/-! ## Concrete cases -/

example : pairwiseDistance (sorensen ℚ) ([1, 2, 3].map fin) ([2, 2, 5].map fin) .inf = .ok (fin (1 / 5)) := by
  have h := C99_sorensen_value ([1, 2, 3] : List ℚ) [2, 2, 5] rfl (by decide +kernel) (by decide +kernel) (by decide +kernel)
  have e : sorensenOf ([1, 2, 3] : List ℚ) [2, 2, 5] = 1 / 5 := by decide +kernel
  rwa [e] at h

example : pairwiseDistance (sorensen ℚ) ([1, -2].map fin) ([-1, 2].map fin) .inf = .ok .inf := by
  have h := C99_sorensen ([1, -2] : List ℚ) [-1, 2] rfl
  rw [if_neg (by decide +kernel), if_neg (by decide +kernel)] at h
  exact h

example := C99_sorensen_laws ([1, 0, 3] : List ℚ) [2, 2, 0] rfl (by decide +kernel) (by decide +kernel) (by decide +kernel)

example := C99_sorensen_dtw_partial (1 / 2) (by norm_num) ([1, 2, 3] : List ℚ) [2, 1] (by simp) (by simp) (by decide +kernel) (by decide +kernel)

example : warpedValue (sorensen ℚ) (1 / 2) ([1, 2, 1, 3].map fin) ([1, 2, 1, 3].map fin) .inf = .ok (fin 0) :=
  C99_sorensen_dtw_self (1 / 2) (by norm_num) _ (by simp) (by decide +kernel)

example := C99_cosine ([1, 2] : List ℝ) [2, 0] rfl ⟨1, by simp, by norm_num⟩ ⟨2, by simp, by norm_num⟩
example := C99_cosine_zero ([0, 0] : List ℝ) [2, 0] rfl (Or.inl (by simp))
example := C99_cosine_self ([1, 2] : List ℝ) [2, 0] rfl ⟨1, by simp, by norm_num⟩ ⟨2, by simp, by norm_num⟩
example := C99_cosine_dtw_partial (1 / 2) (by norm_num) ([1, 2, 3] : List ℝ) [2, -1] (by simp) (by simp) (by simp) (by simp)

end Genex.Props
