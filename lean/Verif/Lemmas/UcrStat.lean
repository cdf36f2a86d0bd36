import Verif.Spec.Ucr
import Verif.Lemmas.UcrBounds

/-! Standardised series; the least cost of an alignment exists. -/

set_option linter.unusedSectionVars false

namespace Genex.Ucr

open Dbl Spec

variable {K : Type} [Field K] [LinearOrder K] [IsStrictOrderedRing K]

/-- There is an alignment of least cost. -/
theorem exists_least (a b : List K) (r i j : ℕ) (h : i ≤ j + r ∧ j ≤ i + r) :
    ∃ p, PathTo (i, j) p ∧ InBand r p ∧ ∀ q, PathTo (i, j) q → InBand r q → sqCost a b p ≤ sqCost a b q := by
  induction hn : i + j using Nat.strong_induction_on generalizing i j with
  | _ n ih =>
    by_cases h0 : i = 0 ∧ j = 0
    · obtain ⟨rfl, rfl⟩ := h0
      refine ⟨_, PathTo.single, by intro c hc; simp at hc; subst hc; simp, fun q hq _ => ?_⟩
      have := hq.first_le a b
      simpa [sqCost, diffs] using this
    · let S : Finset (ℕ × ℕ) := {(i - 1, j - 1), (i - 1, j), (i, j - 1)}
      let P : ℕ × ℕ → Prop := fun d => Step d (i, j) ∧ d.1 ≤ d.2 + r ∧ d.2 ≤ d.1 + r
      classical
      have hP : ∀ d, P d → ∃ p, PathTo d p ∧ InBand r p ∧ ∀ q, PathTo d q → InBand r q → sqCost a b p ≤ sqCost a b q := by
        rintro ⟨d1, d2⟩ ⟨hs, hb⟩
        refine ih (d1 + d2) ?_ d1 d2 hb rfl
        rcases hs with e | e | e <;> simp only [Prod.mk.injEq] at e <;> omega
      have hmem : ∀ d, P d → d ∈ S := by
        rintro ⟨d1, d2⟩ ⟨hs, -⟩
        simp only [S, Finset.mem_insert, Finset.mem_singleton]
        rcases hs with e | e | e <;> simp only [Prod.mk.injEq] at e <;> obtain ⟨rfl, rfl⟩ := e <;> simp
      choose! f hf1 hf2 hf3 using hP
      have hne : (S.filter P).Nonempty := by
        obtain ⟨p, hp, hin⟩ := exists_path r i j h
        rcases hp.cases with ⟨e, -⟩ | ⟨q, d, rfl, hq, hs⟩
        · simp only [Prod.mk.injEq] at e; exact absurd e h0
        · have hd : P d := ⟨hs, (inBand_snoc.1 hin).1 d (List.mem_of_getLast? hq.last)⟩
          exact ⟨d, Finset.mem_filter.2 ⟨hmem d hd, hd⟩⟩
      obtain ⟨d, hd, hmin⟩ := Finset.exists_min_image (S.filter P) (fun d => sqCost a b (f d)) hne
      have hd := (Finset.mem_filter.1 hd).2
      refine ⟨f d ++ [(i, j)], (hf1 d hd).snoc hd.1, inBand_snoc.2 ⟨hf2 d hd, h⟩, fun q hq hin => ?_⟩
      rcases hq.cases with ⟨e, -⟩ | ⟨q', d', rfl, hq', hs'⟩
      · simp only [Prod.mk.injEq] at e; exact absurd e h0
      · have hd' : P d' := ⟨hs', (inBand_snoc.1 hin).1 d' (List.mem_of_getLast? hq'.last)⟩
        have h1 := hmin d' (Finset.mem_filter.2 ⟨hmem d' hd', hd'⟩)
        have h2 := hf3 d' hd' q' hq' (inBand_snoc.1 hin).1
        rw [sqCost_snoc, sqCost_snoc]
        linarith

theorem exists_apart {a b : List K} {m : ℕ} (r : ℕ) (ha : a.length = m) (hb : b.length = m) : ∃ D, Apart r a b D := by
  obtain ⟨p, h1, h2, h3⟩ := exists_least a b r (m - 1) (m - 1) (by omega)
  refine ⟨sqCost a b p, ?_⟩
  unfold Apart
  rw [ha, hb]
  refine ⟨⟨p, alignment_iff.2 h1, h2, rfl⟩, ?_⟩
  rintro v ⟨q, hq1, hq2, rfl⟩
  exact h3 q (alignment_iff.1 hq1) hq2

theorem Apart.unique {r : ℕ} {a b : List K} {D D' : K} (h : Apart r a b D) (h' : Apart r a b D') : D = D' := IsLeast.unique h h'

/-! ## Mean and variance -/

theorem sum_map_sub_sq (w : List K) (μ : K) : (w.map fun x => (x - μ) ^ 2).sum = (w.map fun x => x ^ 2).sum - 2 * μ * w.sum + w.length * μ ^ 2 := by
  induction w with
  | nil => simp
  | cons x w ih => simp only [List.map_cons, List.sum_cons, ih, List.length_cons]; push_cast; ring

theorem variance_eq {w : List K} (h : 1 ≤ w.length) :
    variance w = (w.map fun x => x ^ 2).sum / w.length - (w.sum / w.length) * (w.sum / w.length) := by
  unfold variance
  rw [sum_map_sub_sq]
  have : (w.length : K) ≠ 0 := by
    have : (0 : K) < w.length := by exact_mod_cast h
    exact this.ne'
  unfold mean
  field_simp
  ring

theorem sum_sq_nonneg (w : List K) (f : K → K) : 0 ≤ (w.map fun x => f x ^ 2).sum :=
  List.sum_nonneg (by intro x hx; obtain ⟨y, -, rfl⟩ := List.mem_map.1 hx; exact sq_nonneg _)

theorem variance_nonneg (w : List K) : 0 ≤ variance w := div_nonneg (sum_sq_nonneg w _) (Nat.cast_nonneg _)

theorem sum_sq_eq_zero {w : List K} {f : K → K} (h : (w.map fun x => f x ^ 2).sum = 0) : ∀ x ∈ w, f x = 0 := by
  induction w with
  | nil => simp
  | cons y w ih =>
    simp only [List.map_cons, List.sum_cons] at h
    have h1 := sum_sq_nonneg w f
    have h2 := sq_nonneg (f y)
    intro x hx
    rcases List.mem_cons.1 hx with rfl | hx
    · exact pow_eq_zero_iff (two_ne_zero) |>.1 (by linarith)
    · exact ih (by linarith) x hx

theorem flat_mean {w : List K} (h : Flat w) : ∀ x ∈ w, x = mean w := by
  intro x hx
  unfold mean
  have : w = List.replicate w.length x := List.eq_replicate_iff.2 ⟨rfl, fun y hy => h y hy x hx⟩
  have hl : 1 ≤ w.length := List.length_pos_of_mem hx
  have hl' : (w.length : K) ≠ 0 := by
    have : (0 : K) < w.length := by exact_mod_cast hl
    exact this.ne'
  rw [eq_div_iff hl']
  conv_rhs => rw [this]
  simp [mul_comm]

theorem variance_zero {w : List K} (hl : 1 ≤ w.length) : variance w = 0 ↔ Flat w := by
  constructor
  · intro h
    have hl' : (w.length : K) ≠ 0 := by
      have : (0 : K) < w.length := by exact_mod_cast hl
      exact this.ne'
    unfold variance at h
    rw [div_eq_zero_iff, or_iff_left hl'] at h
    have := sum_sq_eq_zero (f := fun x => x - mean w) h
    intro x hx y hy
    have h1 := this x hx
    have h2 := this y hy
    linarith
  · intro h
    unfold variance
    have : (w.map fun x => (x - mean w) ^ 2) = w.map fun _ => 0 := by
      apply List.map_congr_left
      intro x hx
      rw [← flat_mean h x hx]; ring
    rw [this]; simp

section
variable [HasSqrt K] [LawfulSqrt K]

/-- The standard deviation. -/
theorem std_pos {w : List K} (hl : 1 ≤ w.length) (h : ¬ Flat w) : 0 < HasSqrt.sqrt (variance w) := by
  have h1 := LawfulSqrt.sqrt_nonneg (variance_nonneg w)
  rcases h1.lt_or_eq with h2 | h2
  · exact h2
  · exact absurd ((variance_zero hl).1 ((sqrt_eq_zero_iff (variance_nonneg w)).1 h2.symm)) h

theorem standardised_length (w : List K) : (standardised w).length = w.length := by simp [standardised]

theorem standardised_sq {w : List K} (hl : 1 ≤ w.length) (h : ¬ Flat w) :
    ((standardised w).map fun x => x ^ 2).sum = (w.length : K) := by
  have hp := std_pos hl h
  have hl' : (w.length : K) ≠ 0 := by
    have : (0 : K) < w.length := by exact_mod_cast hl
    exact this.ne'
  have hv := LawfulSqrt.mul_self (variance_nonneg w)
  have hs : HasSqrt.sqrt (variance w) ^ 2 = variance w := by rw [pow_two]; exact hv
  have hv0 : variance w ≠ 0 := fun e => h ((variance_zero hl).1 e)
  unfold standardised
  rw [List.map_map]
  have : ((fun x => x ^ 2) ∘ fun x => (x - mean w) / HasSqrt.sqrt (variance w)) = fun x => (x - mean w) ^ 2 * (variance w)⁻¹ := by
    funext x
    simp only [Function.comp_apply, div_pow, hs]
    rw [div_eq_mul_inv]
  rw [this, List.sum_map_mul_right]
  have hd : (w.map fun x => (x - mean w) ^ 2).sum = variance w * w.length := by
    unfold variance; field_simp
  rw [hd]; field_simp

/-- Points of a standardised series. -/
theorem standardised_le {w : List K} (hl : 1 ≤ w.length) (h : ¬ Flat w) : ∀ x ∈ standardised w, x ^ 2 ≤ (w.length : K) := by
  intro x hx
  rw [← standardised_sq hl h]
  exact List.single_le_sum (by intro y hy; obtain ⟨z, -, rfl⟩ := List.mem_map.1 hy; exact sq_nonneg _) _ (List.mem_map.2 ⟨x, hx, rfl⟩)

theorem diag_cost (a b : List K) (m : ℕ) : sqCost a b (diag m) ≤ 2 * ((List.range m).map fun k => a.getD k 0 ^ 2).sum +
    2 * ((List.range m).map fun k => b.getD k 0 ^ 2).sum := by
  induction m with
  | zero => simp [diag, sqCost, diffs]
  | succ m ih =>
    have e : diag (m + 1) = diag m ++ [(m, m)] := by unfold diag; rw [List.range_succ, List.map_append]; rfl
    rw [e, sqCost_snoc, List.range_succ]
    simp only [List.map_append, List.sum_append, List.map_cons, List.map_nil, List.sum_cons, List.sum_nil, add_zero]
    nlinarith [sq_nonneg (a.getD m 0 + b.getD m 0)]

theorem range_getD (a : List K) (f : K → K) : ((List.range a.length).map fun k => f (a.getD k 0)) = a.map f := by
  apply List.ext_getElem?
  intro i
  by_cases h : i < a.length
  · simp [h, List.getD]
  · simp [h]

/-- Standardised series are never far apart. -/
theorem apart_le {w q : List K} {m r : ℕ} (hw : w.length = m) (hq : q.length = m) (hm : 1 ≤ m) (h1 : ¬ Flat w) (h2 : ¬ Flat q) {D : K}
    (hD : Apart r (standardised w) (standardised q) D) : D ≤ 4 * m := by
  unfold Apart at hD
  rw [standardised_length, standardised_length, hw, hq] at hD
  have e : diag m = diag (m - 1 + 1) := by congr 1; omega
  have hd := hD.2 ⟨diag m, alignment_iff.2 (by rw [e]; exact diag_path (m - 1)), diag_inBand m r, rfl⟩
  have hc := diag_cost (standardised w) (standardised q) m
  have e1 := range_getD (standardised w) (fun x => x ^ 2)
  have e2 := range_getD (standardised q) (fun x => x ^ 2)
  rw [standardised_length, hw] at e1
  rw [standardised_length, hq] at e2
  rw [e1, e2, standardised_sq (by omega) h1, standardised_sq (by omega) h2, hw, hq] at hc
  linarith

end

theorem apart_le_diag {a b : List K} {m r : ℕ} {D : K} (ha : a.length = m) (hb : b.length = m) (hm : 1 ≤ m) (h : Apart r a b D) :
    D ≤ sqCost a b (diag m) := by
  refine h.2 ⟨diag m, ?_, diag_inBand m r, rfl⟩
  obtain ⟨k, rfl⟩ : ∃ k, m = k + 1 := ⟨m - 1, by omega⟩
  rw [ha, hb, alignment_iff]
  exact diag_path k

end Genex.Ucr
