import Verif.Lemmas.DtwOpt
import Verif.Lemmas.DtwInst
import Verif.Lemmas.MetricLaws
import Verif.Spec.Search
import Mathlib.Algebra.BigOperators.Group.Finset.Basic
import Mathlib.Algebra.Order.BigOperators.Group.Finset
import Mathlib.Order.Interval.Finset.Nat

set_option linter.unusedSectionVars false

/-! The cost of an alignment when one of the two series is replaced. -/

namespace Genex

open Spec

section
variable {K : Type} [Field K] [LinearOrder K] [IsStrictOrderedRing K]

theorem PathTo.sum_le {c : ℕ × ℕ} {p : List (ℕ × ℕ)} (h : PathTo c p) : ∀ x ∈ p, x.1 + x.2 ≤ c.1 + c.2 := by
  intro x hx
  have := h.bound x hx
  omega

theorem PathTo.nodup {c : ℕ × ℕ} {p : List (ℕ × ℕ)} (h : PathTo c p) : p.Nodup := by
  induction h using PathTo.rec' with
  | base => simp
  | step c d p hp hs ih =>
    rw [List.nodup_append]
    refine ⟨ih, by simp, ?_⟩
    intro x hx y hy e
    rw [List.mem_singleton] at hy
    subst hy
    subst e
    have := hp.sum_le x hx
    rcases hs with rfl | rfl | rfl <;> simp only at this <;> omega

/-- In a band of width `w` a column has at most `2w+1` cells, and at most as many as there are rows. -/
theorem PathTo.col_count {c : ℕ × ℕ} {p : List (ℕ × ℕ)} (h : PathTo c p) {w : ℕ} (hw : InBand w p) (j : ℕ) :
    (p.map Prod.snd).count j ≤ min (2 * w + 1) (c.1 + 1) := by
  have hcount : (p.map Prod.snd).count j = (p.filter (fun x => x.2 = j)).length := by
    rw [List.count_eq_countP, List.countP_map, List.countP_eq_length_filter]
    congr 1
  set l := p.filter (fun x => x.2 = j) with hl
  have hn : (l.map Prod.fst).Nodup := by
    rw [List.nodup_map_iff_inj_on (h.nodup.filter _)]
    intro x hx y hy e
    rw [List.mem_filter] at hx hy
    have h1 : x.2 = j := by simpa using hx.2
    have h2 : y.2 = j := by simpa using hy.2
    exact Prod.ext e (h1.trans h2.symm)
  rw [hcount, ← List.length_map (f := Prod.fst), ← List.toFinset_card_of_nodup hn]
  refine le_min ?_ ?_
  · refine le_trans (Finset.card_le_card (t := Finset.Icc (j - w) (j + w)) ?_) ?_
    · intro i hi
      rw [List.mem_toFinset, List.mem_map] at hi
      obtain ⟨x, hx, rfl⟩ := hi
      rw [List.mem_filter] at hx
      have h1 : x.2 = j := by simpa using hx.2
      have := hw x hx.1
      rw [Finset.mem_Icc]
      omega
    · rw [Nat.card_Icc]; omega
  · refine le_trans (Finset.card_le_card (t := Finset.range (c.1 + 1)) ?_) (by rw [Finset.card_range])
    intro i hi
    rw [List.mem_toFinset, List.mem_map] at hi
    obtain ⟨x, hx, rfl⟩ := hi
    rw [List.mem_filter] at hx
    have := h.bound x hx.1
    rw [Finset.mem_range]
    omega

theorem sum_cols_le (p : List (ℕ × ℕ)) (f : ℕ → K) (hf : ∀ j, 0 ≤ f j) (ℓ M : ℕ) (hℓ : ∀ x ∈ p, x.2 < ℓ)
    (hM : ∀ j, (p.map Prod.snd).count j ≤ M) :
    (p.map (fun x => f x.2)).sum ≤ M * ((List.range ℓ).map f).sum := by
  have e : p.map (fun x => f x.2) = (p.map Prod.snd).map f := by rw [List.map_map]; rfl
  rw [e, Finset.sum_list_map_count]
  have e2 : ((List.range ℓ).map f).sum = ∑ j ∈ Finset.range ℓ, f j := by
    simp [Finset.sum, Finset.range, Multiset.range]
  rw [e2, Finset.mul_sum]
  refine le_trans (Finset.sum_le_sum (g := fun j => (M : K) * f j) ?_) ?_
  · intro j _
    rw [nsmul_eq_mul]
    exact mul_le_mul_of_nonneg_right (by exact_mod_cast hM j) (hf j)
  · refine Finset.sum_le_sum_of_subset_of_nonneg ?_ ?_
    · intro j hj
      rw [List.mem_toFinset, List.mem_map] at hj
      obtain ⟨x, hx, rfl⟩ := hj
      exact Finset.mem_range.2 (hℓ x hx)
    · intro j _ _
      exact mul_nonneg (Nat.cast_nonneg _) (hf j)

theorem zipWith_range {α : Type} (g : K → K → α) (b c : List K) (h : b.length = c.length) :
    List.zipWith g b c = (List.range b.length).map (fun j => g (b.getD j 0) (c.getD j 0)) := by
  apply List.ext_getElem?
  intro i
  rw [List.getElem?_map, List.getElem?_zipWith]
  by_cases hi : i < b.length
  · have hi' : i < c.length := by omega
    simp [hi, hi', List.getD_eq_getElem?_getD]
  · have hi' : ¬ i < c.length := by omega
    simp [hi]

theorem absCost_le (a b c : List K) (h : b.length = c.length) {m : ℕ} {p : List (ℕ × ℕ)} (hp : PathTo (m, b.length - 1) p)
    (hb : 1 ≤ b.length) {w : ℕ} (hw : InBand w p) :
    absCost a c p ≤ absCost a b p + (min (2 * w + 1) (m + 1) : ℕ) * (List.zipWith (fun x y => |x - y|) b c).sum := by
  have h1 : (p.map (fun x => |b.getD x.2 0 - c.getD x.2 0|)).sum ≤
      (min (2 * w + 1) (m + 1) : ℕ) * (List.zipWith (fun x y => |x - y|) b c).sum := by
    rw [zipWith_range _ b c h]
    refine sum_cols_le p (fun j => |b.getD j 0 - c.getD j 0|) (fun j => abs_nonneg _) _ _ ?_ (hp.col_count hw)
    intro x hx
    have := (hp.bound x hx).2
    simp only at this
    omega
  refine le_trans ?_ (add_le_add (le_refl _) h1)
  unfold absCost diffs
  rw [List.map_map, List.map_map]
  clear hw h1 hp
  induction p with
  | nil => simp
  | cons x p ih =>
    simp only [List.map_cons, List.sum_cons, Function.comp_apply] at ih ⊢
    have := abs_sub_le (a.getD x.1 0) (b.getD x.2 0) (c.getD x.2 0)
    linarith

theorem maxCost_le_iff (a b : List K) (p : List (ℕ × ℕ)) (v : K) (hv : 0 ≤ v) :
    maxCost a b p ≤ v ↔ ∀ x ∈ p, |a.getD x.1 0 - b.getD x.2 0| ≤ v := by
  unfold maxCost diffs
  induction p with
  | nil => simp [hv]
  | cons x p ih => simp only [List.map_cons, List.foldr_cons, max_le_iff, List.forall_mem_cons, ih]

theorem maxAbs_le_iff (b c : List K) (v : K) (hv : 0 ≤ v) (h : b.length = c.length) :
    maxAbs b c ≤ v ↔ ∀ j < b.length, |b.getD j 0 - c.getD j 0| ≤ v := by
  unfold maxAbs
  rw [zipWith_range _ b c h]
  have : ∀ l : List ℕ, (l.map (fun j => |b.getD j 0 - c.getD j 0|)).foldr max 0 ≤ v ↔
      ∀ j ∈ l, |b.getD j 0 - c.getD j 0| ≤ v := by
    intro l
    induction l with
    | nil => simp [hv]
    | cons x l ih => simp only [List.map_cons, List.foldr_cons, max_le_iff, List.forall_mem_cons, ih]
  rw [this]
  simp only [List.mem_range]

theorem maxCost_le (a b c : List K) (h : b.length = c.length) {m : ℕ} {p : List (ℕ × ℕ)} (hp : PathTo (m, b.length - 1) p)
    (hb : 1 ≤ b.length) : maxCost a c p ≤ maxCost a b p + maxAbs b c := by
  have h0 := maxCost_nonneg a b p
  have h1 := maxabs_nonneg b c
  rw [maxCost_le_iff _ _ _ _ (add_nonneg h0 h1)]
  intro x hx
  have hj := (hp.bound x hx).2
  have e1 := (maxCost_le_iff a b p _ h0).1 (le_refl _) x hx
  have e2 := (maxAbs_le_iff b c _ h1 h).1 (le_refl _) x.2 (by simp only at hj; omega)
  have := abs_sub_le (a.getD x.1 0) (b.getD x.2 0) (c.getD x.2 0)
  linarith

section
variable [HasSqrt K] [LawfulSqrt K]

open HasSqrt

theorem sqrt_mono {x y : K} (hx : 0 ≤ x) (h : x ≤ y) : sqrt x ≤ sqrt y := by
  have hy := le_trans hx h
  apply le_of_sq_le (LawfulSqrt.sqrt_nonneg hy)
  rw [LawfulSqrt.mul_self hx, LawfulSqrt.mul_self hy]
  exact h

theorem sqCost_le (a b c : List K) (h : b.length = c.length) {m : ℕ} {p : List (ℕ × ℕ)} (hp : PathTo (m, b.length - 1) p)
    (hb : 1 ≤ b.length) {w : ℕ} (hw : InBand w p) :
    sqrt (sqCost a c p) ≤ sqrt (sqCost a b p) +
      sqrt (((min (2 * w + 1) (m + 1) : ℕ) : K) * (List.zipWith (fun x y => (x - y) ^ 2) b c).sum) := by
  have h1 : (p.map (fun x => (b.getD x.2 0 - c.getD x.2 0) ^ 2)).sum ≤
      (min (2 * w + 1) (m + 1) : ℕ) * (List.zipWith (fun x y => (x - y) ^ 2) b c).sum := by
    rw [zipWith_range _ b c h]
    refine sum_cols_le p (fun j => (b.getD j 0 - c.getD j 0) ^ 2) (fun j => sq_nonneg _) _ _ ?_ (hp.col_count hw)
    intro x hx
    have := (hp.bound x hx).2
    simp only at this
    omega
  have h2 := sumsq_triangle (a := p.map (fun x => a.getD x.1 0)) (b := p.map (fun x => b.getD x.2 0))
    (c := p.map (fun x => c.getD x.2 0)) (by simp) (by simp)
  simp only [List.zipWith_map, List.zipWith_self] at h2
  have e : ∀ d : List K, sqCost a d p = (p.map (fun x => (a.getD x.1 0 - d.getD x.2 0) ^ 2)).sum := by
    intro d
    unfold sqCost diffs
    rw [List.map_map]
    rfl
  rw [e, e]
  refine le_trans h2 (add_le_add (le_refl _) (sqrt_mono ?_ h1))
  apply List.sum_nonneg
  intro v hv
  obtain ⟨x, -, rfl⟩ := List.mem_map.1 hv
  exact sq_nonneg _

end

end

end Genex
