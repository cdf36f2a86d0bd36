import Verif.Spec.BandDouble
import Verif.Lemmas.Decimal

/-! The rounded product of the warping band grows as the exact one does. -/

namespace Genex

open Spec

theorem round_ge {x : ℚ} {z : ℤ} (hz : |z| ≤ 2 ^ 53) (h : (z : ℚ) ≤ x) : (z : ℚ) ≤ roundDouble x := by
  rw [← roundDouble_int hz]
  exact roundDouble_rounding.mono _ _ h

theorem round_zero : roundDouble (0 : ℚ) = 0 := by simpa using roundDouble_int (z := 0) (by norm_num)

theorem round_nonneg {x : ℚ} (h : 0 ≤ x) : 0 ≤ roundDouble x := by simpa using round_ge (z := 0) (by norm_num) (by simpa using h)

/-- The heart of it: a product that is below `k + 1` when rounded, and the next. -/
theorem round_step {r : ℚ} {n : ℕ} {k : ℤ} (h0 : 0 ≤ r) (hn : (n : ℤ) ≤ 2 ^ 26) (hk : 0 ≤ k) (hkn : k + 2 ≤ n)
    (h1 : roundDouble ((n : ℚ) * r) < k + 1) : roundDouble (((n : ℚ) + 1) * r) < k + 2 := by
  have ht : (0 : ℚ) < (k : ℚ) + 2 := by exact_mod_cast (by omega : (0 : ℤ) < k + 2)
  have hlt : (n : ℚ) * r < k + 1 := by
    by_contra hc
    have := round_ge (z := k + 1) (x := (n : ℚ) * r) (by rw [abs_of_nonneg (by omega)]; norm_num; omega)
      (by push_cast; exact not_lt.1 hc)
    push_cast at this
    linarith
  have hnk : (k : ℚ) + 2 ≤ n := by exact_mod_cast hkn
  have hk0 : (0 : ℚ) ≤ k := by exact_mod_cast hk
  have ht26 : (k : ℚ) + 2 ≤ 2 ^ 26 := le_trans hnk (by exact_mod_cast hn)
  have hr : r * ((k : ℚ) + 2) < k + 1 := lt_of_le_of_lt (by nlinarith) hlt
  set t : ℚ := (k : ℚ) + 2 with htd
  set x : ℚ := ((n : ℚ) + 1) * r with hx
  have hx0 : 0 ≤ x := by positivity
  have hxt : x * t < t * t - 1 := by
    have : x = n * r + r := by rw [hx]; ring
    rw [this]
    nlinarith
  have herr := (roundDouble_ops (K := ℚ)).err x
  rw [abs_of_nonneg hx0] at herr
  have herr' := (abs_le.1 herr).2
  have hθ : ((1 : ℚ) / 2 ^ 537) ^ 2 ≤ 1 / 2 ^ 60 := by
    rw [div_pow, one_pow, ← pow_mul]
    exact one_div_le_one_div_of_le (by positivity) (pow_le_pow_right₀ (by norm_num) (by norm_num))
  by_contra hc
  have hc := not_lt.1 hc
  have h2 : t ≤ x + x * (1 / 2 ^ 53) + 1 / 2 ^ 60 := by linarith
  have hxle : x ≤ t := by nlinarith
  have h3 : t * t ≤ x * t + x * t * (1 / 2 ^ 53) + t * (1 / 2 ^ 60) := by nlinarith
  have h4 : x * t ≤ 2 ^ 52 := by
    have : x * t ≤ t * t := by nlinarith
    have : t * t ≤ 2 ^ 26 * 2 ^ 26 := by nlinarith
    norm_num at *
    linarith
  norm_num at *
  linarith

theorem doubleMul_le {r : ℚ} {n : ℕ} (h : n ≤ 2 ^ 26) : doubleMul r n = roundDouble ((n : ℚ) * r) := by
  unfold doubleMul
  rw [if_pos (by exact_mod_cast h)]
  simp

theorem doubleMul_gt {r : ℚ} {n : ℕ} (h : ¬ n ≤ 2 ^ 26) :
    doubleMul r n = max (roundDouble ((2 : ℚ) ^ 26 * r)) ((n : ℚ) * r) := by
  unfold doubleMul
  rw [if_neg (by intro hc; exact h (by exact_mod_cast hc))]
  simp

/-- The product rounded to a double. -/
@[reducible] def doubleBand : BandOps where
  mul := doubleMul
  nonneg r n h := by
    by_cases hn : n ≤ 2 ^ 26
    · rw [doubleMul_le hn]
      exact round_nonneg (mul_nonneg (Nat.cast_nonneg _) h)
    · rw [doubleMul_gt hn]
      exact le_max_of_le_right (mul_nonneg (Nat.cast_nonneg _) h)
  mono r n n' h hnn := by
    have hc : (n : ℚ) ≤ n' := by exact_mod_cast hnn
    by_cases hn' : n' ≤ 2 ^ 26
    · rw [doubleMul_le hn', doubleMul_le (le_trans hnn hn')]
      exact roundDouble_rounding.mono _ _ (mul_le_mul_of_nonneg_right hc h)
    · rw [doubleMul_gt hn']
      by_cases hn : n ≤ 2 ^ 26
      · rw [doubleMul_le hn]
        refine le_max_of_le_left (roundDouble_rounding.mono _ _ (mul_le_mul_of_nonneg_right ?_ h))
        exact_mod_cast hn
      · rw [doubleMul_gt hn]
        exact max_le_max le_rfl (mul_le_mul_of_nonneg_right hc h)
  full r n h := by
    have h0 : (n : ℚ) ≤ n * r := le_mul_of_one_le_right (by positivity) h
    by_cases hn : n ≤ 2 ^ 26
    · rw [doubleMul_le hn]
      have := round_ge (z := n) (x := (n : ℚ) * r) (by rw [abs_of_nonneg (by omega)]; norm_num; omega) (by push_cast; exact h0)
      exact_mod_cast this
    · rw [doubleMul_gt hn]
      exact le_max_of_le_right h0
  step r n h hn1 := by
    by_contra hc
    have hc := not_le.1 hc
    have hkn : ⌊doubleMul r n⌋ + 2 ≤ n := by omega
    have hk2 : ⌊doubleMul r n⌋ + 2 ≤ ⌊doubleMul r (n + 1 : ℕ)⌋ := by omega
    have hk2' := Int.le_floor.1 hk2
    have hlt := Int.lt_floor_add_one (doubleMul r n)
    have hr1 : r < 1 := by
      by_contra hr
      have h0 : (n : ℚ) ≤ n * r := le_mul_of_one_le_right (by positivity) (not_lt.1 hr)
      have : (n : ℤ) ≤ ⌊doubleMul r n⌋ := by
        rw [Int.le_floor]
        by_cases hn : n ≤ 2 ^ 26
        · rw [doubleMul_le hn]
          exact round_ge (z := n) (x := (n : ℚ) * r) (by rw [abs_of_nonneg (by omega)]; norm_num; omega) (by push_cast; exact h0)
        · rw [doubleMul_gt hn]
          exact le_max_of_le_right (by exact_mod_cast h0)
      omega
    have hk0 : 0 ≤ ⌊doubleMul r n⌋ := by
      rw [Int.floor_nonneg]
      by_cases hn : n ≤ 2 ^ 26
      · rw [doubleMul_le hn]
        exact round_nonneg (mul_nonneg (Nat.cast_nonneg _) h)
      · rw [doubleMul_gt hn]
        exact le_max_of_le_right (mul_nonneg (Nat.cast_nonneg _) h)
    generalize hk : ⌊doubleMul r n⌋ = k at *
    by_cases hn : n + 1 ≤ 2 ^ 26
    · rw [doubleMul_le (by omega)] at hlt
      rw [doubleMul_le hn] at hk2'
      have := round_step (r := r) (n := n) (k := k) h (by omega) hk0 hkn hlt
      push_cast at hk2' this
      linarith
    · rw [doubleMul_gt hn] at hk2'
      push_cast at hk2'
      have hnr : (n : ℚ) * r < k + 1 := by
        by_cases hn' : n ≤ 2 ^ 26
        · rw [doubleMul_le hn'] at hlt
          by_contra hc
          have := round_ge (z := k + 1) (x := (n : ℚ) * r) (by rw [abs_of_nonneg (by omega)]; norm_num; omega)
            (by push_cast; exact not_lt.1 hc)
          push_cast at this
          linarith
        · rw [doubleMul_gt hn'] at hlt
          exact lt_of_le_of_lt (le_max_right _ _) hlt
      have hR : roundDouble ((2 : ℚ) ^ 26 * r) < k + 1 := by
        by_cases hn' : n ≤ 2 ^ 26
        · rw [doubleMul_le hn'] at hlt
          have : n = 2 ^ 26 := by omega
          subst this
          exact_mod_cast hlt
        · rw [doubleMul_gt hn'] at hlt
          exact lt_of_le_of_lt (le_max_left _ _) hlt
      rcases le_max_iff.1 hk2' with h3 | h3
      · linarith
      · rw [add_mul, one_mul] at h3
        linarith

end Genex
