import Verif.Spec.Decimal
import Verif.Spec.OldFormat
import Verif.Lemmas.Float

/-!
# Lemmas on decimal digits
-/

set_option linter.unusedSectionVars false

namespace Genex

open Spec

/-! ### Rounding to decimal digits -/

theorem ten_zpow (k : ℤ) : (0 : ℚ) < 10 ^ k := zpow_pos (by norm_num) k

theorem roundEven_nearest (z : ℚ) (n : ℤ) : |(roundEven z : ℚ) - z| ≤ |(n : ℚ) - z| := by
  by_cases h : roundEven z = n
  · rw [h]
  · have h1 := roundEven_err z
    by_contra hc
    have h2 : |(n : ℚ) - z| < 1 / 2 := by linarith [_root_.not_le.1 hc]
    exact h (roundEven_unique (roundEven_spec z) (Or.inl h2))

/-- The value printed is nearer than any other number with as many digits. -/
theorem decimal_nearest {n : ℕ} (hn : 1 ≤ n) {x d : ℚ} (hx : x ≠ 0) (hd : Digits n d) : |decimal n x - x| ≤ |d - x| := by
  obtain ⟨k, g, hk, rfl⟩ := hd
  set s : ℤ := lastDecimal n x with hs
  have hs0 := ten_zpow s
  have key : ∀ w : ℤ, |decimal n x - x| ≤ |(w : ℚ) * 10 ^ s - x| := by
    intro w
    have e1 : decimal n x - x = ((roundEven (x / 10 ^ s) : ℚ) - x / 10 ^ s) * 10 ^ s := by
      unfold decimal
      rw [← hs, sub_mul, div_mul_cancel₀ _ (ne_of_gt hs0)]
    have e2 : (w : ℚ) * 10 ^ s - x = ((w : ℚ) - x / 10 ^ s) * 10 ^ s := by
      rw [sub_mul, div_mul_cancel₀ _ (ne_of_gt hs0)]
    rw [e1, e2, abs_mul, abs_mul, abs_of_pos hs0]
    exact mul_le_mul_of_nonneg_right (roundEven_nearest _ _) (le_of_lt hs0)
  by_cases hg : s ≤ g
  · obtain ⟨j, hj⟩ := Int.eq_ofNat_of_zero_le (by omega : 0 ≤ g - s)
    have : (k : ℚ) * 10 ^ g = ((k * 10 ^ j : ℤ) : ℚ) * 10 ^ s := by
      push_cast
      rw [mul_assoc, ← zpow_natCast, ← zpow_add₀ (by norm_num)]
      congr 2
      omega
    rw [this]
    exact key _
  · have hax : 0 < |x| := abs_pos.2 hx
    set e : ℤ := Int.log 10 |x| with he
    have hse : s = e - (n - 1) := by rw [hs]; rfl
    have l1 : (10 : ℚ) ^ e ≤ |x| := by exact_mod_cast Int.zpow_log_le_self (b := 10) (by norm_num) hax
    have hsmall : |(k : ℚ) * 10 ^ g| ≤ 10 ^ e := by
      rw [abs_mul, abs_of_pos (ten_zpow g)]
      have h1 : |(k : ℚ)| ≤ 10 ^ (n : ℤ) := by
        rw [zpow_natCast]
        exact_mod_cast le_of_lt hk
      calc |(k : ℚ)| * 10 ^ g ≤ 10 ^ (n : ℤ) * 10 ^ g := mul_le_mul_of_nonneg_right h1 (le_of_lt (ten_zpow g))
        _ = 10 ^ ((n : ℤ) + g) := by rw [zpow_add₀ (by norm_num)]
        _ ≤ 10 ^ e := zpow_le_zpow_right₀ (by norm_num) (by omega)
    have hpow : (10 : ℚ) ^ e = ((10 ^ (n - 1) : ℤ) : ℚ) * 10 ^ s := by
      push_cast
      rw [← zpow_natCast, ← zpow_add₀ (by norm_num)]
      congr 1
      omega
    rcases lt_or_gt_of_ne hx with hneg | hpos
    · have := key (-10 ^ (n - 1))
      have e2 : (((-10 ^ (n - 1) : ℤ)) : ℚ) * 10 ^ s = -10 ^ e := by rw [hpow]; push_cast; ring
      rw [e2] at this
      refine le_trans this ?_
      rw [abs_of_neg hneg] at l1
      have := abs_le.1 hsmall
      rw [abs_of_nonneg (by linarith), abs_of_nonneg (by linarith)]
      linarith
    · have := key (10 ^ (n - 1))
      rw [← hpow] at this
      refine le_trans this ?_
      rw [abs_of_pos hpos] at l1
      have := abs_le.1 hsmall
      rw [abs_of_nonpos (by linarith), abs_of_nonpos (by linarith)]
      linarith

theorem decimal_zero (n : ℕ) : decimal n 0 = 0 := by
  unfold decimal
  rw [zero_div]
  have : roundEven (0 : ℚ) = 0 := by have := roundEven_int (K := ℚ) 0; simpa using this
  rw [this]
  simp

/-- A number with few digits is printed as it is. -/
theorem decimal_exact {n : ℕ} (hn : 1 ≤ n) {x : ℚ} (hd : Digits n x) : decimal n x = x := by
  by_cases hx : x = 0
  · rw [hx, decimal_zero]
  · have := decimal_nearest hn hx hd
    rw [sub_self, abs_zero] at this
    exact sub_eq_zero.1 (abs_eq_zero.1 (le_antisymm this (abs_nonneg _)))

theorem decimal_err {n : ℕ} (x : ℚ) : |decimal n x - x| ≤ 1 / 2 * 10 ^ (1 - (n : ℤ)) * |x| := by
  by_cases hx : x = 0
  · rw [hx, decimal_zero]; simp
  · have hax : 0 < |x| := abs_pos.2 hx
    have hs0 := ten_zpow (lastDecimal n x)
    have l1 : (10 : ℚ) ^ Int.log 10 |x| ≤ |x| := by exact_mod_cast Int.zpow_log_le_self (b := 10) (by norm_num) hax
    have e1 : decimal n x - x = ((roundEven (x / 10 ^ lastDecimal n x) : ℚ) - x / 10 ^ lastDecimal n x) * 10 ^ lastDecimal n x := by
      unfold decimal
      rw [sub_mul, div_mul_cancel₀ _ (ne_of_gt hs0)]
    rw [e1, abs_mul, abs_of_pos hs0]
    have h := roundEven_err (x / 10 ^ lastDecimal n x)
    have e2 : (10 : ℚ) ^ lastDecimal n x = 10 ^ (1 - (n : ℤ)) * 10 ^ Int.log 10 |x| := by
      rw [← zpow_add₀ (by norm_num)]
      congr 1
      unfold lastDecimal
      omega
    calc _ ≤ 1 / 2 * 10 ^ lastDecimal n x := mul_le_mul_of_nonneg_right h (le_of_lt hs0)
      _ = 1 / 2 * 10 ^ (1 - (n : ℤ)) * 10 ^ Int.log 10 |x| := by rw [e2]; ring
      _ ≤ _ := mul_le_mul_of_nonneg_left l1 (by have := ten_zpow (1 - (n : ℤ)); positivity)

/-! ### Reading back -/

section
variable {p : ℕ} (hp : 1 ≤ p)

include hp

theorem lastDigit_bounds {w : ℚ} (hw : 0 < w) :
    (2 : ℚ) ^ (lastDigit p w + (p - 1)) ≤ w ∧ w < 2 ^ (lastDigit p w + p) := by
  have l1 : (2 : ℚ) ^ Int.log 2 w ≤ w := by exact_mod_cast Int.zpow_log_le_self (b := 2) (by norm_num) hw
  have l2 : w < (2 : ℚ) ^ (Int.log 2 w + 1) := by exact_mod_cast Int.lt_zpow_succ_log_self (b := 2) (by norm_num) w
  unfold lastDigit
  rw [abs_of_pos hw]
  refine ⟨?_, ?_⟩
  · rw [show Int.log 2 w - ((p : ℤ) - 1) + (p - 1) = Int.log 2 w by ring]; exact l1
  · rw [show Int.log 2 w - ((p : ℤ) - 1) + p = Int.log 2 w + 1 by ring]; exact l2

theorem roundSub_pow {lo k : ℤ} (hk : lo ≤ k) : roundSub p lo ((2 : ℚ) ^ k) = 2 ^ k := by
  have := roundSub_digits (K := ℚ) hp (lo := lo) 1 k (by
    have : (1 : ℤ) ≤ 2 ^ p := one_le_pow₀ (by norm_num)
    simpa using this) hk
  simpa using this

/-- What lies as near to the result of rounding as the number rounded is rounded to the same, except around powers of two. -/
theorem roundSub_nearer_pos {lo : ℤ} {d x y : ℚ} (hx : 0 < x) (hd : roundSub p lo d = x) (hy : |y - x| ≤ |d - x|)
    (h2 : ¬ PowerOfTwo x) : roundSub p lo y = x := by
  have hd0 : 0 < d := by
    by_contra hc
    have := roundSub_mono (lo := lo) hp (_root_.not_lt.1 hc)
    rw [hd, roundSub_zero] at this
    linarith
  set L : ℤ := max (lastDigit p x) lo with hL
  have hL0 := two_zpow (K := ℚ) L
  obtain ⟨b1, b2⟩ := lastDigit_bounds hp hx
  obtain ⟨c1, c2⟩ := lastDigit_bounds hp hd0
  have hLx : lastDigit p x ≤ L := le_max_left _ _
  have hlo : lo ≤ L := le_max_right _ _
  have hLd : max (lastDigit p d) lo = L := by
    rcases lt_trichotomy (max (lastDigit p d) lo) L with h | h | h
    · exfalso
      have hdL : lastDigit p d < L := lt_of_le_of_lt (le_max_left _ _) h
      have hlo' : lo < L := lt_of_le_of_lt (le_max_right _ _) h
      have hLx' : L = lastDigit p x := by
        rcases le_total (lastDigit p x) lo with h' | h'
        · rw [hL, max_eq_right h'] at hlo'; exact absurd hlo' (lt_irrefl _)
        · rw [hL, max_eq_left h']
      have h3 : d ≤ 2 ^ (L + ((p : ℤ) - 1)) :=
        le_trans (le_of_lt c2) (zpow_le_zpow_right₀ (by norm_num) (by omega))
      have h4 := roundSub_mono (lo := lo) hp h3
      rw [hd, roundSub_pow hp (by omega)] at h4
      rw [← hLx'] at b1
      exact h2 ⟨_, by rw [abs_of_pos hx]; exact le_antisymm h4 b1⟩
    · exact h
    · exfalso
      have hdl : max (lastDigit p d) lo = lastDigit p d := by
        rcases le_total (lastDigit p d) lo with h' | h'
        · rw [max_eq_right h'] at h; omega
        · exact max_eq_left h'
      rw [hdl] at h
      have h3 : (2 : ℚ) ^ (L + p) ≤ d := le_trans (zpow_le_zpow_right₀ (by norm_num) (by omega)) c1
      have h4 := roundSub_mono (lo := lo) hp h3
      rw [hd, roundSub_pow hp (by omega)] at h4
      have : x < 2 ^ (L + p) := lt_of_lt_of_le b2 (zpow_le_zpow_right₀ (by norm_num) (by omega))
      linarith
  set M : ℤ := roundEven (d / 2 ^ L) with hM
  have hxM : x = M * 2 ^ L := by
    rw [← hd]
    unfold roundSub
    rw [hLd]
  have scale : ∀ w : ℚ, |(M : ℚ) - w / 2 ^ L| * 2 ^ L = |w - x| := by
    intro w
    have : w - x = -(((M : ℚ) - w / 2 ^ L) * 2 ^ L) := by
      rw [sub_mul, div_mul_cancel₀ _ (ne_of_gt hL0), ← hxM]
      ring
    rw [this, abs_neg, abs_mul, abs_of_pos hL0]
  have hle : |(M : ℚ) - y / 2 ^ L| ≤ |(M : ℚ) - d / 2 ^ L| := by
    refine le_of_mul_le_mul_right ?_ hL0
    rw [scale, scale]
    exact hy
  have hspec := roundEven_spec (d / 2 ^ L)
  rw [← hM] at hspec
  have hyM : |(M : ℚ) - y / 2 ^ L| < 1 / 2 ∨ (|(M : ℚ) - y / 2 ^ L| = 1 / 2 ∧ M % 2 = 0) := by
    rcases hspec with h | ⟨h, h'⟩
    · exact Or.inl (lt_of_le_of_lt hle h)
    · rcases lt_or_eq_of_le (le_trans hle (le_of_eq h)) with g | g
      · exact Or.inl g
      · exact Or.inr ⟨g, h'⟩
  have hround : roundEven (y / 2 ^ L) = M := roundEven_unique (roundEven_spec _) hyM
  have hhalf : |(M : ℚ) - y / 2 ^ L| ≤ 1 / 2 := by rcases hyM with h | h; exacts [le_of_lt h, le_of_eq h.1]
  have hMpos : 0 < M := by
    have : (0 : ℚ) < M := by
      rw [hxM] at hx
      exact (mul_pos_iff_of_pos_right hL0).1 hx
    exact_mod_cast this
  have hM1 : (1 : ℚ) ≤ M := by exact_mod_cast hMpos
  have hMp : M < 2 ^ p := by
    have : x < 2 ^ (L + p) := lt_of_lt_of_le b2 (zpow_le_zpow_right₀ (by norm_num) (by omega))
    rw [hxM, add_comm, zpow_add₀ (by norm_num), zpow_natCast] at this
    have := lt_of_mul_lt_mul_right this (le_of_lt hL0)
    exact_mod_cast this
  have hMp' : (M : ℚ) + 1 ≤ 2 ^ p := by exact_mod_cast hMp
  have habs := abs_le.1 hhalf
  have hydiv : y = y / 2 ^ L * 2 ^ L := by rw [div_mul_cancel₀ _ (ne_of_gt hL0)]
  have hy0 : 0 < y := by
    rw [hydiv]
    exact mul_pos (by linarith) hL0
  have hLy : max (lastDigit p y) lo = L := by
    obtain ⟨e1, e2⟩ := lastDigit_bounds hp hy0
    have hup : lastDigit p y ≤ L := by
      by_contra hc
      have h3 : (2 : ℚ) ^ (L + p) ≤ y := le_trans (zpow_le_zpow_right₀ (by norm_num) (by omega)) e1
      rw [hydiv, add_comm, zpow_add₀ (by norm_num), zpow_natCast] at h3
      have := le_of_mul_le_mul_right h3 hL0
      linarith
    rcases le_total (lastDigit p x) lo with h' | h'
    · have : L = lo := by rw [hL, max_eq_right h']
      rw [this] at hup ⊢
      exact max_eq_right hup
    · have hLx' : L = lastDigit p x := by rw [hL, max_eq_left h']
      have hlow : L ≤ lastDigit p y := by
        by_contra hc
        have h3 : y < 2 ^ (L + ((p : ℤ) - 1)) := lt_of_lt_of_le e2 (zpow_le_zpow_right₀ (by norm_num) (by omega))
        have hpow : (2 : ℚ) ^ (L + ((p : ℤ) - 1)) = ((2 ^ (p - 1) : ℤ) : ℚ) * 2 ^ L := by
          push_cast
          rw [← zpow_natCast, ← zpow_add₀ (by norm_num)]
          congr 1
          omega
        rw [← hLx', hpow, hxM] at b1
        have h5 : (2 : ℤ) ^ (p - 1) ≤ M := by exact_mod_cast le_of_mul_le_mul_right b1 hL0
        have h6 : (2 : ℤ) ^ (p - 1) ≠ M := by
          intro h
          refine h2 ⟨L + ((p : ℤ) - 1), ?_⟩
          rw [abs_of_pos hx, hpow, hxM, h]
        have h7 : (((2 : ℤ) ^ (p - 1) : ℤ) : ℚ) + 1 ≤ M := by
          have : (2 : ℤ) ^ (p - 1) + 1 ≤ M := by omega
          exact_mod_cast this
        rw [hydiv, hpow] at h3
        have := lt_of_mul_lt_mul_right h3 (le_of_lt hL0)
        linarith
      rw [max_eq_left (by omega)]
      omega
  unfold roundSub
  rw [hLy, hround, ← hxM]

theorem roundSub_nearer {lo : ℤ} {d x y : ℚ} (hd : roundSub p lo d = x) (hy : |y - x| ≤ |d - x|)
    (h2 : ¬ PowerOfTwo x) (h0 : x ≠ 0) : roundSub p lo y = x := by
  rcases lt_or_gt_of_ne h0 with h | h
  · have := roundSub_nearer_pos hp (lo := lo) (d := -d) (x := -x) (y := -y) (by linarith) (by rw [roundSub_neg, hd])
      (by rw [show -y - -x = -(y - x) by ring, show -d - -x = -(d - x) by ring, abs_neg, abs_neg]; exact hy)
      (by rintro ⟨k, hk⟩; exact h2 ⟨k, by rw [← hk, abs_neg]⟩)
    rw [roundSub_neg] at this
    exact neg_injective this
  · exact roundSub_nearer_pos hp h hd hy h2

end

theorem roundDouble_int {z : ℤ} (h : |z| ≤ 2 ^ 53) : roundDouble (z : ℚ) = z := by
  have := roundSub_digits (K := ℚ) (p := 53) (by norm_num) (lo := -1074) z 0 h (by norm_num)
  simpa [roundDouble] using this

/-- What is read from what is printed. -/
theorem numberOf_printed (n : ℕ) (x : ℚ) : numberOf (printed n (.fin x)) = some (.fin (roundDouble (decimal n x))) := by
  unfold printed
  simp only
  split
  · rename_i h
    obtain ⟨h1, -, h3⟩ := h
    have e : ((decimal n x).num : ℚ) = decimal n x := by
      conv_rhs => rw [← Rat.num_div_den (decimal n x)]
      rw [h1]
      simp
    have h4 : |(decimal n x).num| ≤ 2 ^ 53 := by
      rw [← e] at h3
      exact_mod_cast h3
    have := roundDouble_int h4
    rw [e] at this
    simp only [numberOf, this, e]
  · rfl

end Genex
