import Verif.Spec.Float
import Mathlib.Tactic.Linarith
import Mathlib.Tactic.Ring
import Mathlib.Tactic.FieldSimp
import Mathlib.Tactic.Positivity
import Mathlib.Tactic.NormNum

/-! Rounding to nearest, ties to even. -/

set_option linter.unusedSectionVars false

namespace Genex.Spec

variable {K : Type} [Field K] [LinearOrder K] [IsStrictOrderedRing K] [FloorRing K]

theorem two_zpow (k : ℤ) : (0 : K) < 2 ^ k := zpow_pos (by norm_num) k

theorem roundEven_spec (z : K) : |(roundEven z : K) - z| < 1 / 2 ∨ (|(roundEven z : K) - z| = 1 / 2 ∧ roundEven z % 2 = 0) := by
  have h0 := Int.floor_le z
  have h1 := Int.lt_floor_add_one z
  unfold roundEven
  split_ifs with c1 c2 c3
  · left; rw [abs_sub_comm, abs_of_nonneg (by linarith)]; exact c1
  · left; push_cast; rw [abs_of_nonneg (by linarith)]; linarith
  · right
    refine ⟨?_, c3⟩
    rw [abs_sub_comm, abs_of_nonneg (by linarith)]
    linarith
  · right
    push_cast
    refine ⟨?_, by omega⟩
    rw [abs_of_nonneg (by linarith)]
    linarith

theorem roundEven_unique {z : K} {n m : ℤ} (hn : |(n : K) - z| < 1 / 2 ∨ (|(n : K) - z| = 1 / 2 ∧ n % 2 = 0))
    (hm : |(m : K) - z| < 1 / 2 ∨ (|(m : K) - z| = 1 / 2 ∧ m % 2 = 0)) : n = m := by
  have h1 : |(n : K) - z| ≤ 1 / 2 := by rcases hn with h | h; exacts [le_of_lt h, le_of_eq h.1]
  have h2 : |(m : K) - z| ≤ 1 / 2 := by rcases hm with h | h; exacts [le_of_lt h, le_of_eq h.1]
  rw [abs_le] at h1 h2
  by_contra hne
  have key : ∀ (a b : ℤ), a < b → (|(a : K) - z| < 1 / 2 ∨ (|(a : K) - z| = 1 / 2 ∧ a % 2 = 0)) →
      (|(b : K) - z| < 1 / 2 ∨ (|(b : K) - z| = 1 / 2 ∧ b % 2 = 0)) →
      -(1 / 2) ≤ (a : K) - z → (b : K) - z ≤ 1 / 2 → False := by
    intro a b hab ha hb k1 k2
    have h3 : (a : K) + 1 ≤ b := by exact_mod_cast hab
    have h4 : (b : K) = a + 1 := by linarith
    have hba : b = a + 1 := by exact_mod_cast h4
    have hz : z = a + 1 / 2 := by linarith
    have ea : |(a : K) - z| = 1 / 2 := by rw [hz, abs_sub_comm, abs_of_nonneg] <;> linarith
    have eb : |(b : K) - z| = 1 / 2 := by rw [hz, abs_of_nonneg] <;> linarith
    rw [ea] at ha
    rw [eb] at hb
    simp only [lt_irrefl, true_and, false_or] at ha hb
    omega
  rcases lt_or_gt_of_ne hne with h | h
  · exact key n m h hn hm h1.1 h2.2
  · exact key m n h hm hn h2.1 h1.2

theorem roundEven_err (z : K) : |(roundEven z : K) - z| ≤ 1 / 2 := by
  rcases roundEven_spec z with h | h
  · exact le_of_lt h
  · exact le_of_eq h.1

theorem roundEven_neg (z : K) : roundEven (-z) = -roundEven z := by
  refine roundEven_unique (roundEven_spec (-z)) ?_
  have e : |((-roundEven z : ℤ) : K) - -z| = |(roundEven z : K) - z| := by
    push_cast
    rw [← abs_neg]
    congr 1
    ring
  rw [e]
  rcases roundEven_spec z with h | ⟨h1, h2⟩
  · exact .inl h
  · exact .inr ⟨h1, by omega⟩

theorem roundEven_int (n : ℤ) : roundEven (n : K) = n := by
  unfold roundEven
  rw [Int.floor_intCast, if_pos (by rw [sub_self]; norm_num)]

theorem roundEven_mono {z w : K} (h : z ≤ w) : roundEven z ≤ roundEven w := by
  rcases eq_or_lt_of_le h with rfl | h
  · exact le_refl _
  by_contra hc
  have hc : roundEven w + 1 ≤ roundEven z := by omega
  have hc' : (roundEven w : K) + 1 ≤ roundEven z := by exact_mod_cast hc
  have h1 := abs_le.1 (roundEven_err z)
  have h2 := abs_le.1 (roundEven_err w)
  linarith [h1.1, h1.2, h2.1, h2.2]

section
variable {p : ℕ} (hp : 1 ≤ p)

theorem roundTo_zero (p : ℕ) : roundTo p (0 : K) = 0 := by
  unfold roundTo
  rw [zero_div]
  have : roundEven (0 : K) = 0 := by have := roundEven_int (K := K) 0; simpa using this
  rw [this]
  simp

theorem roundTo_neg (p : ℕ) (x : K) : roundTo p (-x) = -roundTo p x := by
  unfold roundTo lastDigit
  rw [abs_neg, neg_div, roundEven_neg]
  push_cast
  ring

include hp

theorem scaled {x : K} (hx : 0 < x) : (2 : K) ^ (p - 1) ≤ x / 2 ^ lastDigit p x ∧ x / 2 ^ lastDigit p x < 2 ^ p := by
  have h2 : (0 : K) < 2 ^ lastDigit p x := two_zpow _
  have l1 : (2 : K) ^ Int.log 2 x ≤ x := by exact_mod_cast Int.zpow_log_le_self (b := 2) (by norm_num) hx
  have l2 : x < (2 : K) ^ (Int.log 2 x + 1) := by exact_mod_cast Int.lt_zpow_succ_log_self (b := 2) (by norm_num) x
  rw [le_div_iff₀ h2, div_lt_iff₀ h2]
  unfold lastDigit
  rw [abs_of_pos hx, ← zpow_natCast, ← zpow_natCast, ← zpow_add₀ (by norm_num), ← zpow_add₀ (by norm_num)]
  have e1 : ((p - 1 : ℕ) : ℤ) + (Int.log 2 x - (p - 1)) = Int.log 2 x := by omega
  have e2 : ((p : ℕ) : ℤ) + (Int.log 2 x - (p - 1)) = Int.log 2 x + 1 := by omega
  rw [e1, e2]
  exact ⟨l1, l2⟩

theorem roundTo_range {x : K} (hx : 0 < x) :
    (2 : K) ^ Int.log 2 x ≤ roundTo p x ∧ roundTo p x ≤ 2 ^ (Int.log 2 x + 1) := by
  obtain ⟨h1, h2⟩ := scaled hp hx
  have h3 : (0 : K) < 2 ^ lastDigit p x := two_zpow _
  have r1 := roundEven_mono h1
  have r2 := roundEven_mono (le_of_lt h2)
  have c1 : roundEven ((2 : K) ^ (p - 1)) = 2 ^ (p - 1) := by
    have := roundEven_int (K := K) (2 ^ (p - 1)); push_cast at this; exact this
  have c2 : roundEven ((2 : K) ^ p) = 2 ^ p := by
    have := roundEven_int (K := K) (2 ^ p); push_cast at this; exact this
  rw [c1] at r1
  rw [c2] at r2
  have r1' : (2 : K) ^ (p - 1) ≤ roundEven (x / 2 ^ lastDigit p x) := by exact_mod_cast r1
  have r2' : (roundEven (x / 2 ^ lastDigit p x) : K) ≤ 2 ^ p := by exact_mod_cast r2
  have e1 : ((p - 1 : ℕ) : ℤ) + lastDigit p x = Int.log 2 x := by unfold lastDigit; rw [abs_of_pos hx]; omega
  have e2 : ((p : ℕ) : ℤ) + lastDigit p x = Int.log 2 x + 1 := by unfold lastDigit; rw [abs_of_pos hx]; omega
  constructor
  · rw [← e1, zpow_add₀ (by norm_num), zpow_natCast]
    exact mul_le_mul_of_nonneg_right r1' (le_of_lt h3)
  · rw [← e2, zpow_add₀ (by norm_num), zpow_natCast]
    exact mul_le_mul_of_nonneg_right r2' (le_of_lt h3)

theorem roundTo_mono_pos {x y : K} (hx : 0 < x) (h : x ≤ y) : roundTo p x ≤ roundTo p y := by
  have hy := lt_of_lt_of_le hx h
  have hl := Int.log_mono_right (b := 2) hx h
  rcases eq_or_lt_of_le hl with e | hl
  · have e' : lastDigit p x = lastDigit p y := by unfold lastDigit; rw [abs_of_pos hx, abs_of_pos hy, e]
    unfold roundTo
    rw [← e']
    have h3 : (0 : K) < 2 ^ lastDigit p x := two_zpow _
    refine mul_le_mul_of_nonneg_right ?_ (le_of_lt h3)
    exact_mod_cast roundEven_mono (div_le_div_of_nonneg_right h (le_of_lt h3))
  · refine le_trans (roundTo_range hp hx).2 (le_trans ?_ (roundTo_range hp hy).1)
    exact zpow_le_zpow_right₀ (by norm_num) (by omega)

theorem roundTo_pos {x : K} (hx : 0 < x) : 0 < roundTo p x :=
  lt_of_lt_of_le (two_zpow _) (roundTo_range hp hx).1

theorem roundTo_mono {x y : K} (h : x ≤ y) : roundTo p x ≤ roundTo p y := by
  rcases lt_trichotomy x 0 with hx | rfl | hx
  · rcases lt_trichotomy y 0 with hy | rfl | hy
    · have := roundTo_mono_pos hp (neg_pos.2 hy) (neg_le_neg h)
      rw [roundTo_neg, roundTo_neg] at this
      linarith
    · have := roundTo_pos hp (neg_pos.2 hx)
      rw [roundTo_neg] at this
      rw [roundTo_zero]
      linarith
    · have h1 := roundTo_pos hp (neg_pos.2 hx)
      have h2 := roundTo_pos hp hy
      rw [roundTo_neg] at h1
      linarith
  · rcases eq_or_lt_of_le h with rfl | hy
    · exact le_refl _
    · rw [roundTo_zero]; exact le_of_lt (roundTo_pos hp hy)
  · exact roundTo_mono_pos hp hx h

/-- Numbers of at most `p` binary digits are not changed. -/
theorem roundTo_digits (m : ℤ) (k : ℤ) (hm : |m| ≤ 2 ^ p) : roundTo p ((m : K) * 2 ^ k) = m * 2 ^ k := by
  have main : ∀ (m k : ℤ), 0 < m → m < 2 ^ p → roundTo p ((m : K) * 2 ^ k) = m * 2 ^ k := by
    intro m k h0 h1
    have hx : (0 : K) < m * 2 ^ k := by
      have : (0 : K) < m := by exact_mod_cast h0
      exact mul_pos this (two_zpow k)
    have hl : Int.log 2 ((m : K) * 2 ^ k) < k + p := by
      have h3 : ((2 : ℕ) : K) ^ (Int.log 2 ((m : K) * 2 ^ k)) ≤ m * 2 ^ k := Int.zpow_log_le_self (by norm_num) hx
      have h4 : (m : K) * 2 ^ k < 2 ^ (k + p) := by
        rw [add_comm, zpow_add₀ (by norm_num), zpow_natCast]
        exact mul_lt_mul_of_pos_right (by exact_mod_cast h1) (two_zpow _)
      have h5 := lt_of_le_of_lt h3 h4
      push_cast at h5
      exact (zpow_lt_zpow_iff_right₀ (by norm_num : (1 : K) < 2)).1 h5
    have he : 0 ≤ k - lastDigit p ((m : K) * 2 ^ k) := by
      unfold lastDigit
      rw [abs_of_pos hx]
      omega
    obtain ⟨n, hn⟩ := Int.eq_ofNat_of_zero_le he
    have h2 : (2 : K) ^ lastDigit p ((m : K) * 2 ^ k) ≠ 0 := ne_of_gt (two_zpow _)
    have hq : (m : K) * 2 ^ k / 2 ^ lastDigit p ((m : K) * 2 ^ k) = ((m * 2 ^ n : ℤ) : K) := by
      rw [mul_div_assoc, ← zpow_sub₀ (by norm_num), hn]
      push_cast
      rw [zpow_natCast]
    unfold roundTo
    rw [hq, roundEven_int, ← hq, div_mul_cancel₀ _ h2]
  have main' : ∀ (m k : ℤ), 0 < m → m ≤ 2 ^ p → roundTo p ((m : K) * 2 ^ k) = m * 2 ^ k := by
    intro m k h0 h1
    rcases eq_or_lt_of_le h1 with rfl | h1
    · have e : (((2 : ℤ) ^ p : ℤ) : K) * 2 ^ k = ((2 ^ (p - 1) : ℤ) : K) * 2 ^ (k + 1) := by
        obtain ⟨q, rfl⟩ : ∃ q, p = q + 1 := ⟨p - 1, by omega⟩
        push_cast
        rw [pow_succ, zpow_add₀ (by norm_num), zpow_one]
        ring
      rw [e]
      exact main _ _ (by positivity) (pow_lt_pow_right₀ (by norm_num) (by omega))
    · exact main m k h0 h1
  rcases lt_trichotomy m 0 with h | rfl | h
  · have := main' (-m) k (by omega) (by rw [abs_of_neg h] at hm; exact hm)
    push_cast at this
    rw [neg_mul, roundTo_neg] at this
    exact neg_injective this
  · simp [roundTo_zero]
  · exact main' m k h (by rw [abs_of_pos h] at hm; exact hm)

theorem roundTo_idem (x : K) : roundTo p (roundTo p x) = roundTo p x := by
  have pos : ∀ x : K, 0 < x → roundTo p (roundTo p x) = roundTo p x := by
    intro x hx
    obtain ⟨h1, h2⟩ := scaled hp hx
    have r1 := roundEven_mono h1
    have r2 := roundEven_mono (le_of_lt h2)
    have c1 : roundEven ((2 : K) ^ (p - 1)) = 2 ^ (p - 1) := by
      have := roundEven_int (K := K) (2 ^ (p - 1)); push_cast at this; exact this
    have c2 : roundEven ((2 : K) ^ p) = 2 ^ p := by
      have := roundEven_int (K := K) (2 ^ p); push_cast at this; exact this
    have h0 : (0 : ℤ) < 2 ^ (p - 1) := by positivity
    conv_lhs => rw [show roundTo p x = roundEven (x / 2 ^ lastDigit p x) * 2 ^ lastDigit p x from rfl]
    rw [roundTo_digits hp _ _ (by rw [abs_of_pos (by omega)]; omega)]
    rfl
  rcases lt_trichotomy x 0 with h | rfl | h
  · have := pos (-x) (neg_pos.2 h)
    rw [roundTo_neg, roundTo_neg] at this
    exact neg_injective this
  · simp [roundTo_zero]
  · exact pos x h

theorem roundTo_rounding : Rounding (roundTo (K := K) p) := ⟨fun _ _ => roundTo_mono hp, roundTo_neg p, roundTo_idem hp⟩

theorem roundTo_err (x : K) : |roundTo p x - x| ≤ 1 / 2 ^ p * |x| := by
  have pos : ∀ x : K, 0 < x → |roundTo p x - x| ≤ 1 / 2 ^ p * |x| := by
    intro x hx
    obtain ⟨h1, -⟩ := scaled hp hx
    have h3 : (0 : K) < 2 ^ lastDigit p x := two_zpow _
    have e : roundTo p x - x = (roundEven (x / 2 ^ lastDigit p x) - x / 2 ^ lastDigit p x) * 2 ^ lastDigit p x := by
      unfold roundTo
      rw [sub_mul, div_mul_cancel₀ _ (ne_of_gt h3)]
    rw [e, abs_mul, abs_of_pos h3, abs_of_pos hx]
    have h4 := roundEven_err (x / 2 ^ lastDigit p x)
    rw [le_div_iff₀ h3] at h1
    have h5 : (2 : K) ^ p = 2 * 2 ^ (p - 1) := by
      obtain ⟨q, rfl⟩ : ∃ q, p = q + 1 := ⟨p - 1, by omega⟩
      rw [Nat.add_sub_cancel, pow_succ]; ring
    have h6 : (0 : K) < 2 ^ (p - 1) := by positivity
    calc _ ≤ 1 / 2 * 2 ^ lastDigit p x := mul_le_mul_of_nonneg_right h4 (le_of_lt h3)
      _ ≤ 1 / 2 ^ p * x := by
        rw [h5, one_div_mul_eq_div, one_div_mul_eq_div, div_le_div_iff₀ (by norm_num) (by positivity)]
        nlinarith
  rcases lt_trichotomy x 0 with h | rfl | h
  · have := pos (-x) (neg_pos.2 h)
    rw [roundTo_neg, abs_neg] at this
    rw [← abs_neg, neg_sub, ← neg_sub_neg, sub_neg_eq_add]
    rw [sub_neg_eq_add] at this
    rw [add_comm] at this
    convert this using 2
    ring
  · simp [roundTo_zero]
  · exact pos x h

/-! ## Gradual underflow -/

omit hp in
theorem roundSub_neg (p : ℕ) (lo : ℤ) (x : K) : roundSub p lo (-x) = -roundSub p lo x := by
  unfold roundSub lastDigit
  rw [abs_neg, neg_div, roundEven_neg]
  push_cast
  ring

omit hp in
theorem roundSub_zero (p : ℕ) (lo : ℤ) : roundSub p lo (0 : K) = 0 := by
  unfold roundSub
  rw [zero_div]
  have : roundEven (0 : K) = 0 := by have := roundEven_int (K := K) 0; simpa using this
  rw [this]
  simp

omit hp in
theorem roundSub_normal {lo : ℤ} {x : K} (h : lo ≤ lastDigit p x) : roundSub p lo x = roundTo p x := by
  unfold roundSub roundTo
  rw [max_eq_left h]

theorem roundSub_low {lo : ℤ} {x : K} (hx : 0 < x) (h : lastDigit p x < lo) :
    0 ≤ roundSub p lo x ∧ roundSub p lo x ≤ 2 ^ (lo + (p - 1)) := by
  have h3 : (0 : K) < 2 ^ lo := two_zpow _
  unfold roundSub
  rw [max_eq_right (le_of_lt h)]
  have l2 : x < (2 : K) ^ (Int.log 2 x + 1) := by exact_mod_cast Int.lt_zpow_succ_log_self (b := 2) (by norm_num) x
  have l3 : x ≤ (2 : K) ^ (lo + (p - 1)) := by
    refine le_trans (le_of_lt l2) (zpow_le_zpow_right₀ (by norm_num) ?_)
    unfold lastDigit at h
    rw [abs_of_pos hx] at h
    omega
  constructor
  · refine mul_nonneg ?_ (le_of_lt h3)
    have := roundEven_mono (div_nonneg (le_of_lt hx) (le_of_lt h3))
    have e := roundEven_int (K := K) 0
    rw [Int.cast_zero] at e
    rw [e] at this
    exact_mod_cast this
  · have e1 : x / 2 ^ lo ≤ (2 : K) ^ (p - 1) := by
      rw [div_le_iff₀ h3, ← zpow_natCast, ← zpow_add₀ (by norm_num)]
      have : ((p - 1 : ℕ) : ℤ) + lo = lo + (p - 1) := by omega
      rw [this]
      exact l3
    have e2 := roundEven_mono e1
    have c1 : roundEven ((2 : K) ^ (p - 1)) = 2 ^ (p - 1) := by
      have := roundEven_int (K := K) (2 ^ (p - 1)); push_cast at this; exact this
    rw [c1] at e2
    have e3 : (roundEven (x / 2 ^ lo) : K) ≤ 2 ^ (p - 1) := by exact_mod_cast e2
    have e4 : (2 : K) ^ (lo + ((p : ℤ) - 1)) = 2 ^ (p - 1) * 2 ^ lo := by
      rw [← zpow_natCast, ← zpow_add₀ (by norm_num)]
      congr 1
      omega
    rw [e4]
    exact mul_le_mul_of_nonneg_right e3 (le_of_lt h3)

omit hp in
theorem lastDigit_mono {x y : K} (hx : 0 < x) (h : x ≤ y) : lastDigit p x ≤ lastDigit p y := by
  unfold lastDigit
  rw [abs_of_pos hx, abs_of_pos (lt_of_lt_of_le hx h)]
  have := Int.log_mono_right (b := 2) hx h
  omega

theorem roundSub_nonneg {lo : ℤ} {x : K} (hx : 0 < x) : 0 ≤ roundSub p lo x := by
  by_cases h : lo ≤ lastDigit p x
  · rw [roundSub_normal h]; exact le_of_lt (roundTo_pos hp hx)
  · exact (roundSub_low hp hx (by omega)).1

theorem roundSub_mono_pos {lo : ℤ} {x y : K} (hx : 0 < x) (h : x ≤ y) : roundSub p lo x ≤ roundSub p lo y := by
  have hy := lt_of_lt_of_le hx h
  have hl := lastDigit_mono (p := p) hx h
  by_cases h1 : lo ≤ lastDigit p x
  · rw [roundSub_normal h1, roundSub_normal (by omega)]
    exact roundTo_mono hp h
  · by_cases h2 : lo ≤ lastDigit p y
    · refine le_trans (roundSub_low hp hx (by omega)).2 ?_
      rw [roundSub_normal h2]
      refine le_trans (zpow_le_zpow_right₀ (by norm_num) ?_) (roundTo_range hp hy).1
      unfold lastDigit at h2
      rw [abs_of_pos hy] at h2
      omega
    · unfold roundSub
      rw [max_eq_right (by omega), max_eq_right (by omega)]
      refine mul_le_mul_of_nonneg_right ?_ (le_of_lt (two_zpow _))
      exact_mod_cast roundEven_mono (div_le_div_of_nonneg_right h (le_of_lt (two_zpow _)))

theorem roundSub_mono {lo : ℤ} {x y : K} (h : x ≤ y) : roundSub p lo x ≤ roundSub p lo y := by
  rcases lt_trichotomy x 0 with hx | rfl | hx
  · rcases lt_trichotomy y 0 with hy | rfl | hy
    · have := roundSub_mono_pos (lo := lo) hp (neg_pos.2 hy) (neg_le_neg h)
      rw [roundSub_neg, roundSub_neg] at this
      linarith
    · have := roundSub_nonneg (lo := lo) hp (neg_pos.2 hx)
      rw [roundSub_neg] at this
      rw [roundSub_zero]
      linarith
    · have h1 := roundSub_nonneg (lo := lo) hp (neg_pos.2 hx)
      have h2 := roundSub_nonneg (lo := lo) hp hy
      rw [roundSub_neg] at h1
      linarith
  · rcases eq_or_lt_of_le h with rfl | hy
    · exact le_refl _
    · rw [roundSub_zero]; exact roundSub_nonneg hp hy
  · exact roundSub_mono_pos hp hx h

theorem roundSub_digits {lo : ℤ} (m : ℤ) (k : ℤ) (hm : |m| ≤ 2 ^ p) (hk : lo ≤ k) :
    roundSub p lo ((m : K) * 2 ^ k) = m * 2 ^ k := by
  by_cases h : lo ≤ lastDigit p ((m : K) * 2 ^ k)
  · rw [roundSub_normal h, roundTo_digits hp _ _ hm]
  · obtain ⟨n, hn⟩ := Int.eq_ofNat_of_zero_le (by omega : 0 ≤ k - lo)
    have h2 : (2 : K) ^ lo ≠ 0 := ne_of_gt (two_zpow _)
    have hq : (m : K) * 2 ^ k / 2 ^ lo = ((m * 2 ^ n : ℤ) : K) := by
      rw [mul_div_assoc, ← zpow_sub₀ (by norm_num), hn]
      push_cast
      rw [zpow_natCast]
    unfold roundSub
    rw [max_eq_right (by omega), hq, roundEven_int, ← hq, div_mul_cancel₀ _ h2]

theorem roundSub_idem (lo : ℤ) (x : K) : roundSub p lo (roundSub p lo x) = roundSub p lo x := by
  have pos : ∀ x : K, 0 < x → roundSub p lo (roundSub p lo x) = roundSub p lo x := by
    intro x hx
    conv_lhs => rw [show roundSub p lo x = roundEven (x / 2 ^ max (lastDigit p x) lo) * 2 ^ max (lastDigit p x) lo from rfl]
    rw [roundSub_digits hp]
    · rfl
    · have h3 := two_zpow (K := K) (max (lastDigit p x) lo)
      have h0 : 0 ≤ roundEven (x / 2 ^ max (lastDigit p x) lo) := by
        have := roundEven_mono (div_nonneg (le_of_lt hx) (le_of_lt h3))
        have e := roundEven_int (K := K) 0
        rw [Int.cast_zero] at e
        rw [e] at this
        exact this
      rw [abs_of_nonneg h0]
      have e1 : x / 2 ^ max (lastDigit p x) lo ≤ 2 ^ p := by
        refine le_trans ?_ (le_of_lt (scaled hp hx).2)
        exact div_le_div_of_nonneg_left (le_of_lt hx) (two_zpow _) (zpow_le_zpow_right₀ (by norm_num) (le_max_left _ _))
      have e2 := roundEven_mono e1
      have c2 : roundEven ((2 : K) ^ p) = 2 ^ p := by
        have := roundEven_int (K := K) (2 ^ p); push_cast at this; exact this
      rw [c2] at e2
      exact e2
    · exact le_max_right _ _
  rcases lt_trichotomy x 0 with h | rfl | h
  · have := pos (-x) (neg_pos.2 h)
    rw [roundSub_neg, roundSub_neg] at this
    exact neg_injective this
  · simp [roundSub_zero]
  · exact pos x h

theorem roundSub_rounding (lo : ℤ) : Rounding (roundSub (K := K) p lo) :=
  ⟨fun _ _ => roundSub_mono hp, roundSub_neg p lo, roundSub_idem hp lo⟩

/-- A result is a multiple of the smallest positive number. -/
theorem roundSub_multiple {lo : ℤ} {x : K} (h : roundSub p lo x = x) : ∃ k : ℤ, x = k * 2 ^ lo := by
  obtain ⟨n, hn⟩ := Int.eq_ofNat_of_zero_le (by omega : 0 ≤ max (lastDigit p x) lo - lo)
  refine ⟨roundEven (x / 2 ^ max (lastDigit p x) lo) * 2 ^ n, ?_⟩
  conv_lhs => rw [← h]
  unfold roundSub
  push_cast
  rw [mul_assoc, ← zpow_natCast, ← zpow_add₀ (by norm_num)]
  congr 2
  omega

theorem roundSub_err (lo : ℤ) : (∀ x : K, |roundSub p lo x - x| ≤ 1 / 2 ^ p * |x| + 2 ^ (lo - 1)) ∧
    ∀ x y : K, roundSub p lo x = x → roundSub p lo y = y → |roundSub p lo (x + y) - (x + y)| ≤ 1 / 2 ^ p * |x + y| := by
  have hlo := two_zpow (K := K) lo
  have h1 := two_zpow (K := K) (lo - 1)
  constructor
  · intro x
    have hx : 0 ≤ 1 / 2 ^ p * |x| := mul_nonneg (by positivity) (abs_nonneg _)
    by_cases h : lo ≤ lastDigit p x
    · rw [roundSub_normal h]
      exact le_trans (roundTo_err hp x) (by linarith)
    · refine le_trans ?_ (le_add_of_nonneg_left hx)
      unfold roundSub
      rw [max_eq_right (by omega)]
      have e : (roundEven (x / 2 ^ lo) : K) * 2 ^ lo - x = (roundEven (x / 2 ^ lo) - x / 2 ^ lo) * 2 ^ lo := by
        rw [sub_mul, div_mul_cancel₀ _ (ne_of_gt hlo)]
      rw [e, abs_mul, abs_of_pos hlo, zpow_sub_one₀ (by norm_num), mul_comm]
      refine mul_le_mul_of_nonneg_left (le_trans (roundEven_err _) ?_) (le_of_lt hlo)
      norm_num
  · intro x y hx hy
    by_cases h : lo ≤ lastDigit p (x + y)
    · rw [roundSub_normal h]
      exact roundTo_err hp _
    · obtain ⟨i, hi⟩ := roundSub_multiple hp hx
      obtain ⟨j, hj⟩ := roundSub_multiple hp hy
      have e : (x + y) / 2 ^ lo = ((i + j : ℤ) : K) := by
        rw [div_eq_iff (ne_of_gt hlo), hi, hj]
        push_cast
        ring
      have : roundSub p lo (x + y) = x + y := by
        unfold roundSub
        rw [max_eq_right (by omega), e, roundEven_int, ← e, div_mul_cancel₀ _ (ne_of_gt hlo)]
      rw [this, sub_self, abs_zero]
      exact mul_nonneg (by positivity) (abs_nonneg _)

end

theorem roundDouble_rounding : Rounding (roundDouble (K := K)) := roundSub_rounding (by norm_num) _

theorem roundTo_ops {p : ℕ} (hp : 1 ≤ p) : FloatOps (roundTo (K := K) p) (1 / 2 ^ p) 0 where
  toRounding := roundTo_rounding hp
  err := fun x => by have := roundTo_err hp x; simpa using this
  add := fun x y _ _ => roundTo_err hp _
  u_nonneg := by positivity
  θ_nonneg := le_refl _
  θ_le := by positivity

theorem roundDouble_ops : FloatOps (roundDouble (K := K)) (1 / 2 ^ 53) (1 / 2 ^ 537) where
  toRounding := roundDouble_rounding
  err := fun x => by
    refine le_trans ((roundSub_err (by norm_num) _).1 x) (add_le_add_right ?_ _)
    rw [show ((1 : K) / 2 ^ 537) ^ 2 = 2 ^ (-1074 : ℤ) by rw [div_pow, one_pow, ← pow_mul, zpow_neg, one_div]; exact congrArg _ (zpow_natCast (2 : K) 1074).symm]
    exact zpow_le_zpow_right₀ (by norm_num) (by norm_num)
  add := (roundSub_err (by norm_num) _).2
  u_nonneg := by positivity
  θ_nonneg := by positivity
  θ_le := by
    rw [div_pow, one_pow, ← pow_mul]
    exact one_div_le_one_div_of_le (by positivity) (pow_le_pow_right₀ (by norm_num) (by norm_num))

end Genex.Spec
