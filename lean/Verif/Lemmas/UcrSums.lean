import Verif.Lemmas.UcrRoundedScan

/-! The running sums of genex/lib/trillionDTW.cpp in rounded arithmetic, and what is computed from them. -/

set_option linter.unusedSectionVars false

namespace Genex.Ucr

open Dbl Spec

variable {K : Type} [Field K] [LinearOrder K] [IsStrictOrderedRing K] {fl : K → K} {u θ : K}

/-! ## Sums -/

/-- The exact sum of the last numbers before `i`. -/
def lastSum (m : ℕ) (x : ℕ → K) (i : ℕ) : K := ∑ k ∈ Finset.Ico (i + 1 - m) i, x k

theorem lastSum_step {m : ℕ} (hm : 1 ≤ m) (x : ℕ → K) (i : ℕ) :
    lastSum m x (i + 1) = if m ≤ i + 1 then lastSum m x i + x i - x (i + 1 - m) else lastSum m x i + x i := by
  unfold lastSum
  split_ifs with h
  · rw [show i + 1 + 1 - m = i + 1 - m + 1 by omega, ← Finset.sum_Ico_succ_top (by omega) x, Finset.sum_eq_sum_Ico_succ_bot (show i + 1 - m < i + 1 by omega) x]
    ring
  · rw [show i + 1 + 1 - m = 0 by omega, show i + 1 - m = 0 by omega, Finset.sum_Ico_succ_top (by omega)]

theorem lastSum_le {m : ℕ} (hm : 1 ≤ m) {x : ℕ → K} {B : K} (hB : ∀ k, |x k| ≤ B) (i : ℕ) : |lastSum m x i| ≤ (m - 1) * B := by
  have h0 : 0 ≤ B := _root_.le_trans (abs_nonneg _) (hB 0)
  unfold lastSum
  calc _ ≤ ∑ k ∈ Finset.Ico (i + 1 - m) i, |x k| := Finset.abs_sum_le_sum_abs _ _
    _ ≤ ∑ _k ∈ Finset.Ico (i + 1 - m) i, B := Finset.sum_le_sum fun k _ => hB k
    _ = ((i - (i + 1 - m) : ℕ) : K) * B := by simp
    _ ≤ _ := by
      apply mul_le_mul_of_nonneg_right _ h0
      have : ((i - (i + 1 - m) : ℕ) : K) ≤ ((m - 1 : ℕ) : K) := by exact_mod_cast (by omega)
      rwa [Nat.cast_sub hm, Nat.cast_one] at this

theorem keptSum_float (h : Rounding fl) (m : ℕ) (x : ℕ → K) (i : ℕ) : fl (keptSum fl m x i) = keptSum fl m x i := by
  cases i with
  | zero => exact h.zero
  | succ i =>
    unfold keptSum
    split_ifs <;> exact h.idem _

theorem add_err (h : FloatOps fl u θ) {x y : K} (hx : fl x = x) (hy : fl y = y) : |fl (x + y) - (x + y)| ≤ u * |x + y| := h.add x y hx hy

theorem sub_err (h : FloatOps fl u θ) {x y : K} (hx : fl x = x) (hy : fl y = y) : |fl (x - y) - (x - y)| ≤ u * |x - y| := by
  have := h.add x (-y) hx (by rw [h.neg, hy])
  rwa [← sub_eq_add_neg] at this

theorem keptSum_err (h : FloatOps fl u θ) {m : ℕ} (hm : 1 ≤ m) {x : ℕ → K} {B : K} (hf : ∀ k, fl (x k) = x k) (hB : ∀ k, |x k| ≤ B) (i : ℕ) :
    |keptSum fl m x i - lastSum m x i| ≤ m * B * ((1 + u) ^ (2 * i) - 1) := by
  have hu := h.u_nonneg
  have h0 : 0 ≤ B := _root_.le_trans (abs_nonneg _) (hB 0)
  have hmK : (1 : K) ≤ m := by exact_mod_cast hm
  induction i with
  | zero => simp [keptSum, lastSum]
  | succ i ih =>
    have hT := lastSum_le hm hB i
    have hT' := lastSum_le hm hB (i + 1)
    have hx := hB i
    rw [keptSum, lastSum_step hm]
    rw [lastSum_step hm] at hT'
    have ef := keptSum_float h.toRounding m x i
    generalize keptSum fl m x i = S at *
    generalize lastSum m x i = T at *
    have e1 := add_err h ef (hf i)
    have hG : 1 ≤ (1 + u) ^ (2 * i) := one_le_pow_add hu _
    have hSx : |S + x i| ≤ m * B * (1 + u) ^ (2 * i) := by
      have : S + x i = (S - T) + T + x i := by ring
      rw [this]
      calc _ ≤ |S - T| + |T| + |x i| := (abs_add_le _ _).trans (by gcongr; exact abs_add_le _ _)
        _ ≤ _ := by nlinarith
    have ea : |fl (S + x i) - (T + x i)| ≤ m * B * ((1 + u) ^ (2 * i + 1) - 1) := by
      have : fl (S + x i) - (T + x i) = (fl (S + x i) - (S + x i)) + (S - T) := by ring
      rw [this]
      calc _ ≤ _ := abs_add_le _ _
        _ ≤ u * (m * B * (1 + u) ^ (2 * i)) + m * B * ((1 + u) ^ (2 * i) - 1) := add_le_add (e1.trans (mul_le_mul_of_nonneg_left hSx hu)) ih
        _ = _ := by ring
    have hmB : 0 ≤ (m : K) * B := mul_nonneg (by linarith) h0
    split_ifs at hT' ⊢ with hc
    · have e2 := sub_err h (h.idem (S + x i)) (hf (i + 1 - m))
      have h2 : |fl (S + x i) - x (i + 1 - m)| ≤ m * B * (1 + u) ^ (2 * i + 1) := by
        have : fl (S + x i) - x (i + 1 - m) = (fl (S + x i) - (T + x i)) + (T + x i - x (i + 1 - m)) := by ring
        rw [this]
        calc _ ≤ _ := abs_add_le _ _
          _ ≤ _ := add_le_add ea hT'
          _ ≤ _ := by nlinarith
      have : fl (fl (S + x i) - x (i + 1 - m)) - (T + x i - x (i + 1 - m)) =
          (fl (fl (S + x i) - x (i + 1 - m)) - (fl (S + x i) - x (i + 1 - m))) + (fl (S + x i) - (T + x i)) := by ring
      rw [this]
      calc _ ≤ _ := abs_add_le _ _
        _ ≤ u * (m * B * (1 + u) ^ (2 * i + 1)) + m * B * ((1 + u) ^ (2 * i + 1) - 1) := add_le_add (e2.trans (mul_le_mul_of_nonneg_left h2 hu)) ea
        _ = _ := by ring
    · refine ea.trans (mul_le_mul_of_nonneg_left ?_ hmB)
      have := pow_add_mono hu (show 2 * i + 1 ≤ 2 * (i + 1) by omega)
      linarith

theorem sumFrom_err (h : FloatOps fl u θ) {m n : ℕ} (hm : 1 ≤ m) {x : ℕ → K} {B : K} (hf : ∀ k, fl (x k) = x k) (hB : ∀ k, |x k| ≤ B) (p : ℕ) :
    |sumFrom fl m n x p - ∑ k ∈ Finset.range m, x (p + k)| ≤ m * B * ((1 + u) ^ (2 * (p % n + m)) - 1) := by
  have hu := h.u_nonneg
  have h0 : 0 ≤ B := _root_.le_trans (abs_nonneg _) (hB 0)
  have hmK : (1 : K) ≤ m := by exact_mod_cast hm
  have hmB : 0 ≤ (m : K) * B := mul_nonneg (by linarith) h0
  unfold sumFrom
  have h1 := keptSum_err h hm (x := fun k => x (p / n * n + k)) (fun k => hf _) (fun k => hB _) (p % n + (m - 1))
  have ef := keptSum_float h.toRounding m (fun k => x (p / n * n + k)) (p % n + (m - 1))
  have hT := lastSum_le hm (x := fun k => x (p / n * n + k)) (fun k => hB _) (p % n + (m - 1))
  have hx := hB (p + (m - 1))
  have e1 := add_err h ef (hf (p + (m - 1)))
  have hsum : ∑ k ∈ Finset.range m, x (p + k) = lastSum m (fun k => x (p / n * n + k)) (p % n + (m - 1)) + x (p + (m - 1)) := by
    unfold lastSum
    obtain ⟨m, rfl⟩ : ∃ k, m = k + 1 := ⟨m - 1, by omega⟩
    rw [Finset.sum_range_succ, show p % n + (m + 1 - 1) + 1 - (m + 1) = p % n by omega, Finset.sum_Ico_eq_sum_range, Nat.add_sub_cancel_left]
    simp only [Nat.add_sub_cancel]
    congr 1
    apply Finset.sum_congr rfl
    intro k _
    congr 1
    have := Nat.div_add_mod' p n
    omega
  rw [hsum]
  generalize keptSum fl m (fun k => x (p / n * n + k)) (p % n + (m - 1)) = S at *
  generalize lastSum m (fun k => x (p / n * n + k)) (p % n + (m - 1)) = T at *
  generalize x (p + (m - 1)) = y at *
  have hSx : |S + y| ≤ m * B * (1 + u) ^ (2 * (p % n + (m - 1))) := by
    have : S + y = (S - T) + T + y := by ring
    rw [this]
    calc _ ≤ |S - T| + |T| + |y| := (abs_add_le _ _).trans (by gcongr; exact abs_add_le _ _)
      _ ≤ _ := by nlinarith
  have : fl (S + y) - (T + y) = (fl (S + y) - (S + y)) + (S - T) := by ring
  rw [this]
  calc _ ≤ _ := abs_add_le _ _
    _ ≤ u * (m * B * (1 + u) ^ (2 * (p % n + (m - 1)))) + m * B * ((1 + u) ^ (2 * (p % n + (m - 1))) - 1) :=
      add_le_add (e1.trans (mul_le_mul_of_nonneg_left hSx hu)) h1
    _ = m * B * ((1 + u) ^ (2 * (p % n + (m - 1)) + 1) - 1) := by ring
    _ ≤ _ := by
      apply mul_le_mul_of_nonneg_left _ hmB
      have := pow_add_mono hu (show 2 * (p % n + (m - 1)) + 1 ≤ 2 * (p % n + m) by omega)
      linarith

/-- The sum of the query. -/
theorem totalBy_err (h : FloatOps fl u θ) {w : List K} {B : K} (hB0 : 0 ≤ B) (hf : ∀ x ∈ w, fl x = x) (hB : ∀ x ∈ w, |x| ≤ B) :
    |totalBy fl w - w.sum| ≤ w.length * B * ((1 + u) ^ w.length - 1) ∧ fl (totalBy fl w) = totalBy fl w := by
  have hu := h.u_nonneg
  induction w using List.reverseRecOn with
  | nil => simp [totalBy, h.toRounding.zero]
  | append_singleton w y ih =>
    obtain ⟨ih, ef⟩ := ih (fun x hx => hf x (by simp [hx])) (fun x hx => hB x (by simp [hx]))
    have hT : |w.sum| ≤ w.length * B := by
      have : ∀ l : List K, (∀ x ∈ l, |x| ≤ B) → |l.sum| ≤ l.length * B := by
        intro l
        induction l with
        | nil => simp
        | cons x l ih =>
          intro hl
          have h1 := ih (fun y hy => hl y (by simp [hy]))
          have h2 := hl x (by simp)
          simp only [List.sum_cons, List.length_cons]
          push_cast
          have h3 := abs_add_le x l.sum
          linarith
      exact this w (fun x hx => hB x (by simp [hx]))
    have hy := hB y (by simp)
    have fy := hf y (by simp)
    have e : totalBy fl (w ++ [y]) = fl (totalBy fl w + y) := by simp [totalBy]
    rw [e]
    refine ⟨?_, h.idem _⟩
    generalize totalBy fl w = S at *
    have e1 := add_err h ef fy
    rw [List.sum_append, List.sum_singleton, List.length_append, List.length_singleton]
    generalize w.sum = T at *
    have hG : 1 ≤ (1 + u) ^ w.length := one_le_pow_add hu _
    have hl0 : (0 : K) ≤ w.length := Nat.cast_nonneg _
    have hSx : |S + y| ≤ (w.length + 1) * B * (1 + u) ^ w.length := by
      have : S + y = (S - T) + T + y := by ring
      rw [this]
      calc _ ≤ |S - T| + |T| + |y| := (abs_add_le _ _).trans (by gcongr; exact abs_add_le _ _)
        _ ≤ _ := by nlinarith
    have : fl (S + y) - (T + y) = (fl (S + y) - (S + y)) + (S - T) := by ring
    rw [this]
    push_cast
    have hmB : 0 ≤ (w.length : K) * B := mul_nonneg hl0 hB0
    calc _ ≤ _ := abs_add_le _ _
      _ ≤ u * ((w.length + 1) * B * (1 + u) ^ w.length) + w.length * B * ((1 + u) ^ w.length - 1) := add_le_add (e1.trans (mul_le_mul_of_nonneg_left hSx hu)) ih
      _ ≤ u * ((w.length + 1) * B * (1 + u) ^ w.length) + (w.length + 1) * B * ((1 + u) ^ w.length - 1) := by
        gcongr
        linarith
      _ = _ := by ring

/-! ## The variance -/

theorem abs_le_of_sub {x y e B : K} (h : |x - y| ≤ e) (hy : |y| ≤ B) : |x| ≤ B + e := by
  have := abs_add_le (x - y) y
  rw [sub_add_cancel] at this
  linarith

theorem abs_sub_trans {x y z d e : K} (h1 : |x - y| ≤ d) (h2 : |y - z| ≤ e) : |x - z| ≤ d + e := by
  have := abs_add_le (x - y) (y - z)
  rw [sub_add_sub_cancel] at this
  linarith

/-- The mean and the variance that are computed from approximations `a` and `b` of the mean and of the mean square. -/
theorem variance_err (h : FloatOps fl u θ) (hu1 : u ≤ 1) {N : ℕ} {M μ ν a b : K} (hθ : θ ≤ M) (hμ : |μ| ≤ M) (hν : ν ≤ M ^ 2) (hμν : μ ^ 2 ≤ ν)
    (ha : |a - μ| ≤ M * ((1 + u) ^ N - 1)) (hb : |b - ν| ≤ M ^ 2 * ((1 + u) ^ (N + 1) - 1) + θ ^ 2 * (1 + u) ^ N) (h2 : (1 + u) ^ (N + 2) ≤ 2) :
    |fl a - μ| ≤ M * ((1 + u) ^ (N + 2) - 1) ∧
      |fl (fl b - fl (fl a * fl a)) - (ν - μ ^ 2)| ≤ 2 * M ^ 2 * ((1 + u) ^ (2 * N + 6) - 1) + 6 * θ ^ 2 := by
  have hu := h.u_nonneg
  have hθ0 := h.θ_nonneg
  have hM : 0 ≤ M := hθ0.trans hθ
  have hg : 1 ≤ (1 + u) ^ N := one_le_pow_add hu N
  have e1 : (1 + u) ^ (N + 1) = (1 + u) ^ N * (1 + u) := pow_succ _ _
  have e2 : (1 + u) ^ (N + 2) = (1 + u) ^ N * (1 + u) ^ 2 := pow_add _ _ _
  have e6 : (1 + u) ^ (2 * N + 6) = ((1 + u) ^ N) ^ 2 * (1 + u) ^ 6 := by rw [pow_add, mul_comm 2 N, pow_mul]
  rw [e1] at hb
  rw [e2] at h2 ⊢
  rw [e6]
  generalize (1 + u) ^ N = g at *
  have hθu : θ ≤ u := h.θ_le.trans (by rw [pow_two]; exact mul_le_of_le_one_left hu hu1)
  have hθM : θ ^ 2 ≤ u * M := by rw [pow_two]; exact mul_le_mul hθu hθ hθ0 hu
  have hMg : 0 ≤ M * g := mul_nonneg hM (by linarith)
  -- the mean
  have a1 : |a| ≤ M * g := by
    have := abs_le_of_sub ha hμ
    linarith
  have a2 : |fl a - a| ≤ u * (M * g) + u * M := (h.err a).trans (add_le_add (mul_le_mul_of_nonneg_left a1 hu) hθM)
  have a3 : |fl a - μ| ≤ M * (g * (1 + u) ^ 2 - 1) := by
    refine (abs_sub_trans a2 ha).trans ?_
    have : M * (g * (1 + u) ^ 2 - 1) - (u * (M * g) + u * M + M * (g - 1)) = M * u * (g - 1) + M * g * u ^ 2 := by ring
    have p1 : 0 ≤ M * u * (g - 1) := mul_nonneg (mul_nonneg hM hu) (by linarith)
    have p2 : 0 ≤ M * g * u ^ 2 := mul_nonneg hMg (sq_nonneg u)
    linarith
  refine ⟨a3, ?_⟩
  have a4 : |fl a| ≤ M * (g * (1 + u) ^ 2) := by
    have := abs_le_of_sub a3 hμ
    linarith
  -- its square
  have q1 : |fl a * fl a - μ ^ 2| ≤ M ^ 2 * ((g * (1 + u) ^ 2) ^ 2 - 1) := by
    have : fl a * fl a - μ ^ 2 = (fl a - μ) * (fl a + μ) := by ring
    rw [this, abs_mul]
    have h3 : |fl a + μ| ≤ M * (g * (1 + u) ^ 2 + 1) := by
      have := abs_add_le (fl a) μ
      linarith
    calc _ ≤ M * (g * (1 + u) ^ 2 - 1) * (M * (g * (1 + u) ^ 2 + 1)) := mul_le_mul a3 h3 (abs_nonneg _) ((abs_nonneg _).trans a3)
      _ = _ := by ring
  have q2 : |fl a * fl a| ≤ M ^ 2 * (g * (1 + u) ^ 2) ^ 2 := by
    rw [abs_mul]
    calc _ ≤ M * (g * (1 + u) ^ 2) * (M * (g * (1 + u) ^ 2)) := mul_le_mul a4 a4 (abs_nonneg _) ((abs_nonneg _).trans a4)
      _ = _ := by ring
  have q3 : |fl (fl a * fl a) - μ ^ 2| ≤ M ^ 2 * (g ^ 2 * (1 + u) ^ 5 - 1) + θ ^ 2 := by
    refine (abs_sub_trans ((h.err _).trans (add_le_add_left (mul_le_mul_of_nonneg_left q2 hu) _)) q1).trans (le_of_eq ?_)
    ring
  -- the mean square
  have b0 : |ν| ≤ M ^ 2 := by rw [abs_of_nonneg ((sq_nonneg μ).trans hμν)]; exact hν
  have b1 : |b| ≤ M ^ 2 * (g * (1 + u)) + θ ^ 2 * g := by
    have := abs_le_of_sub hb b0
    linarith
  have b2 : |fl b - ν| ≤ M ^ 2 * (g * (1 + u) ^ 2 - 1) + θ ^ 2 * (g * (1 + u) + 1) := by
    refine (abs_sub_trans ((h.err _).trans (add_le_add_left (mul_le_mul_of_nonneg_left b1 hu) _)) hb).trans (le_of_eq ?_)
    ring
  -- the difference
  have hM2 : 0 ≤ M ^ 2 := sq_nonneg M
  have hw : 1 ≤ 1 + u := by linarith
  have hgg : g * (1 + u) ^ 2 ≤ g ^ 2 * (1 + u) ^ 5 := by
    have h1 : (1 + u) ^ 2 ≤ (1 + u) ^ 5 := pow_le_pow_right₀ hw (by norm_num)
    have h2 : g ≤ g ^ 2 := by rw [pow_two]; exact le_mul_of_one_le_left (by linarith) hg
    exact mul_le_mul h2 h1 (by positivity) (sq_nonneg g)
  have d1 : |fl b - fl (fl a * fl a) - (ν - μ ^ 2)| ≤ 2 * M ^ 2 * (g ^ 2 * (1 + u) ^ 5 - 1) + θ ^ 2 * (g * (1 + u) + 2) := by
    have : fl b - fl (fl a * fl a) - (ν - μ ^ 2) = (fl b - ν) - (fl (fl a * fl a) - μ ^ 2) := by ring
    rw [this]
    refine (abs_sub _ _).trans ((add_le_add b2 q3).trans ?_)
    have := mul_le_mul_of_nonneg_left hgg hM2
    linarith
  have d2 := sub_err h (h.idem b) (h.idem (fl a * fl a))
  have d3 : |ν - μ ^ 2| ≤ M ^ 2 := by
    rw [abs_of_nonneg (by linarith)]
    have := sq_nonneg μ
    linarith
  have d4 := abs_le_of_sub d1 d3
  refine (abs_sub_trans (d2.trans (mul_le_mul_of_nonneg_left d4 hu)) d1).trans ?_
  have t1 : θ ^ 2 * ((1 + u) * (g * (1 + u) + 2)) ≤ θ ^ 2 * 6 := by
    apply mul_le_mul_of_nonneg_left _ (sq_nonneg θ)
    have : (1 + u) * (g * (1 + u) + 2) = g * (1 + u) ^ 2 + 2 * (1 + u) := by ring
    rw [this]
    linarith
  have t2 : 0 ≤ u * M ^ 2 := mul_nonneg hu hM2
  have t3 : u * (M ^ 2 + (2 * M ^ 2 * (g ^ 2 * (1 + u) ^ 5 - 1) + θ ^ 2 * (g * (1 + u) + 2))) + (2 * M ^ 2 * (g ^ 2 * (1 + u) ^ 5 - 1) + θ ^ 2 * (g * (1 + u) + 2)) =
      2 * M ^ 2 * (g ^ 2 * (1 + u) ^ 6 - 1) - u * M ^ 2 + θ ^ 2 * ((1 + u) * (g * (1 + u) + 2)) := by ring
  rw [t3]
  linarith

end Genex.Ucr
