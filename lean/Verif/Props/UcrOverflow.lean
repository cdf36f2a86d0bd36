import Verif.Lemmas.UcrOverflowScan
import Verif.Props.UcrTrue
import Verif.Props.Overflow

/-!
# C107: overflow in the search by scanning (genex/lib/trillionDTW.cpp)

`searchR (rndMax fl X)` is the search in an arithmetic whose results are infinite beyond `X`.
-/

set_option linter.unusedSectionVars false

namespace Genex.Props

open Dbl Spec Ucr

section
variable {K : Type} [Field K] [LinearOrder K] [IsStrictOrderedRing K] {fl : K → K} {u θ X M : K}

theorem fl_le_of (h : FloatOps fl u θ) (hu : u ≤ 1 / 4) {x : K} (hx : 0 ≤ x) : fl x ≤ 5 / 4 * x + 1 ∧ 3 / 4 * x - 1 ≤ fl x := by
  have h1 := abs_le.1 (h.err x)
  rw [abs_of_nonneg hx] at h1
  have h2 : u * x ≤ 1 / 4 * x := mul_le_mul_of_nonneg_right hu hx
  have hu0 := h.u_nonneg
  have h3 : θ ^ 2 ≤ 1 := by
    have : θ ≤ 1 := h.θ_le.trans (by nlinarith)
    exact pow_le_one₀ h.θ_nonneg this
  constructor <;> linarith

theorem room_of (h : FloatOps fl u θ) (hu : u ≤ 1 / 4) {n : ℕ} (hn : 1 ≤ n) (hM : 0 ≤ M) (hX : 64 * n ^ 2 * (M + 1) ^ 2 ≤ X) : Room fl X M n := by
  have hN : (1 : K) ≤ n := by exact_mod_cast hn
  -- `P = n (M + 1)`
  have hP1 : 1 ≤ (n : K) * (M + 1) := by nlinarith
  have hX' : 64 * ((n * (M + 1)) * (n * (M + 1))) ≤ X := by
    refine _root_.le_trans (le_of_eq ?_) hX
    ring
  generalize hP : (n : K) * (M + 1) = P at *
  have hnM : (n : K) * M ≤ P - 1 := by
    have : (n : K) * (M + 1) = n * M + n := by ring
    linarith
  have hnM0 : 0 ≤ (n : K) * M := by positivity
  have hPP : P ≤ P * P := by nlinarith
  have hnMM : (n : K) * (M * M) ≤ P * P := by
    have h1 : M * M ≤ (M + 1) * (M + 1) := by nlinarith
    have h2 : (n : K) * ((M + 1) * (M + 1)) ≤ P * P := by
      rw [← hP]
      have : 0 ≤ (n : K) * ((M + 1) * (M + 1)) := by positivity
      nlinarith
    exact (mul_le_mul_of_nonneg_left h1 (by linarith)).trans h2
  have hnP : (n : K) ≤ P := by rw [← hP]; nlinarith
  have a0 : 0 ≤ fl (4 * n * M) := h.toRounding.nonneg (by positivity)
  have a1 : fl (4 * n * M) ≤ 5 * P := by
    have := (fl_le_of h hu (x := 4 * n * M) (by positivity)).1
    nlinarith
  have a2 : fl (4 * n * M) * fl (4 * n * M) ≤ 25 * (P * P) := by
    calc _ ≤ (5 * P) * (5 * P) := mul_self_le_mul_self a0 a1
      _ = _ := by ring
  have a3 := (fl_le_of h hu (mul_self_nonneg (fl (4 * n * M)))).1
  have b0 : 0 ≤ fl (M * M) := h.toRounding.nonneg (mul_self_nonneg M)
  have b1 := (fl_le_of h hu (mul_self_nonneg M)).1
  have b2 : 4 * n * fl (M * M) ≤ 9 * (P * P) := by
    have : (n : K) * fl (M * M) ≤ n * (5 / 4 * (M * M) + 1) := mul_le_mul_of_nonneg_left b1 (by linarith)
    have e : (n : K) * (5 / 4 * (M * M) + 1) = 5 / 4 * (n * (M * M)) + n := by ring
    linarith
  have b3 := (fl_le_of h hu (x := 4 * n * fl (M * M)) (by positivity)).1
  have e1 : 4 * (n : K) * M = 4 * (n * M) := by ring
  have hMP : M ≤ P := by rw [← hP]; nlinarith
  exact ⟨hM, by linarith, by linarith, by linarith, by linarith⟩

theorem lim_of (h : FloatOps fl u θ) (hu : u ≤ 1 / 4) (hX : fl X = X) (hX20 : 10 ^ 20 ≤ X) : Lim fl X (X / 2) := by
  have h100 : 100 ≤ X := _root_.le_trans (by norm_num) hX20
  refine ⟨h.toRounding, hX, hX20, by linarith, fun v q hv hq => ?_⟩
  have hq' := abs_le.1 hq
  have h1 := (fl_le_of h hu (x := v - q) (by linarith)).2
  have h2 : X / 4 ≤ fl (v - q) := by linarith
  have h3 : X / 4 * (X / 4) ≤ fl (v - q) * fl (v - q) := mul_self_le_mul_self (by linarith) h2
  have h4 := (fl_le_of h hu (mul_self_nonneg (fl (v - q)))).2
  have h5 : 100 * X ≤ X * X := mul_le_mul_of_nonneg_right h100 (by linarith)
  have h6 : X / 4 * (X / 4) = X * X / 16 := by ring
  linarith

variable [HasSqrt K] [LawfulSqrt K]

/-- C107.  In an arithmetic that overflows beyond `X`, the search is the same as in one that does not, step by step and with the same report, if the numbers of the data and of the query
are at most `M` in magnitude, `64 epoch² (M + 1)²` is at most `X`, the query has a deviation, and its points are normalised to numbers up to `X / 2`.  That a window may have no
deviation, so that its points are normalised to infinities, does not matter. -/
theorem C107_same (h : FloatOps fl u θ) (hbig : fl (10 ^ 20) = 10 ^ 20) (hX : fl X = X) (hX20 : 10 ^ 20 ≤ X) (S : Sorter K) {data query : Input K} {epoch m r : ℕ} (hu : 4 * epoch * u ≤ 1)
    (hroom : 64 * (epoch : K) ^ 2 * (M + 1) ^ 2 ≤ X) (hM0 : 0 ≤ M) (hd : data.bad = false) (hf : Floats fl data.nums) (hM : ∀ x ∈ data.nums, |x| ≤ M) (hme : m ≤ epoch) (hr : r < m)
    (hq : m ≤ query.nums.length) (hqf : Floats fl (query.nums.take m)) (hqM : ∀ x ∈ query.nums.take m, |x| ≤ M) (hdev : 0 < queryDev fl (query.nums.take m))
    (hz : ∀ x ∈ queryBy fl (query.nums.take m), |x| ≤ X / 2) (fuel : ℕ) :
    searchR (rndMax fl X) S epoch fuel (some data) (some query) m r = searchR (rnd fl) S epoch fuel (some data) (some query) m r := by
  have he : 1 ≤ epoch := by omega
  have heK : (1 : K) ≤ epoch := by exact_mod_cast he
  have hu4 : u ≤ 1 / 4 := by nlinarith [h.u_nonneg]
  exact searchR_sim h hu (room_of h hu4 he hM0 hroom) (lim_of h hu4 hX hX20) hbig S hd (fun x hx => ⟨hM x hx, hf x hx⟩) hme hr hq (fun x hx => ⟨hqM x hx, hqf x hx⟩) hdev hz fuel

/-- The points of a query that is varied enough are normalised to numbers up to two million. -/
theorem query_le (h : FloatOps fl u θ) {q : List K} {N : ℕ} {τ : K} (hm : 1 ≤ q.length) (hm6 : q.length ≤ 1000000) (hN : 2 * q.length ≤ N) (hθ : θ ≤ M) (hτ : τ ≤ 1 / 4) (hf : Floats fl q)
    (hM : ∀ x ∈ q, |x| ≤ M) (hv : Varied u θ N M τ q) : ∀ x ∈ queryBy fl q, |x| ≤ 2000000 := by
  obtain ⟨-, hqn⟩ := C103_query h hm hN hθ hτ hf hM hv
  intro x hx
  have hm1 : (1 : K) ≤ (q.length : ℕ) := by exact_mod_cast hm
  have hmM : ((q.length : ℕ) : K) ≤ 1000000 := by exact_mod_cast hm6
  obtain ⟨k, hk, rfl⟩ := List.getElem_of_mem hx
  have h1 := hqn k
  have e : (queryBy fl q).getD k 0 = (queryBy fl q)[k] := by simp [List.getD, hk]
  rw [e] at h1
  have hR0 := LawfulSqrt.sqrt_nonneg (show (0 : K) ≤ (q.length : ℕ) by linarith)
  have hR := LawfulSqrt.mul_self (show (0 : K) ≤ (q.length : ℕ) by linarith)
  have hRm : HasSqrt.sqrt ((q.length : ℕ) : K) ≤ (q.length : ℕ) := by
    refine (mul_self_le_mul_self_iff hR0 (by linarith)).2 ?_
    rw [hR]; nlinarith
  have h2 : |(standardised q).getD k 0| ≤ HasSqrt.sqrt ((q.length : ℕ) : K) := by
    have hk' : k < (standardised q).length := by
      unfold queryBy at hk
      rw [scaledBy_length] at hk
      rw [standardised_length]; exact hk
    have hmem : (standardised q).getD k 0 ∈ standardised q := by
      simp only [List.getD, List.getElem?_eq_getElem hk', Option.getD_some]
      exact List.getElem_mem hk'
    have := standardised_le hm (varied_not_flat hm hv) _ hmem
    refine (mul_self_le_mul_self_iff (abs_nonneg _) hR0).2 ?_
    rw [hR, abs_mul_abs_self, ← pow_two]
    exact this
  have h3 := abs_sub_abs_le_abs_sub (queryBy fl q)[k] ((standardised q).getD k 0)
  have hτ0 : τ * HasSqrt.sqrt ((q.length : ℕ) : K) ≤ 1 / 4 * HasSqrt.sqrt ((q.length : ℕ) : K) := mul_le_mul_of_nonneg_right hτ hR0
  linarith

variable [FloorRing K]

omit [HasSqrt K] [LawfulSqrt K] in
theorem double_room (hM0 : 0 ≤ M) (hM : M ≤ 2 ^ 490) : 64 * ((100000 : ℕ) : K) ^ 2 * (M + 1) ^ 2 ≤ maxDouble := by
  have h1 : M + 1 ≤ 2 ^ 491 := by
    have : (1 : K) ≤ 2 ^ 490 := one_le_pow₀ (by norm_num)
    rw [pow_succ]
    generalize (2 : K) ^ 490 = A at *
    linarith
  have h2 : (M + 1) ^ 2 ≤ 2 ^ 982 := by
    have := pow_le_pow_left₀ (by linarith) h1 2
    rwa [← pow_mul] at this
  have h3 : 64 * ((100000 : ℕ) : K) ^ 2 ≤ 2 ^ 41 := by norm_num
  calc _ ≤ (2 : K) ^ 41 * 2 ^ 982 := mul_le_mul h3 h2 (by positivity) (by positivity)
    _ = 2 ^ 1023 := by rw [← pow_add]
    _ ≤ _ := pow_le_max le_rfl

omit [HasSqrt K] [LawfulSqrt K] in
theorem double_limit : (10 : K) ^ 20 ≤ maxDouble := by
  have h1 : (10 : K) ^ 20 ≤ 2 ^ 67 := by norm_num
  exact h1.trans (pow_le_max (by norm_num))

/-- C107.  The function of the code with numbers of type `double`, overflow included: the cost of the window that is reported is at most that of every other window that has a
deviation, but for one part in 2³⁴, if the numbers are at most 2⁴⁹⁰. -/
theorem C107_double (S : Sorter K) {data query : Input K} {m r : ℕ} (hd : data.bad = false) (hN : data.nums.length < 2 ^ 31) (hf : Floats roundDouble data.nums)
    (hM : ∀ x ∈ data.nums, |x| ≤ 2 ^ 490) (hq : m ≤ query.nums.length) (hqf : Floats roundDouble (query.nums.take m)) (hqM : ∀ x ∈ query.nums.take m, |x| ≤ 2 ^ 490) (hm : 6 ≤ m)
    (hme : m ≤ 100000) (hr : r < m) (hdev : 0 < queryDev roundDouble (query.nums.take m))
    (hz : ∀ x ∈ queryBy roundDouble (query.nums.take m), |x| < 2 ^ 31) {fuel : ℕ} (hfuel : data.nums.length < fuel) :
    ∃ rep, calculateR (rndMax roundDouble maxDouble) S fuel (some data) (some query) m r = .ok rep ∧ rep.scanned = (max data.nums.length (m - 1) : ℕ) ∧
      ∃ D : K, rep.distance = fin (roundDouble (HasSqrt.sqrt D)) ∧
      ((rep.location = 0 ∧ D = 10 ^ 20) ∨ ∃ l : ℕ, rep.location = l ∧ l + m ≤ data.nums.length ∧ 0 < partDev roundDouble m (100001 - m) data.nums l ∧
        ApartBy roundDouble r (partBy roundDouble m (100001 - m) data.nums l) (queryBy roundDouble (query.nums.take m)) D) ∧
      ∀ i, i + m ≤ data.nums.length → 0 < partDev roundDouble m (100001 - m) data.nums i →
        ∀ D', ApartBy roundDouble r (partBy roundDouble m (100001 - m) data.nums i) (queryBy roundDouble (query.nums.take m)) D' →
        (1 - 1 / 2 ^ 34) * D ≤ D' := by
  have hfl : ∀ x : K, x ∈ queryBy roundDouble (query.nums.take m) → roundDouble x = x := scaledBy_floats (C73_double (K := K)).toRounding _ _ _
  have e := C107_same C73_double double_big.1 max_fixed double_limit S (epoch := 100000) (m := m) (r := r) (by norm_num)
    (double_room (by positivity) le_rfl) (by positivity) hd hf hM hme hr hq hqf hqM hdev (fun x hx => by
      have h1 := hz x hx
      have h2 : (2 : K) ^ 1023 = 2 ^ 1022 * 2 := pow_succ 2 1022
      have h3 : (2 : K) ^ 31 ≤ 2 ^ 1022 := pow_le_pow_right₀ (by norm_num) (by norm_num)
      have h4 : (2 : K) ^ 1023 ≤ maxDouble := pow_le_max le_rfl
      generalize (2 : K) ^ 1023 = A at *
      generalize (2 : K) ^ 1022 = B at *
      generalize (2 : K) ^ 31 = C at *
      linarith) fuel
  unfold calculateR
  rw [e]
  refine C102_double_partial S hd hN hq hm hme hr hdev (fun x hx y hy => ?_) hfuel
  -- the difference of two magnitudes below 2³¹, rounded, is at most the greater one
  have hF := (C73_double (K := K)).toRounding
  have hx := hz x hx
  have hyf := hfl y hy
  have hxf := hfl x ‹_›
  have hy := hz y hy
  rcases _root_.le_total |x| |y| with h1 | h1
  · refine _root_.lt_of_le_of_lt ?_ hy
    have h2 : |(|y| - |x|)| ≤ |y| := by rw [abs_of_nonneg (by linarith)]; linarith [abs_nonneg x]
    have h3 := fl_abs_le hF h2
    rwa [← hF.abs, hyf] at h3
  · refine _root_.lt_of_le_of_lt ?_ hx
    have h2 : |(|y| - |x|)| ≤ |x| := by rw [abs_sub_comm, abs_of_nonneg (by linarith)]; linarith [abs_nonneg y]
    have h3 := fl_abs_le hF h2
    rwa [← hF.abs, hxf] at h3

/-- C107.  The function of the code with numbers of type `double`, overflow included, and the exact distances: if the numbers are at most `M ≤ 2 ^ 490`, and the variance of the query and of every
window is at least the part `1 / (2 ^ 32 τ)` of `M ^ 2`, the window reported is the nearest one up to `32 τ m`, and the distance is right up to `15 τ m`. -/
theorem C107_nearest (S : Sorter K) {data query : Input K} {m r : ℕ} {τ : K} (hd : data.bad = false) (hN : data.nums.length < 2 ^ 31) (hq : m ≤ query.nums.length) (hm : 6 ≤ m)
    (hme : m ≤ 100000) (hr : r < m) (hθ : 1 / 2 ^ 537 ≤ M) (hM490 : M ≤ 2 ^ 490) (hτ : τ ≤ 1 / 4) (hf : Floats roundDouble data.nums) (hM : ∀ x ∈ data.nums, |x| ≤ M)
    (hqf : Floats roundDouble (query.nums.take m)) (hqM : ∀ x ∈ query.nums.take m, |x| ≤ M) (hqv0 : 0 < variance (query.nums.take m))
    (hqv : M ^ 2 / 2 ^ 32 + 1 / 2 ^ 1071 ≤ τ * variance (query.nums.take m)) (hmd : m ≤ data.nums.length)
    (hall : ∀ i, i + m ≤ data.nums.length → 0 < variance (part data.nums m i) ∧ M ^ 2 / 2 ^ 32 + 1 / 2 ^ 1071 ≤ τ * variance (part data.nums m i))
    {fuel : ℕ} (hfuel : data.nums.length < fuel) :
    ∃ (rep : Report K) (l : ℕ) (d D : K), calculateR (rndMax roundDouble maxDouble) S fuel (some data) (some query) m r = .ok rep ∧ rep.location = l ∧ rep.distance = fin d ∧
      l + m ≤ data.nums.length ∧ Apart r (standardised (part data.nums m l)) (standardised (query.nums.take m)) D ∧ |d - HasSqrt.sqrt D| ≤ 15 * τ * m ∧
      ∀ i, i + m ≤ data.nums.length → ∀ D', Apart r (standardised (part data.nums m i)) (standardised (query.nums.take m)) D' →
        HasSqrt.sqrt D ≤ HasSqrt.sqrt D' + 32 * τ * m := by
  have hql : (query.nums.take m).length = m := by simp; omega
  have hM0 : 0 ≤ M := _root_.le_trans (by positivity) hθ
  have hv := double_varied hqv0 hqv
  have hdev := (C103_query C73_double (N := 2 * 100000) (by omega) (by omega) hθ hτ hqf hqM hv).1
  have hle := query_le C73_double (N := 2 * 100000) (by omega) (by omega) (by omega) hθ hτ hqf hqM hv
  have e := C107_same C73_double double_big.1 max_fixed double_limit S (epoch := 100000) (m := m) (r := r) (by norm_num)
    (double_room hM0 hM490) hM0 hd hf hM hme hr hq hqf hqM hdev (fun x hx => by
      have h1 := hle x hx
      have h2 : (2000000 : K) ≤ 10 ^ 20 / 2 := by norm_num
      have h3 := double_limit (K := K)
      linarith) fuel
  unfold calculateR
  rw [e]
  exact C103_double S hd hN hq hm hme hr hθ hτ hf hM hqf hqM hqv0 hqv hmd hall hfuel

end

/-! Numbers up to 2⁴⁹⁰, in `double`: the query is found, times 2⁴⁹⁰, and a flat window before it, whose points are normalised to no number, is passed over. -/
example : (calculateR (rndMax roundDouble maxDouble) (inOrder ℚ) 20
    (some ⟨([1, 1, 1, 1, 1, 1, 1, 1, 1, 1, 1, 1, 1, 1, 1, 1, -1, 1, -1, 1, -1, 1, -1, 1, -1, 1, -1, 1, -1, 1, -1, 1] : List ℚ).map (2 ^ 490 * ·), false⟩)
    (some ⟨[-1, 1, -1, 1, -1, 1, -1, 1, -1, 1, -1, 1, -1, 1, -1, 1], false⟩) 16 1).map (fun rep => (rep.location, rep.distance)) = .ok (16, fin 0) := by decide +kernel

/-! The hypotheses hold for this query and any data up to 2⁴⁹⁰, with real numbers. -/
example (data : List ℝ) (hN : data.length < 2 ^ 31) (hf : Floats roundDouble data) (hM : ∀ x ∈ data, |x| ≤ 2 ^ 490) :
    ∃ rep D, calculateR (rndMax roundDouble maxDouble) (inOrder ℝ) (data.length + 1) (some ⟨data, false⟩)
      (some ⟨[-1, 1, -1, 1, -1, 1], false⟩) 6 2 = .ok rep ∧ rep.distance = fin (roundDouble (HasSqrt.sqrt D)) := by
  have h1 : roundDouble (1 : ℝ) = 1 := by simpa using C73_representable (K := ℝ) 1 0 (by norm_num) (by norm_num)
  have hm : roundDouble (-1 : ℝ) = -1 := by simpa using C73_representable (K := ℝ) (-1) 0 (by norm_num) (by norm_num)
  have hx : ∀ x ∈ ([-1, 1, -1, 1, -1, 1] : List ℝ), roundDouble x = x ∧ |x| = 1 := by
    intro x hx
    simp at hx
    rcases hx with rfl | rfl | rfl | rfl | rfl | rfl <;> simp [h1, hm]
  have e : ([-1, 1, -1, 1, -1, 1] : List ℝ).take 6 = [-1, 1, -1, 1, -1, 1] := rfl
  obtain ⟨rep, h2, -, D, h3, -⟩ := C107_double (inOrder ℝ) (data := ⟨data, false⟩) (query := ⟨[-1, 1, -1, 1, -1, 1], false⟩) (m := 6) (r := 2) rfl hN hf hM
    (by simp) (fun x h => (hx x h).1) (fun x h => by rw [(hx x h).2]; exact one_le_pow₀ (by norm_num)) le_rfl (by norm_num) (by norm_num) (by simp [double_query.1]) (by
      rw [e, double_query.2]
      intro x h
      rw [(hx x h).2]
      norm_num) (fuel := data.length + 1) (by simp)
  exact ⟨rep, D, h2, h3⟩

/-! The hypotheses hold for this query and this data, with real numbers, all windows of which have variance 1; `τ` is 1 / 2 ³¹. -/
example : ∃ (rep : Report ℝ) (l : ℕ) (d : ℝ), calculateR (rndMax roundDouble maxDouble) (inOrder ℝ) 20 (some ⟨[-1, 1, -1, 1, 1, -1], false⟩)
    (some ⟨[-1, 1, -1, 1, -1, 1], false⟩) 6 2 = .ok rep ∧ rep.location = l ∧ rep.distance = fin d ∧ l = 0 ∧
    ∃ D, Apart 2 (standardised [-1, 1, -1, 1, 1, -1]) (standardised [-1, 1, -1, 1, -1, 1]) D ∧ |d - HasSqrt.sqrt D| ≤ 90 / 2 ^ 31 := by
  have h1 : roundDouble (1 : ℝ) = 1 := by simpa using C73_representable (K := ℝ) 1 0 (by norm_num) (by norm_num)
  have hm : roundDouble (-1 : ℝ) = -1 := by simpa using C73_representable (K := ℝ) (-1) 0 (by norm_num) (by norm_num)
  have hfl : ∀ x : ℝ, x = 1 ∨ x = -1 → roundDouble x = x := by
    rintro x (rfl | rfl) <;> assumption
  have hab : ∀ x : ℝ, x = 1 ∨ x = -1 → |x| ≤ 1 := by
    rintro x (rfl | rfl) <;> norm_num
  have hb : (1 : ℝ) / 2 ^ 1071 ≤ 1 / 2 ^ 32 := by
    apply one_div_le_one_div_of_le (by positivity)
    exact pow_le_pow_right₀ (by norm_num) (by norm_num)
  have v1 : variance ([-1, 1, -1, 1, 1, -1] : List ℝ) = 1 := by norm_num [variance, mean]
  have v2 : variance ([-1, 1, -1, 1, -1, 1] : List ℝ) = 1 := by norm_num [variance, mean]
  have hθ : (1 : ℝ) / 2 ^ 537 ≤ 1 := by
    rw [div_le_one (by positivity)]
    exact one_le_pow₀ (by norm_num)
  obtain ⟨rep, l, d, D, a, b, c, e, f, g, -⟩ := C107_nearest (inOrder ℝ) (data := ⟨[-1, 1, -1, 1, 1, -1], false⟩) (query := ⟨[-1, 1, -1, 1, -1, 1], false⟩) (m := 6) (r := 2)
    (M := 1) (τ := 1 / 2 ^ 31) rfl (by norm_num) (by simp) le_rfl (by norm_num) (by norm_num) hθ (one_le_pow₀ (by norm_num)) (by norm_num) (by intro x hx; simp at hx; exact hfl x (by tauto))
    (by intro x hx; simp at hx; exact hab x (by tauto)) (by intro x hx; simp at hx; exact hfl x (by tauto))
    (by intro x hx; simp at hx; exact hab x (by tauto))
    (by simp only [List.take]; rw [v2]; norm_num)
    (by
      simp only [List.take]
      rw [v2]
      have : (1 : ℝ) ^ 2 / 2 ^ 32 + 1 / 2 ^ 32 ≤ 1 / 2 ^ 31 * 1 := by norm_num
      exact _root_.le_trans (add_le_add_right hb _) this) (by simp)
    (by
      intro i hi
      have : i = 0 := by simp at hi; exact hi
      subst this
      simp only [part, List.drop, List.take]
      rw [v1]
      refine ⟨by norm_num, ?_⟩
      have : (1 : ℝ) ^ 2 / 2 ^ 32 + 1 / 2 ^ 32 ≤ 1 / 2 ^ 31 * 1 := by norm_num
      exact _root_.le_trans (add_le_add_right hb _) this) (fuel := 20) (by simp)
  have hl : l = 0 := by simp at e; exact e
  subst hl
  refine ⟨rep, 0, d, a, b, c, rfl, D, f, g.trans (le_of_eq ?_)⟩
  push_cast
  ring

end Genex.Props
