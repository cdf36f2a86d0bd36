import Verif.Lemmas.UcrAny
import Verif.Model.Overflow
import Verif.Props.RoundedError
import Verif.Props.Ucr

/-!
# C102: the search by scanning with rounded results (genex/lib/trillionDTW.cpp)

`searchR ρ` applies `ρ` to the result of every operation of the search; `rnd fl` rounds the finite ones by `fl`.
-/

set_option linter.unusedSectionVars false

namespace Genex.Props

open Dbl Spec Ucr

section
variable {K : Type} [Field K] [LinearOrder K] [IsStrictOrderedRing K] [HasSqrt K]

/-- C102.  Without rounding it is the search of C85. -/
theorem C102_exact (S : Sorter K) (epoch fuel : ℕ) (data query : Option (Input K)) (m : ℕ) (r : Int) :
    searchR (rnd fun x => x) S epoch fuel data query m r = search S epoch fuel data query m r := by
  have : (rnd fun x => x : Dbl K → Dbl K) = id := by
    funext x
    cases x <;> rfl
  rw [this]
  exact searchR_id S epoch fuel data query m r

/-- C102.  Whatever the operations on numbers give — rounded, overflown, or no numbers at all —, for a query of at least three points the search
uses no memory that was not written or is outside and overflows no integer: either the comparison of the sorting converts to `int` what cannot be
converted, or it ends with a report, all points having been scanned; no more windows are counted as pruned than there are, and the
location is 0 or that of a window. -/
theorem C102_safe (ρ : Dbl K → Dbl K) (S : Sorter K) {data query : Input K} {epoch m r : ℕ} (hd : data.bad = false)
    (hN : data.nums.length < 2 ^ 31) (hq : m ≤ query.nums.length) (hm : 3 ≤ m) (hme : m ≤ epoch) (hepoch : epoch ≤ 1000000) (hr : r < m)
    {fuel : ℕ} (hfuel : data.nums.length < fuel) :
    searchR ρ S epoch fuel (some data) (some query) m r = .error (.ub "conversion to int") ∨
    ∃ rep, searchR ρ S epoch fuel (some data) (some query) m r = .ok rep ∧ rep.scanned = (max data.nums.length (m - 1) : ℕ) ∧
      rep.kim + rep.keogh + rep.keogh2 ≤ data.nums.length + 1 - m ∧
      (rep.location = 0 ∨ ∃ l : ℕ, rep.location = l ∧ l + m ≤ data.nums.length) := by
  unfold searchR
  rcases prepareR_any (ρ := ρ) S hr hq with ⟨Q, d, e, hP⟩ | e
  swap
  · left; simp only [e, bind, Except.bind]
  right
  have hL : 1 ≤ epoch + 1 - m := by omega
  have hmul : fuel * 1 ≤ fuel * (epoch + 1 - m) := Nat.mul_le_mul_left _ hL
  obtain ⟨rep, h1, h2, h3, h4⟩ := chunksR_any (ρ := ρ) (data := data.nums) hm hme hepoch hN hr hP fuel 0 data d (alloc epoch)
    ⟨alloc (2 * m), alloc m, List.replicate m (some 0), List.replicate m (some 0), List.replicate m (some 0), 0, 0, big, 0, 0, 0, 0⟩
    (by omega) (by omega) { good := hd, len := by simp [alloc], first := fun _ => rfl, later := fun h => by omega }
    { t := by simp [alloc], cb1 := full_replicate _ _, cb2 := full_replicate _ _, loc := .inl rfl, pruned := by simp [St.pruned] }
  simp only [e, bind, Except.bind]
  refine ⟨rep, h1, h2, h3, ?_⟩
  rcases h4 with h4 | ⟨l, h4, h5⟩
  · exact .inl h4
  · exact .inr ⟨l, h4, by omega⟩

variable [LawfulSqrt K]

/-- C102.  The search with rounded results, `fl` having the relative error `u` (and `θ ^ 2` at underflow), for a query of at least six points
with a deviation, and what the comparison of the sorting converts being below 2³¹.  It ends without a fault.  Either location 0 and distance 10¹⁰, rounded, are
reported, and every window that has a deviation is at least about 10²⁰ from the query; or the location is that of a window that has a deviation,
the distance is the rounded root of its cost, and no window with a deviation costs less but for the factors `(1 - u) ^ (2 m)` and
`(1 + u) ^ (3 m)`.  Costs are those of the windows and the query as the code normalises them, with rounded results. -/
theorem C102_near_partial {fl : K → K} {u θ : K} (h : FloatOps fl u θ) (hu1 : u ≤ 1) (hbig : fl (10 ^ 20) = 10 ^ 20) (S : Sorter K) {data query : Input K}
    {epoch m r : ℕ} (hd : data.bad = false) (hN : data.nums.length < 2 ^ 31) (hq : m ≤ query.nums.length) (hm : 6 ≤ m) (hme : m ≤ epoch)
    (hepoch : epoch ≤ 1000000) (hr : r < m) (hdev : 0 < queryDev fl (query.nums.take m))
    (hcmp : ∀ x ∈ queryBy fl (query.nums.take m), ∀ y ∈ queryBy fl (query.nums.take m), |fl (|y| - |x|)| < 2 ^ 31)
    {fuel : ℕ} (hfuel : data.nums.length < fuel) :
    ∃ rep, searchR (rnd fl) S epoch fuel (some data) (some query) m r = .ok rep ∧ rep.scanned = (max data.nums.length (m - 1) : ℕ) ∧
      rep.kim + rep.keogh + rep.keogh2 ≤ data.nums.length + 1 - m ∧
      ((rep.location = 0 ∧ rep.distance = fin (fl (10 ^ 10)) ∧ ∀ i, i + m ≤ data.nums.length → 0 < partDev fl m (epoch + 1 - m) data.nums i →
          ∀ D', ApartBy fl r (partBy fl m (epoch + 1 - m) data.nums i) (queryBy fl (query.nums.take m)) D' →
          (1 - u) ^ (2 * m) * 10 ^ 20 ≤ (1 + u) ^ (3 * m) * D') ∨
        ∃ (l : ℕ) (D : K), rep.location = l ∧ rep.distance = fin (fl (HasSqrt.sqrt D)) ∧
          NearestBy fl ((1 - u) ^ (2 * m)) ((1 + u) ^ (3 * m)) data.nums (queryBy fl (query.nums.take m)) (epoch + 1 - m) r (data.nums.length + 1 - m) l D) := by
  obtain ⟨Q, d, e, hP⟩ := prepareR_ok h.toRounding S (m := m) (r := r) (qf := query) (by omega) hr hq hdev hcmp
  have hbm : (queryBy fl (query.nums.take m)).length = m := by
    unfold queryBy
    rw [scaledBy_length]
    simp
    omega
  have hL : 1 ≤ epoch + 1 - m := by omega
  have hmul : fuel * 1 ≤ fuel * (epoch + 1 - m) := Nat.mul_le_mul_left _ hL
  obtain ⟨rep, h1, h2, h3, bsf, h4, h5⟩ := chunksR_ok h hu1 hbig (data := data.nums) hbm hm hme hepoch hN hr hP fuel 0 data d (alloc epoch)
    ⟨alloc (2 * m), alloc m, List.replicate m (some 0), List.replicate m (some 0), List.replicate m (some 0), 0, 0, big, 0, 0, 0, 0⟩
    (by omega) (by omega) { good := hd, len := by simp [alloc], first := fun _ => rfl, later := fun h => by omega }
    { t := by simp [alloc, hbm], cb1 := by simp [hbm], cb2 := by simp [hbm]
      best := ⟨10 ^ 20, rfl, .inl ⟨rfl, rfl⟩, fun i hi => by simp at hi⟩, pruned := by simp [St.pruned] }
  refine ⟨rep, ?_, h2, h3, ?_⟩
  · unfold searchR
    simp only [e, bind, Except.bind]
    exact h1
  have hnear := h5.near
  rw [hbm] at hnear
  rcases h5.which with ⟨rfl, h6⟩ | ⟨l, h6, h7, h8, -, h9⟩
  · rw [sqrt_big] at h4
    exact .inl ⟨h6, h4, fun i hi => hnear i (by omega)⟩
  · exact .inr ⟨l, bsf, h6, h4, h7, h8, h9, fun i hi hf D' hD' => by rw [hbm] at hf hD'; exact hnear i hi hf D' hD'⟩

theorem pow_ratio {u A D : K} (hu : 0 ≤ u) (hu1 : u ≤ 1) (n k : ℕ) (hD : 0 ≤ D) (hk : (n + k : K) * u ≤ 1) (h : (1 - u) ^ n * D ≤ (1 + u) ^ k * A) :
    (1 - (n + k) * u) * D ≤ A := by
  have h1 : (1 - u) ^ k * (1 + u) ^ k ≤ 1 := by
    rw [← mul_pow]
    exact pow_le_one₀ (by nlinarith) (by nlinarith)
  have h2 : 1 - (n + k : K) * u ≤ (1 - u) ^ (n + k) := by
    have := one_add_mul_le_pow (a := -u) (by linarith) (n + k)
    push_cast at this
    rw [← sub_eq_add_neg] at this
    linarith
  have hp : 0 < (1 + u) ^ k := by positivity
  have h0 : 0 ≤ (1 - u) ^ k := pow_nonneg (by linarith) _
  have h3 : (1 - u) ^ (n + k) * D ≤ ((1 - u) ^ k * (1 + u) ^ k) * A := by
    rw [pow_add]
    calc _ = (1 - u) ^ k * ((1 - u) ^ n * D) := by ring
      _ ≤ (1 - u) ^ k * ((1 + u) ^ k * A) := mul_le_mul_of_nonneg_left h h0
      _ = _ := by ring
  have hA : 0 ≤ A := by
    have : 0 ≤ (1 + u) ^ k * A := _root_.le_trans (mul_nonneg (pow_nonneg (by linarith) _) hD) h
    exact nonneg_of_mul_nonneg_right this hp
  calc _ ≤ (1 - u) ^ (n + k) * D := mul_le_mul_of_nonneg_right h2 hD
    _ ≤ _ := h3
    _ ≤ 1 * A := mul_le_mul_of_nonneg_right h1 hA
    _ = A := one_mul A

variable [FloorRing K]

/-- The numbers of the code are numbers of type `double`. -/
theorem double_big : roundDouble ((10 : K) ^ 20) = 10 ^ 20 ∧ roundDouble ((10 : K) ^ 10) = 10 ^ 10 := by
  have h1 := C73_representable (K := K) (5 ^ 20) 20 (by norm_num) (by norm_num)
  have h2 := C73_representable (K := K) (5 ^ 10) 10 (by norm_num) (by norm_num)
  constructor
  · have e : (10 : K) ^ 20 = ((5 ^ 20 : ℤ) : K) * 2 ^ (20 : ℤ) := by norm_num
    rw [e]; exact h1
  · have e : (10 : K) ^ 10 = ((5 ^ 10 : ℤ) : K) * 2 ^ (10 : ℤ) := by norm_num
    rw [e]; exact h2

/-- C102.  The function of the code with numbers of type `double`, as long as nothing overflows: the cost of the window that is reported is at most that of every other window
that has a deviation, but for one part in 2³⁴. -/
theorem C102_double_partial (S : Sorter K) {data query : Input K} {m r : ℕ} (hd : data.bad = false) (hN : data.nums.length < 2 ^ 31)
    (hq : m ≤ query.nums.length) (hm : 6 ≤ m) (hme : m ≤ 100000) (hr : r < m) (hdev : 0 < queryDev roundDouble (query.nums.take m))
    (hcmp : ∀ x ∈ queryBy roundDouble (query.nums.take m), ∀ y ∈ queryBy roundDouble (query.nums.take m), |roundDouble (|y| - |x|)| < 2 ^ 31)
    {fuel : ℕ} (hfuel : data.nums.length < fuel) :
    ∃ rep, calculateR (rnd roundDouble) S fuel (some data) (some query) m r = .ok rep ∧ rep.scanned = (max data.nums.length (m - 1) : ℕ) ∧
      ∃ D : K, rep.distance = fin (roundDouble (HasSqrt.sqrt D)) ∧
      ((rep.location = 0 ∧ D = 10 ^ 20) ∨ ∃ l : ℕ, rep.location = l ∧ l + m ≤ data.nums.length ∧ 0 < partDev roundDouble m (100001 - m) data.nums l ∧
        ApartBy roundDouble r (partBy roundDouble m (100001 - m) data.nums l) (queryBy roundDouble (query.nums.take m)) D) ∧
      ∀ i, i + m ≤ data.nums.length → 0 < partDev roundDouble m (100001 - m) data.nums i →
        ∀ D', ApartBy roundDouble r (partBy roundDouble m (100001 - m) data.nums i) (queryBy roundDouble (query.nums.take m)) D' →
        (1 - 1 / 2 ^ 34) * D ≤ D' := by
  have hF := C73_double (K := K)
  have hu1 : (1 / 2 ^ 53 : K) ≤ 1 := by norm_num
  obtain ⟨rep, h1, h2, -, h3⟩ := C102_near_partial hF hu1 double_big.1 S hd hN hq hm hme (by norm_num) hr hdev hcmp hfuel
  refine ⟨rep, h1, h2, ?_⟩
  have hmK : ((m : ℕ) : K) ≤ 100000 := by exact_mod_cast hme
  have key : ∀ D D' : K, 0 ≤ D → (1 - 1 / 2 ^ 53 : K) ^ (2 * m) * D ≤ (1 + 1 / 2 ^ 53) ^ (3 * m) * D' → (1 - 1 / 2 ^ 34) * D ≤ D' := by
    intro D D' h0 h
    have := pow_ratio hF.u_nonneg hu1 (2 * m) (3 * m) h0 (by push_cast; linarith) h
    refine _root_.le_trans (mul_le_mul_of_nonneg_right ?_ h0) this
    push_cast
    linarith
  have hbm : (queryBy roundDouble (query.nums.take m)).length = m := by
    unfold queryBy
    rw [scaledBy_length]
    simp
    omega
  rcases h3 with ⟨a, b, c⟩ | ⟨l, D, a, b, c⟩
  · refine ⟨10 ^ 20, by rw [sqrt_big]; exact b, .inl ⟨a, rfl⟩, fun i hi hf D' hD' => key _ _ (by positivity) (c i hi hf D' hD')⟩
  · have c2 := c.rough
    have c3 := c.dist
    have c4 := c.near
    rw [hbm] at c2 c3 c4
    have c1 := c.lt
    exact ⟨D, b, .inr ⟨l, a, by omega, c2, c3⟩, fun i hi hf D' hD' => key _ _ (apartBy_nonneg hF.toRounding c3) (c4 i (by omega) hf D' hD')⟩

end

/-! A query and data, in `double`: the deviation of the query is 1; four of the points of the data differ by 2 from it, after 2²⁶ is subtracted. -/
example : queryDev roundDouble ([-1, 1, -1, 1, -1, 1] : List ℚ) = 1 ∧ queryBy roundDouble ([-1, 1, -1, 1, -1, 1] : List ℚ) = [-1, 1, -1, 1, -1, 1] := by
  decide +kernel

example : (calculateR (rnd roundDouble) (inOrder ℚ) 20 (some ⟨[1, -1, 1, -1, -1, 1].map (2 ^ 26 + ·), false⟩)
    (some ⟨[-1, 1, -1, 1, -1, 1], false⟩) 6 0).map (fun rep => (rep.location, rep.distance, rep.scanned)) = .ok (0, fin 4, 6) := by decide +kernel

/-! The hypotheses of the theorem hold for this query and any data, with real numbers. -/
theorem double_query : queryDev roundDouble ([-1, 1, -1, 1, -1, 1] : List ℝ) = 1 ∧
    queryBy roundDouble ([-1, 1, -1, 1, -1, 1] : List ℝ) = [-1, 1, -1, 1, -1, 1] := by
  have hi : ∀ n : ℤ, |n| ≤ 6 → roundDouble (n : ℝ) = n := by
    intro n hn
    have := C73_representable (K := ℝ) n 0 (hn.trans (by norm_num)) (by norm_num)
    simpa using this
  have h0 : roundDouble (0 : ℝ) = 0 := by simpa using hi 0 (by norm_num)
  have h1 : roundDouble (1 : ℝ) = 1 := by simpa using hi 1 (by norm_num)
  have hm : roundDouble (-1 : ℝ) = -1 := by simpa using hi (-1) (by norm_num)
  have h2 : roundDouble (2 : ℝ) = 2 := by simpa using hi 2 (by norm_num)
  have h3 : roundDouble (3 : ℝ) = 3 := by simpa using hi 3 (by norm_num)
  have h4 : roundDouble (4 : ℝ) = 4 := by simpa using hi 4 (by norm_num)
  have h5 : roundDouble (5 : ℝ) = 5 := by simpa using hi 5 (by norm_num)
  have h6 : roundDouble (6 : ℝ) = 6 := by simpa using hi 6 (by norm_num)
  have hs : HasSqrt.sqrt (1 : ℝ) = 1 := by
    have a := LawfulSqrt.mul_self (K := ℝ) (x := 1) zero_le_one
    have b := LawfulSqrt.sqrt_nonneg (K := ℝ) (x := 1) zero_le_one
    nlinarith
  have hd : queryDev roundDouble ([-1, 1, -1, 1, -1, 1] : List ℝ) = 1 := by
    norm_num [queryDev, devOf, meanOf, totalBy, h0, h1, hm, h2, h3, h4, h5, h6, hs]
  refine ⟨hd, ?_⟩
  unfold queryBy
  rw [hd]
  norm_num [scaledBy, meanOf, totalBy, h0, h1, hm]

example (data : List ℝ) (hN : data.length < 2 ^ 31) : ∃ rep D, calculateR (rnd roundDouble) (inOrder ℝ) (data.length + 1) (some ⟨data, false⟩)
    (some ⟨[-1, 1, -1, 1, -1, 1], false⟩) 6 2 = .ok rep ∧ rep.distance = fin (roundDouble (HasSqrt.sqrt D)) := by
  obtain ⟨rep, h1, -, D, h2, -⟩ := C102_double_partial (inOrder ℝ) (data := ⟨data, false⟩) (query := ⟨[-1, 1, -1, 1, -1, 1], false⟩) (m := 6) (r := 2) rfl hN
    (by simp) le_rfl (by norm_num) (by norm_num) (by simp [double_query.1]) (by
      have h0 : roundDouble (0 : ℝ) = 0 := by simpa using C73_representable (K := ℝ) 0 0 (by norm_num) (by norm_num)
      have e : ([-1, 1, -1, 1, -1, 1] : List ℝ).take 6 = [-1, 1, -1, 1, -1, 1] := rfl
      rw [e, double_query.2]
      intro x hx y hy
      have hx1 : |x| = 1 := by simp at hx; rcases hx with rfl | rfl | rfl | rfl | rfl | rfl <;> simp
      have hy1 : |y| = 1 := by simp at hy; rcases hy with rfl | rfl | rfl | rfl | rfl | rfl <;> simp
      rw [hx1, hy1, sub_self, h0]
      norm_num) (fuel := data.length + 1) (by simp)
  exact ⟨rep, D, h1, h2⟩

/-! With operations that give no number at all, the conversion is undefined. -/
example : (searchR (fun _ => nan) (inOrder ℚ) 8 20 (some ⟨[1, -1, 1, -1, -1, 1, 1], false⟩) (some ⟨[-1, 1, -1, 1, -1, 1], false⟩) 6 0).map (fun rep => rep.location) =
    .error (.ub "conversion to int") := by decide +kernel

/-- C102.  Nor does the search find the query among numbers whose squares overflow: the points of this data are those of the query, times 2⁶⁰⁰.  Their
computed deviation is infinite, so all points are normalised to 0; distance 4 is reported instead of 0. -/
theorem C102_overflow_false : ∃ data query : List ℚ, data = query.map (2 ^ 600 * ·) ∧ Floats roundDouble data ∧ Floats roundDouble query ∧
    (search (inOrder ℚ) 100000 20 (some ⟨data, false⟩) (some ⟨query, false⟩) 16 1).map (fun rep => (rep.location, rep.distance)) = .ok (0, fin 0) ∧
    (searchR (rndMax roundDouble maxDouble) (inOrder ℚ) 100000 20 (some ⟨data, false⟩) (some ⟨query, false⟩) 16 1).map (fun rep => (rep.location, rep.distance)) =
      .ok (0, fin 4) :=
  ⟨[-1, 1, -1, 1, -1, 1, -1, 1, -1, 1, -1, 1, -1, 1, -1, 1].map (2 ^ 600 * ·), [-1, 1, -1, 1, -1, 1, -1, 1, -1, 1, -1, 1, -1, 1, -1, 1], rfl,
    by decide +kernel, by decide +kernel, by decide +kernel, by decide +kernel⟩

/-- C102.  Which windows have a deviation is lost to rounding: the points of this data are those of the query, added to 2²⁷, all of them numbers of
type `double`.  Without rounding the query is found, with distance 0; with numbers of type `double` the computed variance of the window is not
positive, the window is passed over, and distance 10¹⁰ is reported. -/
theorem C102_cancelled_false : ∃ data query : List ℚ, data = query.map (2 ^ 27 + ·) ∧ Floats roundDouble data ∧ Floats roundDouble query ∧
    (search (inOrder ℚ) 100000 20 (some ⟨data, false⟩) (some ⟨query, false⟩) 6 1).map (fun rep => (rep.location, rep.distance)) = .ok (0, fin 0) ∧
    (searchR (rnd roundDouble) (inOrder ℚ) 100000 20 (some ⟨data, false⟩) (some ⟨query, false⟩) 6 1).map (fun rep => (rep.location, rep.distance)) =
      .ok (0, fin (10 ^ 10)) ∧ ¬ 0 < partDev roundDouble 6 (100001 - 6) data 0 :=
  ⟨[-1, 1, -1, 1, -1, 1].map (2 ^ 27 + ·), [-1, 1, -1, 1, -1, 1], rfl, by decide +kernel, by decide +kernel, by decide +kernel, by decide +kernel, by decide +kernel⟩

end Genex.Props
