import Verif.Props.RoundedSearch
import Verif.Props.Approx

/-!
# C75: how far the best match is from the optimum, in floating point
-/

set_option linter.unusedSectionVars false

namespace Genex.Props

open Dbl Spec

variable {K : Type} [Field K] [LinearOrder K] [IsStrictOrderedRing K] [HasSqrt K] {rd : K → K} {u θ e : K}

section
variable [Arith K] [BandOps] (hE : Rounds rd) (hp : FloatOps rd u θ)

include hE hp

/-- Every subsequence of a grouped length is within half the threshold of a representative, up to the error. -/
theorem rounded_covers {rows : List (List K)} (hF : ∀ r ∈ rows, Floats rd r) {m : Metric} (hm : m ≠ .sorensen ∧ m ≠ .cosine)
    (hs : m = .euclidean → LawfulSqrt K) {τ : K} (hτ : 0 ≤ τ) {whole : Bool} {z : GSet K}
    (hz : Ready (rows.map (·.map fin)) (metricName m) (fin τ) whole z) (he : 2 * (((z.ds.maxCol : K) + 4) * u) ≤ e) (he1 : e ≤ 1) :
    ∃ gs, z.groups = some gs ∧ ∀ ℓ i p y, InRange z.ds.maxCol whole ℓ → SubOf rows ℓ i p y →
      ∃ sp g ri rp x, gs.spaces[ℓ]? = some (some sp) ∧ g ∈ sp.groups ∧ g.centroid = .view (subView z.ds.maxCol ri rp ℓ) ∧
        SubOf rows ℓ ri rp x ∧ (1 - e) * textbook m x y ≤ τ / 2 + 4 * θ := by
  have := rounded_evals hE
  refine covers_for (fun x y => (1 - e) * textbook m x y ≤ τ / 2 + 4 * θ) rfl hz ?_
  intro s ratio log numThreads out N H hmax hd ho hN
  obtain ⟨gs, e, h⟩ := C74_radius hE hp s rows hF H hmax ratio m hm hs τ hτ whole log numThreads out ho N hN (by rw [hd]; exact he) he1
  refine ⟨gs, e, fun ℓ sp g hsp hg => ?_⟩
  obtain ⟨j, hj⟩ := List.mem_iff_getElem?.1 hg
  obtain ⟨ri, rp, x, members, hc, hx, hm', -, hrad, -⟩ := h ℓ sp hsp j g hj
  exact ⟨ri, rp, x, members, hc, hx, hm', hrad⟩

/-- What is found is not much farther from the query than the representative of the group of `y`, nor that than `y`. -/
theorem rounded_approx (z : GSet K) (rows : List (List K)) (ratio : ℚ) (hr : 0 ≤ ratio) (m : Metric) (hm : m ≠ .sorensen ∧ m ≠ .cosine)
    (hs : m = .euclidean → LawfulSqrt K) (τ : K) (hτ : 0 ≤ τ) (whole : Bool)
    (hz : Ready (rows.map (·.map fin)) (metricName m) (fin τ) whole z) (q : List K)
    (hF : ∀ r ∈ rows, Floats rd r) (hFq : Floats rd q) (he : 12 * (((q.length : K) + (z.ds.maxCol : K)) * u) ≤ e) (he1 : e < 1)
    (c : Cand K) (hc : z.getBestMatch ratio (q.map fin) = .ok c) (slack : K) (ℓ i p : ℕ) (y : List K)
    (hℓ : Considered z.ds.maxCol whole ratio q.length ℓ) (hy : SubOf rows ℓ i p y)
    (hst : 2 ≤ q.length → 2 ≤ ℓ → ∀ E r, Dtw m ratio q y (fin E) → r.length = ℓ → textbook m y r ≤ (τ + 8 * θ) / (2 * (1 - e)) →
      ∃ E', Dtw m ratio q r (fin E') ∧ E' ≤ E + slack)
    (E : K) (hyE : Dtw m ratio q y (fin E)) :
    ∃ ℓ' i' p' y' x D, Considered z.ds.maxCol whole ratio q.length ℓ' ∧ SubOf rows ℓ' i' p' y' ∧
      c.view = subView z.ds.maxCol i' p' ℓ' ∧ c.dist = fin x ∧ Dtw m ratio q y' (fin D) ∧ |x - D| ≤ e * D + 4 * θ ∧
      (1 - e) ^ 2 * D ≤ (1 + e) ^ 2 * (E + slack) + 16 * θ := by
  have := rounded_evals hE
  have hu := hp.u_nonneg
  have hθ := hp.θ_nonneg
  obtain ⟨hq, hle⟩ : 2 ≤ q.length ∧ (q.length : Int) ≤ z.ds.maxCol := by
    obtain ⟨-, -, -, m', gs', SP, ABS, hname, hgs', U⟩ := hz.usable
    have hoth := best_other (s := z) ratio _ U.warped U.spaces.size (q.map fin)
    rw [List.length_map] at hoth
    simp only [GSet.getBestMatch, hgs'] at hc
    by_cases hq : 2 ≤ q.length
    · refine ⟨hq, ?_⟩
      by_contra hle
      rcases hoth.2 hq (by omega) with h | h <;> rw [h] at hc <;> cases hc
    · obtain ⟨msg, h⟩ := hoth.1 (by omega)
      rw [h] at hc; cases hc
  have h2ℓ := considered_two hq hle hℓ
  have hq' : (2 : K) ≤ (q.length : K) := by exact_mod_cast hq
  have hM' : (2 : K) ≤ (z.ds.maxCol : K) := by exact_mod_cast (by omega : (2 : Int) ≤ z.ds.maxCol)
  have he' : 2 * (((z.ds.maxCol : K) + 4) * u) ≤ e := by
    refine le_trans ?_ he
    have h1 := mul_le_mul_of_nonneg_right hq' hu
    have h2 := mul_le_mul_of_nonneg_right hM' hu
    linarith
  obtain ⟨gs, hgs, hcov⟩ := rounded_covers hE hp hF hm hs hτ hz he' (le_of_lt he1)
  obtain ⟨gs', hgs', ℓ', i', p', y', x, D, b1, b2, b3, -, b4, b5, b6, sp', g', members, ri', rp', r', R, b7, b8, b9, b10, b11, b12, b13,
    b14, b15, b16⟩ := C74_best hE hp m hm hs ratio hr z rows (fin τ) whole hz q hF hFq he (le_of_lt he1) c hc
  rw [hgs, Option.some.injEq] at hgs'
  subst hgs'
  obtain ⟨sp, g, ri, rp, r, h1, h2, h3, h4, h5⟩ := hcov ℓ i p y hℓ.1 hy
  have hM := textbook_metric (K := K) m hm hs ℓ (by omega)
  rw [hM.symm _ _ (subOf_length h4) (subOf_length hy)] at h5
  obtain ⟨E', e1, e2⟩ := hst hq h2ℓ E r hyE (subOf_length h4) (by
    have : 0 < 1 - e := by linarith
    rw [le_div_iff₀ (by linarith)]
    linarith)
  refine ⟨ℓ', i', p', y', x, D, b1, b2, b3, b4, b5, b6, ?_⟩
  have k1 := b15 ri' rp' r' R b13 b10 b11
  have k2 := b16 ℓ sp g ri rp r E' hℓ h1 h2 h3 h4 e1
  have he0 : 0 ≤ e := le_trans (mul_nonneg (by norm_num) (mul_nonneg (by linarith) hu)) he
  have c1 := mul_le_mul_of_nonneg_left k1 (by linarith : 0 ≤ 1 - e)
  have c2 := mul_le_mul_of_nonneg_left k2 (by linarith : 0 ≤ 1 + e)
  have c3 := mul_le_mul_of_nonneg_left (mul_le_mul_of_nonneg_left e2 (by linarith : 0 ≤ 1 + e)) (by linarith : 0 ≤ 1 + e)
  have c4 : 8 * θ * (1 - e) + 8 * θ * (1 + e) = 16 * θ := by ring
  calc (1 - e) ^ 2 * D = (1 - e) * ((1 - e) * D) := by ring
    _ ≤ (1 + e) * ((1 + e) * E') + 16 * θ := by linarith
    _ ≤ (1 + e) * ((1 + e) * (E + slack)) + 16 * θ := by linarith
    _ = _ := by ring

/-- C75 euclidean: in floating point, too, the best match is at most a quarter of the threshold farther from the query than any
subsequence of a length considered, up to the error; `D` is its true distance. -/
theorem C75_euclidean [LawfulSqrt K] (z : GSet K) (rows : List (List K)) (ratio : ℚ) (hr : 0 ≤ ratio) (τ : K) (hτ : 0 ≤ τ)
    (whole : Bool) (hz : Ready (rows.map (·.map fin)) "euclidean" (fin τ) whole z) (q : List K)
    (hF : ∀ r ∈ rows, Floats rd r) (hFq : Floats rd q) (he : 12 * (((q.length : K) + (z.ds.maxCol : K)) * u) ≤ e) (he1 : e < 1)
    (c : Cand K) (hc : z.getBestMatch ratio (q.map fin) = .ok c) (ℓ i p : ℕ) (y : List K)
    (hℓ : Considered z.ds.maxCol whole ratio q.length ℓ) (hy : SubOf rows ℓ i p y) (E : K) (hyE : Dtw .euclidean ratio q y (fin E)) :
    ∃ ℓ' i' p' y' x D, Considered z.ds.maxCol whole ratio q.length ℓ' ∧ SubOf rows ℓ' i' p' y' ∧
      c.view = subView z.ds.maxCol i' p' ℓ' ∧ c.dist = fin x ∧ Dtw .euclidean ratio q y' (fin D) ∧ |x - D| ≤ e * D + 4 * θ ∧
      (1 - e) ^ 2 * D ≤ (1 + e) ^ 2 * (E + (τ + 8 * θ) / (4 * (1 - e))) + 16 * θ := by
  refine rounded_approx hE hp z rows ratio hr .euclidean (by decide) (fun _ => inferInstance) τ hτ whole hz q hF hFq he he1 c hc _ ℓ i p y hℓ hy ?_
    E hyE
  intro hq h2 x r hx hrl ht
  have hyl := subOf_length hy
  have hpos : 0 < 1 - e := by linarith
  obtain ⟨x', h3, h4⟩ := C68_euclidean ratio hr q y r hq (by omega) (by omega) x ((dtw_iff (by decide) (fun _ => inferInstance) hr (by omega) (by omega)).1 hx)
  refine ⟨x', (dtw_iff (by decide) (fun _ => inferInstance) hr (by omega) (by omega)).2 h3, le_trans h4 ?_⟩
  simp only [textbook] at ht
  have : (τ + 8 * θ) / (2 * (1 - e)) / 2 = (τ + 8 * θ) / (4 * (1 - e)) := by
    field_simp
    norm_num
  linarith

/-- C75 chebyshev: in floating point, too, the best match is at most half the threshold farther from the query than any
subsequence of a length considered, up to the error. -/
theorem C75_chebyshev (z : GSet K) (rows : List (List K)) (ratio : ℚ) (hr : 0 ≤ ratio) (τ : K) (hτ : 0 ≤ τ)
    (whole : Bool) (hz : Ready (rows.map (·.map fin)) "chebyshev" (fin τ) whole z) (q : List K)
    (hF : ∀ r ∈ rows, Floats rd r) (hFq : Floats rd q) (he : 12 * (((q.length : K) + (z.ds.maxCol : K)) * u) ≤ e) (he1 : e < 1)
    (c : Cand K) (hc : z.getBestMatch ratio (q.map fin) = .ok c) (ℓ i p : ℕ) (y : List K)
    (hℓ : Considered z.ds.maxCol whole ratio q.length ℓ) (hy : SubOf rows ℓ i p y) (E : K) (hyE : Dtw .chebyshev ratio q y (fin E)) :
    ∃ ℓ' i' p' y' x D, Considered z.ds.maxCol whole ratio q.length ℓ' ∧ SubOf rows ℓ' i' p' y' ∧
      c.view = subView z.ds.maxCol i' p' ℓ' ∧ c.dist = fin x ∧ Dtw .chebyshev ratio q y' (fin D) ∧ |x - D| ≤ e * D + 4 * θ ∧
      (1 - e) ^ 2 * D ≤ (1 + e) ^ 2 * (E + (τ + 8 * θ) / (2 * (1 - e))) + 16 * θ := by
  refine rounded_approx hE hp z rows ratio hr .chebyshev (by decide) (by simp) τ hτ whole hz q hF hFq he he1 c hc _ ℓ i p y hℓ hy ?_
    E hyE
  intro hq h2 x r hx hrl ht
  have hyl := subOf_length hy
  have hpos : 0 < 1 - e := by linarith
  obtain ⟨x', h3, h4⟩ := C68_chebyshev ratio hr q y r hq (by omega) (by omega) x ((dtw_iff (by decide) (by simp) hr (by omega) (by omega)).1 hx)
  refine ⟨x', (dtw_iff (by decide) (by simp) hr (by omega) (by omega)).2 h3, le_trans h4 ?_⟩
  simp only [textbook] at ht
  linarith

/-- C75 manhattan, part: with the factor of `C68_manhattan_partial`.  Missing: at most half the threshold, which is false without
rounding (`C69_manhattan_false`). -/
theorem C75_manhattan_partial (z : GSet K) (rows : List (List K)) (ratio : ℚ) (hr : 0 ≤ ratio) (τ : K) (hτ : 0 ≤ τ)
    (whole : Bool) (hz : Ready (rows.map (·.map fin)) "manhattan" (fin τ) whole z) (q : List K)
    (hF : ∀ r ∈ rows, Floats rd r) (hFq : Floats rd q) (he : 12 * (((q.length : K) + (z.ds.maxCol : K)) * u) ≤ e) (he1 : e < 1)
    (c : Cand K) (hc : z.getBestMatch ratio (q.map fin) = .ok c) (ℓ i p : ℕ) (y : List K)
    (hℓ : Considered z.ds.maxCol whole ratio q.length ℓ) (hy : SubOf rows ℓ i p y) (E : K) (hyE : Dtw .manhattan ratio q y (fin E)) :
    ∃ ℓ' i' p' y' x D, Considered z.ds.maxCol whole ratio q.length ℓ' ∧ SubOf rows ℓ' i' p' y' ∧
      c.view = subView z.ds.maxCol i' p' ℓ' ∧ c.dist = fin x ∧ Dtw .manhattan ratio q y' (fin D) ∧ |x - D| ≤ e * D + 4 * θ ∧
      (1 - e) ^ 2 * D ≤ (1 + e) ^ 2 * (E + (min (2 * bandWidth ratio (max q.length ℓ) + 1) q.length : ℕ) / 2 * ((τ + 8 * θ) / (2 * (1 - e)))) + 16 * θ := by
  refine rounded_approx hE hp z rows ratio hr .manhattan (by decide) (by simp) τ hτ whole hz q hF hFq he he1 c hc _ ℓ i p y hℓ hy ?_
    E hyE
  intro hq h2 x r hx hrl ht
  have hyl := subOf_length hy
  have hpos : 0 < 1 - e := by linarith
  obtain ⟨x', h3, h4⟩ := C68_manhattan_partial ratio hr q y r hq (by omega) (by omega) x ((dtw_iff (by decide) (by simp) hr (by omega) (by omega)).1 hx)
  refine ⟨x', (dtw_iff (by decide) (by simp) hr (by omega) (by omega)).2 h3, le_trans h4 ?_⟩
  simp only [textbook] at ht
  rw [hyl]
  exact add_le_add (le_refl _) (mul_le_mul_of_nonneg_left ht (by positivity))

end

section examples

local instance exArith7a : Arith ℚ := roundedArith (roundTo 7)

example := C75_manhattan_partial exRounds ex7 exGrouped7.1
  [[7, 2, 3], [4, 12]] (1 / 2) (by norm_num) 10 (by norm_num) false exGrouped7_ready [3, 2] (by decide +kernel) (by decide +kernel) (e := 1 / 2)
  (by rw [exGrouped7_width]; norm_num) (by norm_num) ⟨⟨0, 0, 0, 3⟩, fin (107 / 128)⟩ (by decide +kernel) 2 1 0 [4, 12] (by decide +kernel)
  ⟨_, rfl, by simp, rfl⟩ (11 / 4) ((dtw_iff (by decide) (by simp) (by norm_num) (by simp) (by simp)).2 (by decide +kernel))

/-- `exPeakGrouped` with seven digits. -/
def exPeak7 : GSet ℚ × Res Int :=
  exPeak.groupAllLengths (GSpace.group exPeak.ds (1 / 5) (fun _ => false) "chebyshev" (fin 4) true) (fun _ => (GSpace.fresh, .ok 0)) 1

theorem exPeak7_run : GSet.GroupAll (1 / 5) (fun _ => false) "chebyshev" (fin 4) true 1 exPeak exPeak7 :=
  ⟨(GSpace.fresh, .ok 0), fun h => absurd h (by decide), rfl⟩

example := C75_chebyshev exRounds ex7 exPeak7.1 [[0, 0, 3, 0, 0], [0, 5, 5, 5, 5], [0, 0, 5, 0, 0]] (1 / 5)
  (by norm_num) 4 (by norm_num) true
  (.grouped exPeak exPeak_holds (by decide +kernel) (1 / 5) _ 1 _ exPeak7_run 2 (by decide +kernel))
  [0, 5, 5, 5, 0] (by decide +kernel) (by decide +kernel) (e := 15 / 16) (by rw [show exPeak7.1.ds.maxCol = 5 by decide +kernel]; norm_num) (by norm_num)
  ⟨⟨10, 2, 0, 5⟩, fin 0⟩ (by decide +kernel) 5 1 0 [0, 5, 5, 5, 5] (by decide +kernel)
  ⟨_, rfl, by simp, rfl⟩ 5 ((dtw_iff (by decide) (by simp) (by norm_num) (by simp) (by simp)).2 (by decide +kernel))

end examples

/-- `double` over the reals: grouped by the euclidean metric with threshold 1, the series `0 5 0` is searched. -/
noncomputable example [Arith ℝ] [BandOps] (hE : Rounds (K := ℝ) roundDouble) (out : GSet ℝ × Res Int)
    (ho : GSet.GroupAll 1 (fun _ => false) "euclidean" (fin 1) false 4 exReal out) (N : Int) (hN : out.2 = .ok N) (c : Cand ℝ)
    (hc : out.1.getBestMatch 1 ([0, 5, 0].map fin) = .ok c) (h3 : out.1.ds.maxCol = 3) :=
  have h5 : roundDouble (5 : ℝ) = 5 := by simpa using C73_representable (K := ℝ) 5 0 (by norm_num) (by norm_num)
  C75_euclidean hE C73_double out.1 [[0, 0, 5], [0, 5, 0]] 1 (by norm_num) 1 (by norm_num) false
    (.grouped exReal exReal_holds.1 (le_trans (by simp) (exReal_holds.1.fits 0 [fin 0, fin 0, fin 5] rfl)) 1 _ 4 out ho N hN)
    [0, 5, 0] (by simp [Floats, h5, C73_double.zero]) (by simp [Floats, h5, C73_double.zero])
    (e := 1 / 10 ^ 12) (by rw [h3]; norm_num) (by norm_num) c hc 3 1 0 [0, 5, 0] ⟨⟨by rw [h3]; norm_num, by simp⟩, by unfold Comparable; simp⟩
    ⟨_, rfl, by simp, rfl⟩ 0 ((dtw_iff (by decide) (fun _ => inferInstance) (by norm_num) (by simp) (by simp)).2
      (C11_self .euclidean (by decide) (fun _ => inferInstance) 1 (by norm_num) _ (by simp)))

end Genex.Props
