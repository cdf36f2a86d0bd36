import Verif.Lemmas.Stable
import Verif.Props.Dtw
import Verif.Spec.Group

/-!
# C68: the DTW distance changes little when a series changes little
-/

set_option linter.unusedSectionVars false

namespace Genex.Props

open Dbl Spec

section

variable {K : Type} [Field K] [LinearOrder K] [IsStrictOrderedRing K] [HasSqrt K]

/-- An optimal alignment for `b` is an alignment for `c`. -/
theorem stable_of {M : DM K} [BandOps] {ratio : ℚ} {a b c : List K} (hbc : b.length = c.length) (V W : List (ℕ × ℕ) → K)
    (hV : IsBandedOptimum M ratio a b V) (hW : IsBandedOptimum M ratio a c W) (slack : K)
    (hle : ∀ p, Alignment a.length b.length p → InBand (bandWidth ratio (max a.length b.length)) p → W p ≤ V p + slack)
    (x : K) (hx : warpedValue M ratio (a.map fin) (b.map fin) .inf = .ok (fin x)) :
    ∃ y, warpedValue M ratio (a.map fin) (c.map fin) .inf = .ok (fin y) ∧ y ≤ x + slack := by
  unfold IsBandedOptimum at hV hW
  simp only [← hbc] at hW
  rcases hV with ⟨hne, x', hx', hl⟩ | ⟨-, h⟩
  · rw [hx, Except.ok.injEq, fin.injEq] at hx'
    subst hx'
    obtain ⟨p, h1, h2, h3⟩ := hl.1
    rcases hW with ⟨-, y, hy, hl'⟩ | ⟨hn, -⟩
    · refine ⟨y, hy, le_trans (hl'.2 ⟨p, h1, h2, rfl⟩) ?_⟩
      rw [← h3]
      exact hle p h1 h2
    · exact absurd ⟨_, p, h1, h2, rfl⟩ hn
  · rw [hx, Except.ok.injEq] at h
    cases h

theorem path_of_alignment {a b : List K} (ha : 2 ≤ a.length) {p : List (ℕ × ℕ)} (h : Alignment a.length b.length p) :
    PathTo (a.length - 1, b.length - 1) p := alignment_iff.1 h

/-- C68 euclidean_dtw: exchanging a series for one at (root mean square) distance `d` increases the DTW distance by at most
`d / 2`. -/
theorem C68_euclidean [LawfulSqrt K] [BandOps] (ratio : ℚ) (hr : 0 ≤ ratio) (a b c : List K) (ha : 2 ≤ a.length) (hb : 2 ≤ b.length)
    (hbc : b.length = c.length) (x : K) (hx : warpedValue (euclidean K) ratio (a.map fin) (b.map fin) .inf = .ok (fin x)) :
    ∃ y, warpedValue (euclidean K) ratio (a.map fin) (c.map fin) .inf = .ok (fin y) ∧ y ≤ x + rms b c / 2 := by
  refine stable_of hbc _ _ (C01_euclidean_dtw ratio hr a b ha hb) (C01_euclidean_dtw ratio hr a c ha (by omega)) _ ?_ x hx
  intro p hp hw
  have h1 := sqCost_le a b c hbc (path_of_alignment ha hp) (by omega) hw
  set N := max a.length b.length with hN
  set M := min (2 * bandWidth ratio N + 1) (a.length - 1 + 1) with hM
  set S := (List.zipWith (fun x y => (x - y) ^ 2) b c).sum with hS
  have hS0 : 0 ≤ S := sumsq_nonneg b c
  have hb0 : (0 : K) < (b.length : K) := by exact_mod_cast (by omega : 0 < b.length)
  have hN0 : (0 : K) < (N : K) := by exact_mod_cast (by omega : 0 < N)
  have hd0 := div_nonneg hS0 (le_of_lt hb0)
  have hr0 : 0 ≤ rms b c := LawfulSqrt.sqrt_nonneg hd0
  have hrr : rms b c * rms b c = S / b.length := LawfulSqrt.mul_self hd0
  have hMN : (M : K) ≤ N := by exact_mod_cast (by omega : M ≤ N)
  have hbN : (b.length : K) ≤ N := by exact_mod_cast (by omega : b.length ≤ N)
  have hMS : 0 ≤ (M : K) * S := mul_nonneg (Nat.cast_nonneg _) hS0
  have h2 : HasSqrt.sqrt ((M : K) * S) ≤ N * rms b c := by
    apply le_of_sq_le (mul_nonneg (le_of_lt hN0) hr0)
    rw [LawfulSqrt.mul_self hMS]
    have : (N : K) * rms b c * (N * rms b c) = N * (N * (S / b.length)) := by rw [← hrr]; ring
    rw [this]
    have h3 : S ≤ N * (S / b.length) := by
      rw [mul_div_assoc', le_div_iff₀ hb0, mul_comm S]
      exact mul_le_mul_of_nonneg_right hbN hS0
    exact le_trans (mul_le_mul_of_nonneg_right hMN hS0) (mul_le_mul_of_nonneg_left h3 (le_of_lt hN0))
  rw [show max a.length c.length = N by rw [← hbc]]
  push_cast
  rw [div_add_div _ _ (by positivity) (by norm_num), div_le_div_iff₀ (by positivity) (by positivity)]
  nlinarith

/-- C68 chebyshev_dtw: exchanging a series for one at (maximum) distance `d` increases the DTW distance by at most `d`. -/
theorem C68_chebyshev [BandOps] (ratio : ℚ) (hr : 0 ≤ ratio) (a b c : List K) (ha : 2 ≤ a.length) (hb : 2 ≤ b.length)
    (hbc : b.length = c.length) (x : K) (hx : warpedValue (chebyshev K) ratio (a.map fin) (b.map fin) .inf = .ok (fin x)) :
    ∃ y, warpedValue (chebyshev K) ratio (a.map fin) (c.map fin) .inf = .ok (fin y) ∧ y ≤ x + maxAbs b c := by
  refine stable_of hbc _ _ (C01_chebyshev_dtw ratio hr a b ha hb) (C01_chebyshev_dtw ratio hr a c ha (by omega)) _ ?_ x hx
  intro p hp hw
  exact maxCost_le a b c hbc (path_of_alignment ha hp) (by omega)

/-- C68 manhattan_dtw, part: exchanging a series for one at (mean) distance `d` increases the DTW distance by at most `k / 2`
times `d`, where `k` is the largest number of points that can be aligned with one: `2w+1` for a band of width `w`, and not more
than the query has.  Missing: at most `d`, which is false (`C68_manhattan_false`) unless the band has width 0. -/
theorem C68_manhattan_partial [BandOps] (ratio : ℚ) (hr : 0 ≤ ratio) (a b c : List K) (ha : 2 ≤ a.length) (hb : 2 ≤ b.length)
    (hbc : b.length = c.length) (x : K) (hx : warpedValue (manhattan K) ratio (a.map fin) (b.map fin) .inf = .ok (fin x)) :
    ∃ y, warpedValue (manhattan K) ratio (a.map fin) (c.map fin) .inf = .ok (fin y) ∧
      y ≤ x + (min (2 * bandWidth ratio (max a.length b.length) + 1) a.length : ℕ) / 2 * meanAbs b c := by
  refine stable_of hbc _ _ (C01_manhattan_dtw ratio hr a b ha hb) (C01_manhattan_dtw ratio hr a c ha (by omega)) _ ?_ x hx
  intro p hp hw
  have h1 := absCost_le a b c hbc (path_of_alignment ha hp) (by omega) hw
  rw [show a.length - 1 + 1 = a.length by omega] at h1
  rw [show max a.length c.length = max a.length b.length by rw [← hbc]]
  set N := max a.length b.length with hN
  set M := min (2 * bandWidth ratio N + 1) a.length with hM
  set S := (List.zipWith (fun x y => |x - y|) b c).sum with hS
  have hS0 : 0 ≤ S := sumabs_nonneg b c
  have hb0 : (0 : K) < (b.length : K) := by exact_mod_cast (by omega : 0 < b.length)
  have hN0 : (0 : K) < (N : K) := by exact_mod_cast (by omega : 0 < N)
  have hbN : (b.length : K) ≤ N := by exact_mod_cast (by omega : b.length ≤ N)
  have hMS : 0 ≤ (M : K) * S := mul_nonneg (Nat.cast_nonneg _) hS0
  have h3 : (M : K) * S / (2 * N) ≤ M / 2 * meanAbs b c := by
    have e : (M : K) / 2 * meanAbs b c = M * S / (2 * b.length) := by
      unfold meanAbs
      rw [← hS, div_mul_div_comm]
    rw [e]
    exact div_le_div_of_nonneg_left hMS (by positivity) (by linarith)
  push_cast
  calc absCost a c p / (2 * (N : K)) ≤ (absCost a b p + M * S) / (2 * N) :=
        div_le_div_of_nonneg_right h1 (by positivity)
    _ = absCost a b p / (2 * N) + M * S / (2 * N) := add_div _ _ _
    _ ≤ _ := add_le_add (le_refl _) h3

end

/-- C68 is false for manhattan_dtw: three points of the first series are aligned with the peak of the second one.  Exchanging
the peak costs 2/5 in mean distance and 3/5 in DTW distance. -/
theorem C68_manhattan_false : ∃ (a b c : List ℚ) (x y : ℚ), a.length = 5 ∧ b.length = 5 ∧ c.length = 5 ∧
    warpedValue (manhattan ℚ) (1 / 5) (a.map fin) (b.map fin) .inf = .ok (fin x) ∧
    warpedValue (manhattan ℚ) (1 / 5) (a.map fin) (c.map fin) .inf = .ok (fin y) ∧ x + meanAbs b c < y :=
  ⟨[0, 5, 5, 5, 0], [0, 0, 5, 0, 0], [0, 0, 3, 0, 0], 0, 3 / 5, rfl, rfl, rfl,
    (by decide +kernel), (by decide +kernel), (by decide +kernel)⟩

example := C68_manhattan_partial (1 / 5) (by norm_num) ([0, 5, 5, 5, 0] : List ℚ) [0, 0, 5, 0, 0] [0, 0, 3, 0, 0] (by simp) (by simp)
  rfl 0 (by decide +kernel)
example := C68_chebyshev (1 / 5) (by norm_num) ([0, 5, 5, 5, 0] : List ℚ) [0, 0, 4, 1, 0] [0, 0, 3, 0, 0] (by simp) (by simp)
  rfl 1 (by decide +kernel)
/-- Over the reals. -/
example := C68_euclidean (K := ℝ) (1 / 5) (by norm_num) [0, 5, 5, 5, 0] [0, 5, 5, 5, 0] [0, 0, 3, 0, 0] (by simp) (by simp)
  rfl 0 (C11_self .euclidean (by decide) (fun _ => inferInstance) (1 / 5) (by norm_num) _ (by simp))

end Genex.Props
