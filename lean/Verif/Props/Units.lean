import Verif.Lemmas.Units
import Verif.Props.Moved

/-!
# C119: the units of the numbers
-/

set_option linter.unusedSectionVars false

namespace Genex.Props

open Dbl Api Registry Spec Cli Manual

section

variable {K : Type} [Field K] [LinearOrder K] [IsStrictOrderedRing K] [HasSqrt K]

/-- C119: in another unit the warped distance computed is the same distance in that unit. -/
theorem C119_distance (m : Metric) (hm : m ≠ .sorensen ∧ m ≠ .cosine) (hs : m = .euclidean → LawfulSqrt K) [BandOps] (ratio : ℚ) (hr : 0 ≤ ratio)
    (a b a' b' : List K) (s c : K) (ha : Converted s c a a') (hb : Converted s c b b') (ha1 : 1 ≤ a.length) (hb1 : 1 ≤ b.length) (d d' : Dbl K)
    (h : warpedValue (m.dm K) ratio (a.map fin) (b.map fin) .inf = .ok d)
    (h' : warpedValue (m.dm K) ratio (a'.map fin) (b'.map fin) .inf = .ok d') :
    (d = .inf ∧ d' = .inf) ∨ ∃ x, d = fin x ∧ d' = fin (|s| * x) :=
  dtw_converted hs ha hb ha1 hb1 ((dtw_iff hm hs hr ha1 hb1).2 h)
    ((dtw_iff hm hs hr (by rw [ha]; simpa using ha1) (by rw [hb]; simpa using hb1)).2 h')

/-- From degrees Celsius to Fahrenheit. -/
example : Converted (9 / 5 : ℚ) 32 [0, 10, 20] [32, 50, 68] ∧ Converted (9 / 5 : ℚ) 32 [5, 5] [41, 41] ∧
    warpedValue (Metric.dm ℚ .manhattan) 1 [fin 0, fin 10, fin 20] [fin 5, fin 5] .inf = .ok (fin (25 / 6)) ∧
    warpedValue (Metric.dm ℚ .manhattan) 1 [fin 32, fin 50, fin 68] [fin 41, fin 41] .inf = .ok (fin (9 / 5 * (25 / 6))) := by
  unfold Converted
  decide +kernel

/-- C119: and so is the plain distance. -/
theorem C119_plain (m : Metric) (hm : m ≠ .sorensen ∧ m ≠ .cosine) (hs : m = .euclidean → LawfulSqrt K) (a b a' b' : List K)
    (hl : a.length = b.length) (h1 : 1 ≤ a.length) (s c : K) (ha : Converted s c a a') (hb : Converted s c b b') :
    ∃ x, pairwiseDistance (m.dm K) (a.map fin) (b.map fin) .inf = .ok (fin x) ∧
      pairwiseDistance (m.dm K) (a'.map fin) (b'.map fin) .inf = .ok (fin (|s| * x)) := by
  unfold Converted at ha hb
  subst ha hb
  cases m with
  | euclidean =>
    have := hs rfl
    refine ⟨_, C03_euclidean a b hl h1, ?_⟩
    refine (C03_euclidean _ _ (by simpa using hl) (by simpa using h1)).trans ?_
    have h0 : 0 ≤ (List.zipWith (fun x y => (x - y) ^ 2) a b).sum / (a.length : K) := div_nonneg (sumsq_nonneg a b) (Nat.cast_nonneg _)
    simp only [rms, zip_sq_converted, List.length_map, mul_div_assoc, sqrt_mul_sq (abs_nonneg s) h0]
  | manhattan =>
    refine ⟨_, C03_manhattan a b hl h1, ?_⟩
    refine (C03_manhattan _ _ (by simpa using hl) (by simpa using h1)).trans ?_
    simp only [meanAbs, zip_abs_converted, sum_mul_left', List.length_map, mul_div_assoc]
  | chebyshev =>
    refine ⟨_, C03_chebyshev a b hl h1, ?_⟩
    refine (C03_chebyshev _ _ (by simpa using hl) (by simpa using h1)).trans ?_
    simp only [maxAbs, zip_abs_converted, foldr_max_scaled (abs_nonneg s)]
  | cosine => exact absurd rfl hm.2
  | sorensen => exact absurd rfl hm.1

example : pairwiseDistance (Metric.dm ℚ .chebyshev) [fin 0, fin 10] [fin 5, fin 8] .inf = .ok (fin 5) ∧
    pairwiseDistance (Metric.dm ℚ .chebyshev) [fin 32, fin 50] [fin 41, fin (46 + 2 / 5)] .inf = .ok (fin 9) := by decide +kernel

/-- C119: datasets of the same numbers in two units hold the same numbers after `normalize`, whose result is the old range, each in its
unit. -/
theorem C119_normalize (ds ds' : Dataset K) (raw raw' : List (List K)) (H : Holds ds (raw.map (·.map fin)))
    (H' : Holds ds' (raw'.map (·.map fin))) (s c : K) (hs : 0 < s) (h : ConvertedAll s c raw raw') (hne : ∃ r ∈ raw, r ≠ []) :
    ∃ e e' lo hi rows, ds.normalize = .ok (e, (fin lo, fin hi)) ∧ ds'.normalize = .ok (e', (fin (s * lo + c), fin (s * hi + c))) ∧
      Holds e rows ∧ Holds e' rows := by
  have hne' : ∃ r ∈ raw', r ≠ [] := by
    obtain ⟨r, hr, hr'⟩ := hne
    rw [h.map]
    exact ⟨_, List.mem_map_of_mem hr, by simpa using hr'⟩
  obtain ⟨e, lo, hi, k1, k2, k3, k4, -⟩ := C23_normalize ds raw H hne
  obtain ⟨e', lo', hi', j1, j2, j3, j4, -⟩ := C23_normalize ds' raw' H' hne'
  rw [h.map] at j2 j3 j4
  obtain rfl := j2.unique (least_converted hs k2)
  obtain rfl := j3.unique (greatest_converted hs k3)
  refine ⟨e, e', lo, hi, _, k1, j1, k4, ?_⟩
  simpa only [List.map_map, Function.comp_def, scale_converted hs] using j4

example := C119_normalize (exBox (0 : ℚ) 10) (exBox 32 50) [[0, 10]] [[32, 50]] (exBox_holds 0 10) (exBox_holds 32 50) (9 / 5) 32 (by norm_num)
  (by simp [ConvertedAll, Converted]; norm_num) ⟨_, List.mem_singleton.2 rfl, by simp⟩

/-- C119: so at the terminal, after `normalize`, everything that C111 says about the numbers in one unit is said about those in the other. -/
theorem C119_terminal (E : Env K) (h₁ h₂ : List (Entered K)) (e : Entered K) (name : String) (raw raw' rows : List (List K)) (s c : K)
    (hs : 0 < s) (h : ConvertedAll s c raw raw') (hr : Scales raw rows) (hl : LoadedBy E name h₁ raw') (hty : e.Typed ["normalize", name])
    (hf : e.Fine) (hk : ∀ x ∈ h₂, ¬ x.Touches ["load", "unload", "normalize"] name) : LoadedBy E name (h₁ ++ e :: h₂) rows :=
  .normalize hl hty (scales_converted hs h hr) hf hk

/-- C119, part: without `normalize`, what `sim` shows of numbers in one unit is right of the same numbers in another: the distance shown is that of the
part named, in the unit of the file, and the allowance of C111 is that of the threshold in the other unit.
Missing: that the same part is found; `C119_sim` has it for whole files that are not normalized, and of the exhaustive search it is false
(`C119_exhaustive_false`). -/
theorem C119_sim_partial (E : Env K) (S : Screen K) (hS : Tidy S) (hP : S.progress = [] ∨ S.progress.getLast? = some '\n') (h : List (Entered K))
    (e : Entered K) (c : Console K) (ht : Terminal E S Console.fresh (h ++ [e]) c) (name : String) (rows rows' : List (List K)) (m : Metric)
    (hm : m ≠ .sorensen ∧ m ≠ .cosine) (hs : m = .euclidean → LawfulSqrt K) (τ : K) (hg : GroupedBy E h name rows' (metricName m) (fin τ))
    (qname : String) (index a b : Int) (q q' : List K) (hq : Asks E h qname index a b q') (h2 : 2 ≤ q.length)
    (s z : K) (hs0 : s ≠ 0) (hrows : ConvertedAll s z rows rows') (hqq : Converted s z q q')
    (hrow : ∃ r ∈ rows, q.length ≤ r.length) (args : List String) (hty : e.Typed args)
    (hu : Usage e.env args (.call (.call (.bestMatch name qname index a b)))) :
    ∃ (i p ℓ : ℕ) (y : List K) (x : K) (d : ℕ), bestIn e.text = [((i : Int), (p : Int), (p : Int) + ℓ)] ∧
      afterWords "Distance = " e.text = [S.num d (fin (|s| * x))] ∧ SubOf rows ℓ i p y ∧ Comparable cliBand q.length ℓ ∧
      Dtw m cliBand q y (fin x) ∧
      (0 ≤ τ → m = .euclidean ∨ m = .chebyshev → ∀ i' p' ℓ' y' x', 2 ≤ ℓ' → SubOf rows ℓ' i' p' y' → Comparable cliBand q.length ℓ' →
        Dtw m cliBand q y' (fin x') → x ≤ x' + (if m = .euclidean then τ / 4 else τ / 2) / |s|) := by
  have hl : q'.length = q.length := by rw [hqq]; simp
  have hr0 : (0 : ℚ) ≤ cliBand := by norm_num [cliBand]
  have hpos : 0 < |s| := abs_pos.2 hs0
  obtain ⟨i, p, ℓ, y, x, d, h1, h3, h4, h5, h6, -, -, h8⟩ := C111_sim E S hS hP h e c ht name rows' m hm hs τ hg qname index a b q' hq
    (by omega) (by
      obtain ⟨r, hr, hrl⟩ := hrow
      rw [hl, hrows.map]
      exact ⟨_, List.mem_map_of_mem hr, by simpa using hrl⟩) args hty hu
  rw [hl] at h5 h8
  obtain ⟨y₀, g1, g2⟩ := hrows.sub' h4
  have hly : ∀ {rs : List (List K)} {ℓ i p : ℕ} {y : List K}, SubOf rs ℓ i p y → y.length = ℓ := by
    rintro rs ℓ i p y ⟨r, -, hle, rfl⟩
    simp
    omega
  have hℓ : 1 ≤ ℓ := by
    by_contra hc
    have : ℓ = 0 := by omega
    subst this
    have hb := h5.1
    unfold bandWidth at hb
    have := min_le_right ⌊BandOps.mul cliBand ((max q.length 0 : ℕ) : ℕ)⌋₊ (max q.length 0 - 1)
    omega
  obtain ⟨D', hD'⟩ := dtw_of_two m hm hs hr0 (a := q) (b := y₀) (by omega) (by rw [hly g1]; exact hℓ) (.inl h2)
  rcases dtw_converted hs hqq g2 (by omega) (by rw [hly g1]; exact hℓ) hD' h6 with ⟨-, hinf⟩ | ⟨D, rfl, hx'⟩
  · cases hinf
  · cases hx'
    refine ⟨i, p, ℓ, y₀, D, d, h1, h3, g1, h5, hD', ?_⟩
    intro ht0 hm2 i' p' ℓ' y' x' k1 k2 k3 k4
    obtain ⟨y'', j1, j2⟩ := hrows.sub k2
    obtain ⟨w, hw⟩ := dtw_of_two m hm hs hr0 (a := q') (b := y'') (by omega) (by rw [hly j1]; omega) (.inl (by omega))
    rcases dtw_converted hs hqq j2 (by omega) (by rw [hly k2]; omega) k4 hw with ⟨hinf, -⟩ | ⟨x'', hx'', rfl⟩
    · cases hinf
    · cases hx''
      have := h8 ht0 hm2 i' p' ℓ' y'' _ k1 j1 k3 hw
      rw [add_div' _ _ _ hpos.ne', le_div_iff₀ hpos]
      linarith

end

example := C119_terminal exEnv [exEnterLoad] [] exEnterNorm "d" [[0, 0, 0], [0, 0, 10]] exTermRows exTermUnitRows (1 / 10) 1 (by norm_num)
  (by simp [ConvertedAll, Converted, exTermRows]; norm_num)
  (scales_converted (s := 10) (c := -10) (by norm_num) (by simp [ConvertedAll, Converted, exTermRows]; norm_num) exTermUnit_scales)
  (exTerm_loaded [] (by simp)) (tokens_words "normalize d".toList) exTermUnit_fine.1 (by simp)

example := C119_sim_partial exEnv exScreen exScreen_tidy (.inl rfl) _ _ _ exEnterSim_says "d" [[0, 0, 0], [0, 0, 10]] exTermRows .chebyshev
  (by decide) (by simp) 1 exTerm_grouped "d" 1 1 3 [0, 10] [1, 2] exTerm_asks (by decide) (1 / 10) 1 (by norm_num)
  (by simp [ConvertedAll, Converted, exTermRows]; norm_num) (by simp [Converted]; norm_num) ⟨[0, 0, 0], by simp, by decide⟩
  ["sim", "d", "d", "1", "1", "3"] (tokens_words "sim d d 1 1 3".toList) (.sim1 "d" "d" "1" "1" "3" rfl rfl rfl)

/-- A file loaded as `d`. -/
def exUnitLoaded (file : Text) : Api ℚ := ((fresh : Api ℚ).exec exKeepEnv (.load "d" (some file) [] [' '] 0 0 false)).1

/-- C119 is false of the exhaustive search: distances that differ by less than 1e-9 count as equal, whatever the unit.  The series that is
nearest to itself in one unit is not in another. -/
theorem C119_exhaustive_false : ∃ (rows rows' : List (List ℚ)) (s : ℚ) (file file' : Text), 0 < s ∧ ConvertedAll s 0 rows rows' ∧
    FileHas exKeepEnv.parse file [' '] 0 0 false rows ∧ FileHas exKeepEnv.parse file' [' '] 0 0 false rows' ∧
    ((exUnitLoaded file).exec exKeepEnv (.bruteForce 1 "d" "d" 1 (-1) (-1) "chebyshev")).2 = .ret (.ok (.cands [⟨⟨2, 1, 0, 2⟩, fin 0⟩])) ∧
    ((exUnitLoaded file').exec exKeepEnv (.bruteForce 1 "d" "d" 1 (-1) (-1) "chebyshev")).2 =
      .ret (.ok (.cands [⟨⟨0, 0, 0, 2⟩, fin (1 / 10 ^ 10)⟩])) := by
  refine ⟨[[0, 1], [0, 0]], [[0, 1 / 10 ^ 10], [0, 0]], 1 / 10 ^ 10, "0 1\n0 0".toList, "0 1e-10\n0 0".toList, by norm_num,
    by simp [ConvertedAll, Converted], ⟨by decide, by decide +kernel, by decide +kernel⟩, ⟨by decide, by decide +kernel, by decide +kernel⟩, ?_, ?_⟩
  · exact candsOf_some (by decide +kernel)
  · exact candsOf_some (by decide +kernel)

end Genex.Props
