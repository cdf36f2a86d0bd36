import Verif.Lemmas.OverflowSet
import Verif.Lemmas.Float
import Verif.Props.BruteForce
import Verif.Props.RoundedData

/-!
# C87: overflow
-/

namespace Genex.Props

open Dbl Spec

section
variable {K : Type} [Field K] [LinearOrder K] [IsStrictOrderedRing K]

/-- C87: the code with overflow is the code of C72-C79 as long as only the rounding is applied. -/
theorem C87_same_code [HasSqrt K] (rd : K → K) :
    (∀ (f : DistRef) (ratio : ℚ) a b d, f.evalW (rnd rd) ratio a b d = f.evalR rd ratio a b d) ∧
    (∀ ds : Dataset K, ds.normalizeW (rnd rd) = ds.normalizeR rd) ∧
    ∀ (x : List (Dbl K)) b, tsPAAW (rnd rd) x b = tsPAAR rd x b := by
  have hm : ∀ m : Metric, (m.dmW (rnd rd) : DM K) = m.dmR rd := by intro m; cases m <;> rfl
  have hl : ∀ (lo up : OutArr K) b t is s, keoghLoopW (rnd rd) lo up b t is s = keoghLoopR rd lo up b t is s := by
    intro lo up b t is
    induction is with
    | nil => intro s; rfl
    | cons i is ih => intro s; unfold keoghLoopW keoghLoopR; simp only [ih]; rfl
  have hk : ∀ (ratio : ℚ) a b d, keoghLowerBoundW (rnd rd) ratio a b d = keoghLowerBoundR rd ratio a b d := by
    intro ratio a b d
    unfold keoghLowerBoundW keoghLowerBoundR
    simp only [hl]
    rfl
  have hp : ∀ (b : Int) n xs i s c dest, paaLoopW (rnd rd) b n xs i s c dest = paaLoopR rd b n xs i s c dest := by
    intro b n xs
    induction xs with
    | nil => intros; rfl
    | cons x xs ih => intros; unfold paaLoopW paaLoopR; simp only [ih]
  refine ⟨?_, fun _ => rfl, ?_⟩
  · intro f ratio a b d
    cases f with
    | pairwise m => simp only [DistRef.evalW, DistRef.evalR, hm]
    | warped m => simp only [DistRef.evalW, DistRef.evalR, hm]
    | cascade =>
      simp only [DistRef.evalW, DistRef.evalR, cascadeDistanceW, cascadeDistanceR, crossKeoghLowerBoundW, crossKeoghLowerBoundR, hk]
      rfl
  · intro x b
    unfold tsPAAW tsPAAR
    simp only [hp]

/-- After grouping, the warped distance is one of the metric grouped with. -/
theorem group_metric [HasSqrt K] (A : Arith K) (ds : Dataset K) (m : Metric) (t : Dbl K) (whole : Bool) (log : ℕ → Bool) (ratio : ℚ) {w : DistRef}
    (hw : (@GSpace.group K _ _ A ds ratio log (metricName m) t whole GSpace.fresh).1.warped = some w) : metricOf w = m := by
  unfold GSpace.group at hw
  simp only at hw
  have hload : ∀ g : GSpace K, g.warped = none → ∀ w, (g.loadDistance (metricName m)).1.warped = some w → metricOf w = m := by
    intro g hg w hw
    unfold GSpace.loadDistance at hw
    simp only [lookup_pairwise, lookup_warped] at hw
    split at hw
    · rename_i h
      cases hw
      cases m <;> first | rfl | (exfalso; revert h; decide)
    · cases hw
      rfl
  have hprep : ∀ w, ((GSpace.fresh : GSpace K).prepare ds (metricName m) t whole).1.warped = some w → metricOf w = m := by
    intro w hw
    unfold GSpace.prepare at hw
    simp only at hw
    refine hload { (GSpace.fresh : GSpace K) with spaces := [] } rfl w ?_
    split at hw
    · exact hw
    · split at hw
      · exact hw
      · split at hw <;> exact hw
  cases hp : ((GSpace.fresh : GSpace K).prepare ds (metricName m) t whole).2 with
  | error e =>
    rw [hp] at hw
    exact hprep w hw
  | ok p =>
    rw [hp] at hw
    simp only at hw
    rw [groupLoop_warped] at hw
    exact hprep w hw

section
variable [HasSqrt K] (rd : K → K) (hr : Rounding rd) (X B : K) (hX : rd X = X) (hX1 : 1 ≤ X)
include hr hX hX1

/-- C87: distances of points in range do not overflow: what is computed, value or exception, is what is computed without a greatest
number. -/
theorem C87_distances_partial (f : DistRef) (hs : metricOf f = .euclidean → LawfulSqrt K) [BandOps] (ratio : ℚ) (hq : 0 ≤ ratio) (a b : List K)
    (ha : ∀ x ∈ a, |x| ≤ B) (hb : ∀ x ∈ b, |x| ≤ B) (hN : NoOverflow rd X B (a.length + b.length) (metricOf f)) (d : Dbl K) :
    f.evalW (rndMax rd X) ratio (a.map fin) (b.map fin) d = f.evalR rd ratio (a.map fin) (b.map fin) d :=
  evalW_eq hr hX hX1 f hs hq (map_below ha) (map_below hb) (by simpa using hN) d

/-- C87: nor do they change the alignment returned. -/
theorem C87_matching_partial (f : DistRef) (hs : metricOf f = .euclidean → LawfulSqrt K) [BandOps] (ratio : ℚ) (hq : 0 ≤ ratio) (a b : List K)
    (ha : ∀ x ∈ a, |x| ≤ B) (hb : ∀ x ∈ b, |x| ≤ B) (hN : NoOverflow rd X B (a.length + b.length) (metricOf f)) :
    f.matchingW (rndMax rd X) ratio (a.map fin) (b.map fin) = f.matchingR rd ratio (a.map fin) (b.map fin) ∧
    ∀ (d : Dbl K) (q : List (ℕ × ℕ)), warpedDistance ((metricOf f).dmW (rndMax rd X)) ratio (a.map fin) (b.map fin) d q =
      warpedDistance ((metricOf f).dmR rd) ratio (a.map fin) (b.map fin) d q := by
  have hw := warpedW_eq hr hX hX1 hs ratio (map_below ha) (map_below hb) (by simpa using hN)
  refine ⟨?_, hw⟩
  cases f with
  | pairwise m =>
    simp only [DistRef.matchingW, DistRef.matchingR]
    rw [pairwiseW_eq hr hX hX1 (m := m) hs (map_below ha) (map_below hb) (by simpa [metricOf] using hN)]
  | warped m =>
    simp only [DistRef.matchingW, DistRef.matchingR]
    simp only [metricOf] at hw
    rw [hw]
  | cascade =>
    have := hs rfl
    simp only [DistRef.matchingW, DistRef.matchingR]
    rw [cascadeW_eq hr hX hX1 hq (map_below ha) (map_below hb) (by simpa [metricOf] using hN)]

variable (hB : 0 ≤ B) (L : ℕ) (m : Metric) (hs : m = .euclidean → LawfulSqrt K) (hN : NoOverflow rd X B (2 * L) m) [BandOps] (ratio : ℚ)
  (hq : 0 ≤ ratio)
include hB hs hN hq

theorem agrees {f : DistRef} (hf : metricOf f = m) :
    Agree (overflowArith (rndMax rd X)) (roundedArith rd) ratio (fun pts => (∀ x ∈ pts, Below B x) ∧ pts.length ≤ L) f := by
  subst hf
  exact agree_overflow hr hB hX hX1 hq hs hN

omit hq in
/-- C87: nor do those computed for grouping, whatever the number of threads: the groups are those that would be made without a greatest
number. -/
theorem C87_group_partial (s : GSet K) (hd : DataBelow B s.ds) (hl : DataSize L s.ds) (t : Dbl K) (whole : Bool) (log : ℕ → Bool)
    (numThreads : Int) (out : GSet K × Res Int) (N : Int) (hout : out.2 = .ok N) :
    (@GSet.GroupAll K _ _ (overflowArith (rndMax rd X)) ratio log (metricName m) t whole numThreads s out ↔
      @GSet.GroupAll K _ _ (roundedArith rd) ratio log (metricName m) t whole numThreads s out) ∧
    (@GSet.GroupAll K _ _ (overflowArith (rndMax rd X)) ratio log (metricName m) t whole numThreads s out →
      ∃ gs, out.1 = { s with groups := some gs } ∧ CentroidsBelow B L gs ∧ ∀ w, gs.warped = some w → metricOf w = m) := by
  have hV := points_below hd hl
  have hA : ∀ p, getDistanceFromName (metricName m) = .ok p → Agree (overflowArith (rndMax rd X)) (roundedArith rd) ratio
      (fun pts => (∀ x ∈ pts, Below B x) ∧ pts.length ≤ L) p := by
    intro p hp
    rw [lookup_pairwise] at hp
    cases hp
    exact agree_pairwise hr hB hX hX1 hs hN
  refine ⟨⟨fun h => (groupAll_congr hV hA h hout).1,
    fun h => (groupAll_congr hV (fun p hp a b d ha hb => (hA p hp a b d ha hb).symm) h hout).1⟩, fun h => ?_⟩
  obtain ⟨-, gs, h1, h2, h3, h4⟩ := groupAll_congr hV hA h hout
  obtain ⟨⟨ds', gs'⟩, res⟩ := out
  obtain ⟨ds, gs0⟩ := s
  dsimp only at h1 h2
  subst h1 h2
  refine ⟨gs, rfl, h3, fun w hw => ?_⟩
  exact group_metric _ ds' m t whole log ratio (by rw [h4] at hw; exact hw)

/-- C87: the exhaustive search and both searches in groups, made by any of the ways to group or read from a file, return what they would
return without a greatest number. -/
theorem C87_search_partial (q : List (Dbl K)) (hqB : ∀ x ∈ q, Below B x) (hqL : q.length ≤ L) :
    (∀ (ds : Dataset K) (A : Algos (Cand K)) (k : Int), DataBelow B ds → DataSize L ds →
      @bruteForce K _ (overflowArith (rndMax rd X)) A ratio ds q k (metricName m) =
        @bruteForce K _ (roundedArith rd) A ratio ds q k (metricName m)) ∧
    ∀ (z : GSet K), DataBelow B z.ds → DataSize L z.ds →
      (∀ gs, z.groups = some gs → CentroidsBelow B L gs ∧ ∀ w, gs.warped = some w → metricOf w = m) →
      @GSet.getBestMatch K _ (overflowArith (rndMax rd X)) _ ratio z q = @GSet.getBestMatch K _ (roundedArith rd) _ ratio z q ∧
      ∀ (A : Algos (Cand K)) (A' : Algos (GIdx K)) (k h : Int),
        @GSet.getKBestMatches K _ (overflowArith (rndMax rd X)) A A' _ ratio z q k h =
          @GSet.getKBestMatches K _ (roundedArith rd) A A' _ ratio z q k h := by
  constructor
  · intro ds A k hd hl
    refine bruteForce_congr A (points_below hd hl) ⟨hqB, hqL⟩ (fun p hp => ?_) k
    rw [lookup_warped] at hp
    cases hp
    exact agrees rd hr X B hX hX1 hB L m hs hN ratio hq rfl
  · intro z hd hl hz
    unfold GSet.getBestMatch GSet.getKBestMatches
    cases hg : z.groups with
    | none => exact ⟨rfl, fun _ _ _ _ => rfl⟩
    | some gs =>
      obtain ⟨h1, h2⟩ := hz gs hg
      have hA : ∀ w, gs.warped = some w → Agree (overflowArith (rndMax rd X)) (roundedArith rd) ratio
          (fun pts => (∀ x ∈ pts, Below B x) ∧ pts.length ≤ L) w :=
        fun w hw => agrees rd hr X B hX hX1 hB L m hs hN ratio hq (h2 w hw)
      have hV := points_below hd hl
      refine ⟨best_congr hV (D := fun pts => (∀ x ∈ pts, Below B x) ∧ pts.length ≤ L) ⟨hqB, hqL⟩ h1 hA, fun A A' k h => ?_⟩
      simp only
      rw [kbest_congr A A' hV (D := fun pts => (∀ x ∈ pts, Below B x) ∧ pts.length ≤ L) ⟨hqB, hqL⟩ h1 hA]

end

/-! ### Data -/

/-- C87: a file whose values are in range gives a dataset in range, not larger than the file. -/
theorem C87_load (parse : Text → Parsed K) (B : K) (hB : 0 ≤ B) (content path : Text) (maxNumRow : Int) (startCol : ℕ) (sep : List Char)
    (hasName : Bool)
    (h : ∀ l ∈ firstLines maxNumRow content, ∀ t ∈ (columns sep l).drop (valueCol startCol hasName), ∀ x, parse t = .val x → Below B x)
    (R W : ℕ) (hR : (firstLines 0 content).length ≤ R) (hW : ∀ l ∈ firstLines 0 content, (columns sep l).length ≤ W) (ds : Dataset K) :
    DataBelow B (ds.loadData parse (some content) path maxNumRow startCol sep hasName).1 ∧
      DataSize (R * W) (ds.loadData parse (some content) path maxNumRow startCol sep hasName).1 :=
  have := load_below hB h hR hW
  ⟨this.1, this.2.1⟩

variable (rd : K → K) (hr : Rounding rd) (X : K) (hX : rd X = X)
include hr hX

/-- C87: normalising data whose differences do not overflow does not overflow, and leaves data in range there. -/
theorem C87_normalize_partial (hX1 : 1 ≤ X) (h1 : rd 1 = 1) (ds : Dataset K) (rows : List (List K)) (H : Holds ds (rows.map (·.map fin)))
    (hR : ∀ r ∈ rows, ∀ x ∈ r, ∀ r' ∈ rows, ∀ y ∈ r', |rd (x - y)| ≤ X) :
    ds.normalizeW (rndMax rd X) = ds.normalizeR rd ∧
      ∀ ds' mm B L, ds.normalizeR rd = .ok (ds', mm) → 1 ≤ B → DataBelow B ds → DataSize L ds → DataBelow B ds' ∧ DataSize L ds' :=
  ⟨normalizeW_eq hr hX hX1 H hR, fun _ _ _ _ e hB hd hl => normalizeR_below hr h1 hB H hd hl e⟩

/-- C87: nor do the means of blocks whose sums do not. -/
theorem C87_paa_partial (B : K) (hB : 0 ≤ B) (b : ℕ) (hN : sumOf rd B b ≤ X) (x : List K) (hx : ∀ y ∈ x, |y| ≤ B) :
    tsPAAW (rndMax rd X) (x.map fin) b = tsPAAR rd (x.map fin) b := tsPAAW_eq hr hX hB b hN x hx

end

/-! ### `double` -/

section
variable {K : Type} [Field K] [LinearOrder K] [IsStrictOrderedRing K] [FloorRing K]

theorem roundDouble_mul (z : ℕ) (hz : z ≤ 2 ^ 53) (k : ℕ) : roundDouble ((z : K) * 2 ^ k) = z * 2 ^ k := by
  have := roundSub_digits (K := K) (p := 53) (by norm_num) (lo := -1074) (z : ℤ) (k : ℤ) (by
    rw [abs_of_nonneg (by positivity)]
    exact_mod_cast hz) (by omega)
  simpa [roundDouble] using this

theorem sumOf_double (k n : ℕ) (hn : n ≤ 2 ^ 53) : sumOf roundDouble ((2 : K) ^ k) n = n * 2 ^ k := by
  induction n with
  | zero => simp [sumOf]
  | succ n ih =>
    rw [sumOf, ih (by omega), ← roundDouble_mul (n + 1) hn k]
    congr 1
    push_cast
    ring

theorem pow_le_max {k : ℕ} (hk : k ≤ 1023) : (2 : K) ^ k ≤ maxDouble := by
  have h1 : (2 : K) ^ k ≤ 2 ^ 1023 := pow_le_pow_right₀ (by norm_num) hk
  have h2 : (2 : K) ^ 1023 = 2 ^ 52 * 2 ^ 971 := by rw [← pow_add]
  have h3 : (2 : K) ^ 52 ≤ 2 ^ 53 - 1 := by norm_num
  unfold maxDouble
  rw [h2] at h1
  exact h1.trans (mul_le_mul_of_nonneg_right h3 (by positivity))

theorem max_fixed : roundDouble (maxDouble : K) = maxDouble := by
  have := roundDouble_mul (K := K) (2 ^ 53 - 1) (by norm_num) 971
  unfold maxDouble
  have e : ((2 ^ 53 - 1 : ℕ) : K) = 2 ^ 53 - 1 := by norm_num
  rwa [e] at this

theorem one_le_max : (1 : K) ≤ maxDouble := by
  have := pow_le_max (K := K) (k := 0) (by norm_num)
  simpa using this

/-- C87: numbers up to `2 ^ 480` in size are in range for `double`, in any series and dataset that a computer can hold. -/
theorem C87_double (m : Metric) (hm : m ≠ .sorensen ∧ m ≠ .cosine) (n : ℕ) (hn : n ≤ 2 ^ 53) :
    NoOverflow roundDouble (maxDouble : K) (2 ^ 480) n m := by
  have h1 : roundDouble (2 * (2 : K) ^ 480) = 2 ^ 481 := by
    have := roundDouble_mul (K := K) 1 (by norm_num) 481
    simp only [Nat.cast_one, one_mul] at this
    rw [← this]
    congr 1
    rw [← pow_succ']
  have h2 : roundDouble ((2 : K) ^ 481 * 2 ^ 481) = 2 ^ 962 := by
    have := roundDouble_mul (K := K) 1 (by norm_num) 962
    simp only [Nat.cast_one, one_mul] at this
    rw [← this]
    congr 1
    rw [← pow_add]
  have h3 : ∀ k : ℕ, k ≤ 962 → (n : K) * 2 ^ k ≤ maxDouble := by
    intro k hk
    have h4 : (n : K) ≤ 2 ^ 53 := by exact_mod_cast hn
    refine (mul_le_mul_of_nonneg_right h4 (by positivity)).trans ?_
    rw [← pow_add]
    exact pow_le_max (by omega)
  cases m with
  | euclidean =>
    simp only [NoOverflow, h1, h2]
    rw [sumOf_double _ _ hn]
    exact h3 _ le_rfl
  | manhattan =>
    simp only [NoOverflow, h1]
    rw [sumOf_double _ _ hn]
    exact h3 _ (by norm_num)
  | chebyshev =>
    simp only [NoOverflow, h1]
    exact pow_le_max (by norm_num)
  | cosine => exact (hm.2 rfl).elim
  | sorensen => exact (hm.1 rfl).elim

end

/-! ### Witnesses -/

/-- Results in `double`, with overflow. -/
abbrev overD : Dbl ℚ → Dbl ℚ := rndMax roundDouble maxDouble

/-- A dataset of series of four points. -/
def exFour (rows : List (List ℚ)) : Dataset ℚ :=
  { data := some (rows.flatten.map fin), names := [], lengths := rows.map (fun r => (r.length : Int)), itemCount := rows.length,
    maxCol := 4, filePath := [], normalized := false }

/-- C87: a distance of finite numbers that is a finite number, infinite when computed. -/
theorem C87_infinite_false :
    pairwiseDistance (euclideanW overD) [fin (2 ^ 512), fin 0, fin 0, fin 0] [fin 0, fin 0, fin 0, fin 0] .inf = .ok .inf ∧
    pairwiseDistance (euclideanR roundDouble) [fin ((2 : ℚ) ^ 512), fin 0, fin 0, fin 0] [fin 0, fin 0, fin 0, fin 0] .inf =
      .ok (fin (2 ^ 511)) := by decide +kernel

/-- C87: where every cell on the way overflows, the cell with no way to it is taken for a start, and the DTW distance of two series far
apart is 0. -/
theorem C87_zero_false :
    warpedValue (euclideanW overD) (1 / 10) [fin (2 ^ 600), fin 0, fin 0, fin 0] [fin 0, fin 0, fin 0, fin 0] .inf = .ok (fin 0) ∧
    warpedValue (euclideanR roundDouble) (1 / 10) [fin ((2 : ℚ) ^ 600), fin 0, fin 0, fin 0] [fin 0, fin 0, fin 0, fin 0] .inf =
      .ok (fin (2 ^ 597)) := by decide +kernel

/-- C87: so the exhaustive search returns the series that is farther away. -/
theorem C87_search_false :
    (@bruteForce ℚ _ (overflowArith overD) (refAlgos Cand.lt) (1 / 10) (exFour [[maxDouble, maxDouble, 1, 1], [2, 2, 2, 2]])
      [fin 0, fin 0, fin 0, fin 0] 1 "manhattan") = .ok [⟨⟨0, 0, 0, 4⟩, fin (1 / 4)⟩] ∧
    (@bruteForce ℚ _ (roundedArith roundDouble) (refAlgos Cand.lt) (1 / 10) (exFour [[maxDouble, maxDouble, 1, 1], [2, 2, 2, 2]])
      [fin 0, fin 0, fin 0, fin 0] 1 "manhattan") = .ok [⟨⟨4, 1, 0, 4⟩, fin 1⟩] := by decide +kernel

/-- C87: normalising finite numbers gives NaN for the greatest and 0 for all others. -/
theorem C87_normalize_false :
    ((exFour [[-maxDouble, -1, 1, maxDouble]]).normalizeW overD).map (fun p => p.1.data) =
      .ok (some [fin 0, fin 0, fin 0, .nan]) := by decide +kernel

/-- C87: the mean of two equal numbers is infinite. -/
theorem C87_paa_false : tsPAAW overD [fin maxDouble, fin maxDouble] 2 = .ok [.inf] := by decide +kernel

/-! ### Examples -/

noncomputable section

example (f : DistRef) (hm : metricOf f ≠ .sorensen ∧ metricOf f ≠ .cosine) (d : Dbl ℝ) :=
  C87_distances_partial (K := ℝ) roundDouble roundDouble_rounding maxDouble (2 ^ 480) max_fixed one_le_max f (fun _ => inferInstance) (1 / 10)
    (by norm_num) [2 ^ 479, 3, 5] [1, -(2 ^ 480)] (by
      have : (2 : ℝ) ^ 479 ≤ 2 ^ 480 := pow_le_pow_right₀ (by norm_num) (by norm_num)
      have h3 : (3 : ℝ) ≤ 2 ^ 480 := le_trans (by norm_num : (3 : ℝ) ≤ 2 ^ 3) (pow_le_pow_right₀ (by norm_num) (by norm_num))
      have h5 : (5 : ℝ) ≤ 2 ^ 480 := le_trans (by norm_num : (5 : ℝ) ≤ 2 ^ 3) (pow_le_pow_right₀ (by norm_num) (by norm_num))
      intro x hx
      simp only [List.mem_cons, List.not_mem_nil, or_false] at hx
      rcases hx with rfl | rfl | rfl
      · rwa [abs_of_nonneg (by positivity)]
      · rwa [abs_of_nonneg (by positivity)]
      · rwa [abs_of_nonneg (by positivity)]) (by
      have h1 : (1 : ℝ) ≤ 2 ^ 480 := one_le_pow₀ (by norm_num)
      intro x hx
      simp only [List.mem_cons, List.not_mem_nil, or_false] at hx
      rcases hx with rfl | rfl
      · rwa [abs_one]
      · rw [abs_neg, abs_of_nonneg (by positivity)]) (C87_double _ hm _ (by norm_num)) d

end

example := C87_matching_partial (K := ℚ) roundDouble roundDouble_rounding maxDouble 9 max_fixed one_le_max (.warped .manhattan)
  (fun h => by cases h) (1 / 2) (by norm_num) [1, 5, 9] [2, 4] (by decide +kernel) (by decide +kernel)
  (by unfold NoOverflow metricOf; decide +kernel)

example : DataBelow 99 (Dataset.fresh.loadData exParse (some exFile2) [] 0 0 [' ', ','] true).1 := by
  refine (C87_load exParse 99 (by norm_num) exFile2 [] 0 0 [' ', ','] true ?_ 3 4 (by decide) (by decide) _).1
  have key : ∀ l ∈ firstLines 0 exFile2, ∀ t ∈ (columns [' ', ','] l).drop 1, t.foldl (fun (n : ℕ) c => 10 * n + (c.toNat - 48)) 0 ≤ 99 := by
    decide +kernel
  intro l hl t ht x hx
  have h := key l hl t ht
  unfold exParse at hx
  split at hx
  · cases hx
  · split at hx
    · cases hx
      exact ⟨_, rfl, by rw [abs_of_nonneg (by positivity)]; exact_mod_cast h⟩
    · cases hx

theorem exFour_below : DataBelow (2 ^ 480) (exFour [[7, 2, 3, 2 ^ 470], [4, 12, 0, 1]]) := by
  intro buf hb x hx
  cases hb
  have key : ∀ y ∈ [[(7 : ℚ), 2, 3, 2 ^ 470], [4, 12, 0, 1]].flatten, |y| ≤ 2 ^ 480 := by decide +kernel
  obtain ⟨y, hy, rfl⟩ := List.mem_map.1 hx
  exact ⟨y, rfl, key y hy⟩

example (q : List (Dbl ℚ)) (hq : ∀ x ∈ q, Below (2 ^ 480) x) (hl : q.length ≤ 8) (k : Int) :
    @bruteForce ℚ _ (overflowArith overD) (refAlgos Cand.lt) (1 / 10) (exFour [[7, 2, 3, 2 ^ 470], [4, 12, 0, 1]]) q k "manhattan" =
      @bruteForce ℚ _ (roundedArith roundDouble) (refAlgos Cand.lt) (1 / 10) (exFour [[7, 2, 3, 2 ^ 470], [4, 12, 0, 1]]) q k "manhattan" :=
  (C87_search_partial (K := ℚ) roundDouble roundDouble_rounding maxDouble (2 ^ 480) max_fixed one_le_max (by positivity) 8 .manhattan
    (fun h => by cases h) (C87_double _ (by decide) _ (by norm_num)) (1 / 10) (by norm_num) q hq hl).1 _ _ k exFour_below
    (by intro buf hb; cases hb; decide)

example (out : GSet ℚ × Res Int) (N : Int) (h : out.2 = .ok N) :=
  C87_group_partial (K := ℚ) roundDouble roundDouble_rounding maxDouble (2 ^ 480) max_fixed one_le_max (by positivity) 8 .chebyshev
    (fun h => by cases h) (C87_double _ (by decide) _ (by norm_num)) (1 / 10)
    ⟨exFour [[7, 2, 3, 2 ^ 470], [4, 12, 0, 1]], none⟩ exFour_below (by intro buf hb; cases hb; decide) (fin 1) false (fun _ => false) 3 out N h

example := C87_normalize_partial (K := ℚ) roundDouble roundDouble_rounding maxDouble max_fixed one_le_max roundDouble_one exData
  [[7, 2, 3], [4, 12]] exData_holds (by decide +kernel)

example := C87_paa_partial (K := ℚ) roundDouble roundDouble_rounding maxDouble max_fixed 9 (by norm_num) 2 (by decide +kernel) [1, 3, 4, 6, 9]
  (by decide +kernel)

end Genex.Props
