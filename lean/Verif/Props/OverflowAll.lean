import Verif.Lemmas.OverflowAll
import Verif.Props.Overflow

/-!
# C108: overflow, all metrics
-/

namespace Genex.Props

open Dbl Spec

section
variable {K : Type} [Field K] [LinearOrder K] [IsStrictOrderedRing K]

section
variable [HasSqrt K] (rd : K → K) (hr : Rounding rd) (X lo B : K) (hX : rd X = X) (hX1 : 1 ≤ X) (hB : 0 ≤ B) (hlo : -B ≤ lo)
include hr hX hX1 hB hlo

/-- C108: any of the distances of points in range, and the alignment returned with it, is what it is without a greatest number. -/
theorem C108_distances (f : DistRef) (hs : metricOf f = .euclidean ∨ metricOf f = .cosine → LawfulSqrt K) [BandOps] (ratio : ℚ) (hq : 0 ≤ ratio)
    (a b : List K) (ha : ∀ x ∈ a, lo ≤ x ∧ x ≤ B) (hb : ∀ x ∈ b, lo ≤ x ∧ x ≤ B) (hN : Room rd X lo B (a.length + b.length) (metricOf f))
    (d : Dbl K) :
    f.evalW (rndMax rd X) ratio (a.map fin) (b.map fin) d = f.evalR rd ratio (a.map fin) (b.map fin) d ∧
    f.matchingW (rndMax rd X) ratio (a.map fin) (b.map fin) = f.matchingR rd ratio (a.map fin) (b.map fin) := by
  have hm : ∀ (l : List K), (∀ x ∈ l, lo ≤ x ∧ x ≤ B) → ∀ x ∈ l.map fin, Between lo B x := by
    intro l hl x hx
    obtain ⟨y, hy, rfl⟩ := List.mem_map.1 hx
    exact ⟨y, rfl, hl y hy⟩
  exact evalRoom_eq hr hX hX1 hB hlo f hs hq (hm a ha) (hm b hb) (by simpa using hN) d

variable (L : ℕ) (m : Metric) (hs : m = .euclidean ∨ m = .cosine → LawfulSqrt K) (hN : Room rd X lo B (2 * L) m) [BandOps] (ratio : ℚ)
include hs hN

/-- C108: so are the groups made with any number of threads. -/
theorem C108_group (s : GSet K) (hd : DataAll (Between lo B) s.ds) (hl : DataSize L s.ds) (t : Dbl K) (whole : Bool) (log : ℕ → Bool)
    (numThreads : Int) (out : GSet K × Res Int) (N : Int) (hout : out.2 = .ok N) :
    (@GSet.GroupAll K _ _ (overflowArith (rndMax rd X)) ratio log (metricName m) t whole numThreads s out ↔
      @GSet.GroupAll K _ _ (roundedArith rd) ratio log (metricName m) t whole numThreads s out) ∧
    (@GSet.GroupAll K _ _ (overflowArith (rndMax rd X)) ratio log (metricName m) t whole numThreads s out →
      ∃ gs, out.1 = { s with groups := some gs } ∧ CentroidsAll (Between lo B) L gs ∧ ∀ w, gs.warped = some w → metricOf w = m) := by
  have hV := points_all hd hl
  have hA : ∀ p, getDistanceFromName (metricName m) = .ok p → Agree (overflowArith (rndMax rd X)) (roundedArith rd) ratio
      (fun pts => (∀ x ∈ pts, Between lo B x) ∧ pts.length ≤ L) p := by
    intro p hp
    rw [lookup_pairwise] at hp
    cases hp
    exact agree_roomPairwise hr hX hX1 hB hlo hs hN
  refine ⟨⟨fun h => (groupAll_congr hV hA h hout).1,
    fun h => (groupAll_congr hV (fun p hp a b d ha hb => (hA p hp a b d ha hb).symm) h hout).1⟩, fun h => ?_⟩
  obtain ⟨-, gs, h1, h2, h3, h4⟩ := groupAll_congr hV hA h hout
  obtain ⟨⟨ds', gs'⟩, res⟩ := out
  obtain ⟨ds, gs0⟩ := s
  dsimp only at h1 h2
  subst h1 h2
  refine ⟨gs, rfl, h3, fun w hw => ?_⟩
  rw [h4] at hw
  exact group_metric (overflowArith (rndMax rd X)) ds' m t whole log ratio hw

/-- C108: and so is what the searches return. -/
theorem C108_search (hq : 0 ≤ ratio) (q : List (Dbl K)) (hqB : ∀ x ∈ q, Between lo B x) (hqL : q.length ≤ L) :
    (∀ (ds : Dataset K) (A : Algos (Cand K)) (k : Int), DataAll (Between lo B) ds → DataSize L ds →
      @bruteForce K _ (overflowArith (rndMax rd X)) A ratio ds q k (metricName m) =
        @bruteForce K _ (roundedArith rd) A ratio ds q k (metricName m)) ∧
    ∀ (z : GSet K), DataAll (Between lo B) z.ds → DataSize L z.ds →
      (∀ gs, z.groups = some gs → CentroidsAll (Between lo B) L gs ∧ ∀ w, gs.warped = some w → metricOf w = m) →
      @GSet.getBestMatch K _ (overflowArith (rndMax rd X)) _ ratio z q = @GSet.getBestMatch K _ (roundedArith rd) _ ratio z q ∧
      ∀ (A : Algos (Cand K)) (A' : Algos (GIdx K)) (k h : Int),
        @GSet.getKBestMatches K _ (overflowArith (rndMax rd X)) A A' _ ratio z q k h =
          @GSet.getKBestMatches K _ (roundedArith rd) A A' _ ratio z q k h := by
  constructor
  · intro ds A k hd hl
    refine bruteForce_congr A (points_all hd hl) ⟨hqB, hqL⟩ (fun p hp => ?_) k
    rw [lookup_warped] at hp
    cases hp
    exact agree_room hr hX hX1 hB hlo hq (f := .warped m) hs hN
  · intro z hd hl hz
    unfold GSet.getBestMatch GSet.getKBestMatches
    cases hg : z.groups with
    | none => exact ⟨rfl, fun _ _ _ _ => rfl⟩
    | some gs =>
      obtain ⟨h1, h2⟩ := hz gs hg
      have hA : ∀ w, gs.warped = some w → Agree (overflowArith (rndMax rd X)) (roundedArith rd) ratio
          (fun pts => (∀ x ∈ pts, Between lo B x) ∧ pts.length ≤ L) w := by
        intro w hw
        have h3 := h2 w hw
        exact agree_room hr hX hX1 hB hlo hq (by rwa [h3]) (by rwa [h3])
      have hV := points_all hd hl
      refine ⟨best_congr hV (D := fun pts => (∀ x ∈ pts, Between lo B x) ∧ pts.length ≤ L) ⟨hqB, hqL⟩ h1 hA, fun A A' k h => ?_⟩
      simp only
      rw [kbest_congr A A' hV (D := fun pts => (∀ x ∈ pts, Between lo B x) ∧ pts.length ≤ L) ⟨hqB, hqL⟩ h1 hA]

end

/-! ### Data -/

/-- C108: a file whose values lie between `lo` and `B` gives a dataset whose numbers do. -/
theorem C108_load (parse : Text → Parsed K) (lo B : K) (hlo : lo ≤ 0) (hB : 0 ≤ B) (content path : Text) (maxNumRow : Int) (startCol : ℕ)
    (sep : List Char) (hasName : Bool)
    (h : ∀ l ∈ firstLines maxNumRow content, ∀ t ∈ (columns sep l).drop (valueCol startCol hasName), ∀ x, parse t = .val x → Between lo B x)
    (R W : ℕ) (hR : (firstLines 0 content).length ≤ R) (hW : ∀ l ∈ firstLines 0 content, (columns sep l).length ≤ W) (ds : Dataset K) :
    DataAll (Between lo B) (ds.loadData parse (some content) path maxNumRow startCol sep hasName).1 ∧
      DataSize (R * W) (ds.loadData parse (some content) path maxNumRow startCol sep hasName).1 :=
  have := load_all (P := Between lo B) ⟨0, rfl, hlo, hB⟩ h hR hW
  ⟨this.1, this.2.1⟩

/-- C108: after normalisation, all numbers lie between 0 and 1 if those outside the series do, as required for Sorensen's distance. -/
theorem C108_normalized (rd : K → K) (u θ : K) (hrd : FloatOps rd u θ) (hu : u ≤ 1 / 5) (h1 : rd 1 = 1) (ds : Dataset K) (rows : List (List K))
    (H : Holds ds (rows.map (·.map fin))) (hne : ∃ r ∈ rows, r ≠ []) (hfl : ∀ r ∈ rows, Floats rd r)
    (hpad : ∀ buf, ds.data = some buf → ∀ (c : ℕ) x, buf[c]? = some x →
      (∀ (i j : ℕ) r, rows[i]? = some r → j < r.length → (c : Int) ≠ i * ds.maxCol + j) → Between 0 1 x)
    (ds' : Dataset K) (mm : Dbl K × Dbl K) (e : ds.normalizeR rd = .ok (ds', mm)) : DataAll (Between 0 1) ds' := by
  obtain ⟨f, H', hf, -⟩ := C78_range_partial rd u θ hrd hu ds rows H hne hfl h1 ds' mm e
  have hmc : ds'.maxCol = ds.maxCol := by
    obtain ⟨r, hr, hr'⟩ := hne
    obtain ⟨x, hx⟩ := List.exists_mem_of_ne_nil r hr'
    obtain ⟨ds1, lo, hi, e', -, -, -, -, -, -, h⟩ := normalizeR_ok hrd.toRounding (hrd.sub_ne (by linarith)) H ⟨x, r, hr, hx⟩ hfl
    rw [e, Except.ok.injEq, Prod.mk.injEq] at e'
    rw [e'.1]
    exact h
  intro buf' hb x hx
  obtain ⟨c, hc⟩ := List.mem_iff_getElem?.1 hx
  have hread : ∀ (d : Dataset K) (b : List (Dbl K)), d.data = some b → ∀ (i : ℕ) y, b[i]? = some y ↔ d.read i = .ok y := by
    intro d b hd i y
    unfold Dataset.read
    rw [hd]
    simp only
    rw [if_neg (by omega)]
    simp only [Int.toNat_natCast]
    cases b[i]? <;> simp
  have h2 := (hread ds' buf' hb c x).1 hc
  by_cases hcell : (c : Int) ∈ cellList ds.maxCol (rows.map (·.map fin))
  · obtain ⟨i, j, r, y, hr, hy, ec⟩ := mem_cellList.1 hcell
    rw [List.getElem?_map, Option.map_eq_some_iff] at hr
    obtain ⟨r', hr', rfl⟩ := hr
    rw [List.getElem?_map, Option.map_eq_some_iff] at hy
    obtain ⟨y', hy', rfl⟩ := hy
    have := H'.cells i (r'.map (fun x => fin (f x))) (by rw [List.getElem?_map, hr']; rfl) j (fin (f y')) (by rw [List.getElem?_map, hy']; rfl)
    rw [hmc, ← ec, h2, Except.ok.injEq] at this
    have h3 := hf r' (List.mem_of_getElem? hr') y' (List.mem_of_getElem? hy')
    exact ⟨_, this, h3.1, h3.2.1⟩
  · rw [normalizeR_keeps H e hcell] at h2
    cases hd : ds.data with
    | none =>
      unfold Dataset.read at h2
      rw [hd] at h2
      cases h2
    | some buf =>
      refine hpad buf hd c x ((hread ds buf hd c x).2 h2) (fun i j r hr hj ec => hcell (mem_cellList.2 ?_))
      exact ⟨i, j, r.map fin, fin r[j], by rw [List.getElem?_map, hr]; rfl, by rw [List.getElem?_map, List.getElem?_eq_getElem hj]; rfl, ec⟩

/-! ### `double` -/

theorem sumOf_le_of_le {rd : K → K} (hr : Rounding rd) {c c' : K} (h : c ≤ c') : ∀ n, sumOf rd c n ≤ sumOf rd c' n
  | 0 => le_rfl
  | n + 1 => hr.mono _ _ (by have := sumOf_le_of_le hr h n; linarith)

variable [FloorRing K]

theorem smallest_double (x : K) (h : 0 < roundDouble x) : (1 : K) / 2 ^ 537 * (1 / 2 ^ 537) ≤ roundDouble x := by
  obtain ⟨k, hk⟩ := roundSub_multiple (p := 53) (by norm_num) (lo := -1074) (roundDouble_rounding.idem x)
  have h2 : (2 : K) ^ (-1074 : ℤ) = 1 / 2 ^ 537 * (1 / 2 ^ 537) := by
    rw [zpow_neg, ← zpow_natCast, div_mul_div_comm, one_mul, one_div, ← zpow_add₀ (by norm_num)]
    norm_num
  rw [h2] at hk
  have hp : (0 : K) < 1 / 2 ^ 537 * (1 / 2 ^ 537) := by positivity
  generalize (1 : K) / 2 ^ 537 * (1 / 2 ^ 537) = A at *
  rw [hk] at h ⊢
  have hk0 : 0 < (k : K) := by
    by_contra hle
    rw [_root_.not_lt] at hle
    nlinarith
  have hk1 : 1 ≤ k := by exact_mod_cast hk0
  have hk2 : (1 : K) ≤ k := by exact_mod_cast hk1
  nlinarith

theorem roundDouble_pow (k : ℕ) : roundDouble ((2 : K) ^ k) = 2 ^ k := by
  have := roundDouble_mul (K := K) 1 (by norm_num) k
  simpa using this

/-- C108: numbers up to `2 ^ 200` in size are in range for `double` with all five metrics; for Sorensen's distance if they are not
negative. -/
theorem C108_double (m : Metric) (lo : K) (hlo : m = .sorensen → 0 ≤ lo) (n : ℕ) (hn : n ≤ 2 ^ 53) :
    Room roundDouble (maxDouble : K) lo (2 ^ 200) n m := by
  have hr := roundDouble_rounding (K := K)
  have hBB : (2 : K) ^ 200 ≤ 2 ^ 480 := pow_le_pow_right₀ (by norm_num) (by norm_num)
  have h2 : roundDouble (2 * (2 : K) ^ 200) ≤ roundDouble (2 * 2 ^ 480) := hr.mono _ _ (mul_le_mul_of_nonneg_left hBB (by norm_num))
  have h20 : 0 ≤ roundDouble (2 * (2 : K) ^ 200) := hr.nonneg (by positivity)
  have hn' : (n : K) ≤ 2 ^ 53 := by exact_mod_cast hn
  cases m with
  | euclidean =>
    refine le_trans ?_ (C87_double .euclidean (by decide) n hn)
    exact sumOf_le_of_le hr (hr.mono _ _ (mul_self_le_mul_self h20 h2)) n
  | manhattan => exact (sumOf_le_of_le hr h2 n).trans (C87_double .manhattan (by decide) n hn)
  | chebyshev => exact h2.trans (C87_double .chebyshev (by decide) n hn)
  | cosine =>
    have e1 : roundDouble ((2 : K) ^ 200 * 2 ^ 200) = 2 ^ 400 := by rw [← pow_add]; exact roundDouble_pow 400
    have hS : (n : K) * 2 ^ 400 ≤ 2 ^ 453 := by
      have : (2 : K) ^ 453 = 2 ^ 53 * 2 ^ 400 := by rw [← pow_add]
      rw [this]
      exact mul_le_mul_of_nonneg_right hn' (by positivity)
    have hS0 : (0 : K) ≤ n * 2 ^ 400 := by positivity
    simp only [Room]
    rw [e1, sumOf_double _ _ hn]
    refine ⟨hS.trans (pow_le_max (by norm_num)), ?_, 1 / 2 ^ 537, by positivity, ?_, smallest_double, ?_⟩
    · have h3 := hr.mono _ _ (mul_self_le_mul_self hS0 hS)
      rw [← pow_add, roundDouble_pow] at h3
      exact h3.trans (pow_le_max (by norm_num))
    · have := roundSub_digits (K := K) (p := 53) (by norm_num) (lo := -1074) 1 (-537) (by norm_num) (by norm_num)
      simp only [Int.cast_one, one_mul] at this
      have e : (2 : K) ^ (-537 : ℤ) = 1 / 2 ^ 537 := by rw [zpow_neg, one_div]; norm_cast
      rw [e] at this
      exact this
    · have h3 : (n : K) * 2 ^ 400 / (1 / 2 ^ 537) ≤ 2 ^ 990 := by
        rw [div_div_eq_mul_div, div_one]
        have : (2 : K) ^ 990 = 2 ^ 453 * 2 ^ 537 := by rw [← pow_add]
        rw [this]
        exact mul_le_mul_of_nonneg_right hS (by positivity)
      have h4 := hr.mono _ _ h3
      rw [roundDouble_pow] at h4
      exact h4.trans (pow_le_max (by norm_num))
  | sorensen => exact ⟨hlo rfl, (sumOf_le_of_le hr h2 n).trans (C87_double .manhattan (by decide) n hn)⟩

end

/-! ### Witnesses -/

/-- C108: beyond that range the cosine of a series with itself is 0 instead of 1. -/
theorem C108_cosine_false :
    pairwiseDistance (cosineW overD) [fin (2 ^ 300), fin 0] [fin (2 ^ 300), fin 0] .inf = .ok (fin 0) ∧
    pairwiseDistance (cosineR roundDouble) [fin ((2 : ℚ) ^ 300), fin 0] [fin (2 ^ 300), fin 0] .inf = .ok (fin 1) := by decide +kernel

/-- C108: and Sorensen's distance of small numbers of both signs can be infinite. -/
theorem C108_sorensen_false :
    pairwiseDistance (sorensenW overD) [fin (2 ^ 100), fin (1 / 2 ^ 1000)] [fin (-2 ^ 100), fin 0] .inf = .ok .inf ∧
    pairwiseDistance (sorensenR roundDouble) [fin ((2 : ℚ) ^ 100), fin (1 / 2 ^ 1000)] [fin (-2 ^ 100), fin 0] .inf =
      .ok (fin (2 ^ 1101)) := by decide +kernel

/-! ### Examples -/

noncomputable section

example (f : DistRef) (d : Dbl ℝ) :=
  C108_distances (K := ℝ) roundDouble roundDouble_rounding maxDouble 0 (2 ^ 200) max_fixed one_le_max (by positivity) (by
    have : (0 : ℝ) ≤ 2 ^ 200 := by positivity
    linarith) f (fun _ => inferInstance) (1 / 10) (by norm_num) [2 ^ 200, 3, 5] [1, 0] (by
      intro x hx
      simp only [List.mem_cons, List.not_mem_nil, or_false] at hx
      have h3 : (2 : ℝ) ^ 3 ≤ 2 ^ 200 := pow_le_pow_right₀ (by norm_num) (by norm_num)
      rcases hx with rfl | rfl | rfl
      · exact ⟨by positivity, le_rfl⟩
      · exact ⟨by norm_num, le_trans (by norm_num) h3⟩
      · exact ⟨by norm_num, le_trans (by norm_num) h3⟩) (by
      intro x hx
      simp only [List.mem_cons, List.not_mem_nil, or_false] at hx
      rcases hx with rfl | rfl
      · exact ⟨by norm_num, one_le_pow₀ (by norm_num)⟩
      · exact ⟨by norm_num, by positivity⟩) (C108_double _ _ (fun _ => le_rfl) _ (by norm_num)) d

end

theorem exFour_between : DataAll (Between 0 (2 ^ 200)) (exFour [[7, 2, 3, 2 ^ 170], [4, 12, 0, 1]]) := by
  intro buf hb x hx
  cases hb
  have key : ∀ y ∈ [[(7 : ℚ), 2, 3, 2 ^ 170], [4, 12, 0, 1]].flatten, 0 ≤ y ∧ y ≤ 2 ^ 200 := by decide +kernel
  obtain ⟨y, hy, rfl⟩ := List.mem_map.1 hx
  exact ⟨y, rfl, key y hy⟩

example (q : List (Dbl ℚ)) (hq : ∀ x ∈ q, Between 0 (2 ^ 200) x) (hl : q.length ≤ 8) (k : Int) :
    @bruteForce ℚ _ (overflowArith overD) (refAlgos Cand.lt) (1 / 10) (exFour [[7, 2, 3, 2 ^ 170], [4, 12, 0, 1]]) q k "sorensen" =
      @bruteForce ℚ _ (roundedArith roundDouble) (refAlgos Cand.lt) (1 / 10) (exFour [[7, 2, 3, 2 ^ 170], [4, 12, 0, 1]]) q k "sorensen" :=
  (C108_search (K := ℚ) roundDouble roundDouble_rounding maxDouble 0 (2 ^ 200) max_fixed one_le_max (by positivity) (by norm_num) 8 .sorensen
    (fun h => by rcases h with h | h <;> cases h) (C108_double _ _ (fun _ => le_rfl) _ (by norm_num)) (1 / 10) (by norm_num) q hq hl).1 _ _ k
    exFour_between (by intro buf hb; cases hb; decide)

example (out : GSet ℚ × Res Int) (N : Int) (h : out.2 = .ok N) :=
  C108_group (K := ℚ) roundDouble roundDouble_rounding maxDouble 0 (2 ^ 200) max_fixed one_le_max (by positivity) (by norm_num) 8 .sorensen
    (fun h => by rcases h with h | h <;> cases h) (C108_double _ _ (fun _ => le_rfl) _ (by norm_num)) (1 / 10)
    ⟨exFour [[7, 2, 3, 2 ^ 170], [4, 12, 0, 1]], none⟩ exFour_between (by intro buf hb; cases hb; decide) (fin 1) false (fun _ => false) 3 out N h

example (ds' : Dataset ℚ) (mm : Dbl ℚ × Dbl ℚ) (e : exData.normalizeR roundDouble = .ok (ds', mm)) : DataAll (Between 0 1) ds' := by
  refine C108_normalized (K := ℚ) roundDouble _ _ roundDouble_ops (by norm_num) roundDouble_one exData [[7, 2, 3], [4, 12]] exData_holds
    ⟨[7, 2, 3], by simp, by simp⟩ (by decide +kernel) ?_ ds' mm e
  intro buf hb c x hx hcell
  have hbuf : exData.data = some ([7, 2, 3, 4, 12, 0, 0, 0].map fin) := by decide +kernel
  have hmc : exData.maxCol = 3 := by decide +kernel
  rw [hbuf] at hb
  cases hb
  rw [hmc] at hcell
  have h0 := hcell 0 0 _ rfl (by decide)
  have h1 := hcell 0 1 _ rfl (by decide)
  have h2 := hcell 0 2 _ rfl (by decide)
  have h3 := hcell 1 0 _ rfl (by decide)
  have h4 := hcell 1 1 _ rfl (by decide)
  have hx' : x = fin 0 := by
    match c, hx with
    | 0, _ => exact absurd rfl h0
    | 1, _ => exact absurd rfl h1
    | 2, _ => exact absurd rfl h2
    | 3, _ => exact absurd rfl h3
    | 4, _ => exact absurd rfl h4
    | 5, hx => cases hx; rfl
    | 6, hx => cases hx; rfl
    | 7, hx => cases hx; rfl
    | n + 8, hx => cases hx
  exact ⟨0, hx', le_rfl, by norm_num⟩

end Genex.Props
