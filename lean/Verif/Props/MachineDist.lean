import Verif.Lemmas.MachineArith
import Verif.Props.MachineSearch
import Verif.Props.Overflow
import Verif.Props.RoundedSearch

/-!
# C93: `int` of 32 bits inside the distances

The cost matrix, the envelopes and the lower bounds, and then grouping and searching with all integers, those of C91 and C92 and
these, of 32 bits.  `r` is the rounding of the values, with or without overflow (C87).
-/

set_option linter.unusedSectionVars false

namespace Genex.Props

open Dbl Spec

variable {K : Type} [Field K] [LinearOrder K] [IsStrictOrderedRing K] [HasSqrt K] (r : Dbl K → Dbl K)

/-! ## Distances -/

/-- C93: distances of series shorter than the limit of the distance, 2 ^ 30 points for warped distances and a third of 2 ^ 31 for the
cascade, have the value, the exception and the alignment of the unbounded model. -/
theorem C93_distance [BandOps] (ratio : ℚ) (hr : 0 ≤ ratio) (N : ℕ) (hb : ⌊BandOps.mul ratio N⌋ < 2 ^ 31) (f : DistRef)
    (hN : N < lengthLimit f) (a b : List (Dbl K)) (ha : a.length ≤ N) (hb' : b.length ≤ N) :
    (∀ d, f.evalI r ratio a b d = f.evalW r ratio a b d) ∧ f.matchingI r ratio a b = f.matchingW r ratio a b :=
  ⟨fun d => evalI_eq hr hb r f hN ha hb' d, matchingI_eq hr hb r f hN ha hb'⟩

/-- C93, envelope: up to a third of 2 ^ 31 points, for any band. -/
theorem C93_envelope (t : List (Dbl K)) (w : Int) (hw : t.length = 0 ∨ 0 ≤ w) (hw' : -2 ^ 29 ≤ w) (hl : 3 * t.length < 2 ^ 31 - 1) :
    keoghLUI t w = keoghLU t w := keoghLUI_eq t hw hw' hl

/-- C93 is false of series of 2 ^ 30 points and more: twice their length, the divisor of the Euclidean and the Manhattan distance,
is not an `int`, whatever the points. -/
theorem C93_long [BandOps] (ratio : ℚ) (hr : 0 ≤ ratio) (f : DistRef) (hf : f = .warped .euclidean ∨ f = .warped .manhattan ∨ f = .cascade)
    (a b : List (Dbl K)) (ha : a ≠ []) (hb : b ≠ []) (hlong : 2 ^ 30 ≤ max a.length b.length) (d : Dbl K)
    (hband : ⌊BandOps.mul ratio (max a.length b.length : ℕ)⌋ < 2 ^ 31) :
    f.evalI r ratio a b d = .error (.ub "int overflow") := by
  have ha' := List.length_pos_iff.2 ha
  have hb' := List.length_pos_iff.2 hb
  obtain ⟨e, -, -, -⟩ := bandInt_le hr hband (h := max a.length b.length) le_rfl
  have hlen : ints [2 * ((max a.length b.length : ℕ) : Int)] = .error (.ub "int overflow") :=
    ints_over (z := 2 * ((max a.length b.length : ℕ) : Int)) (by simp) (by omega)
  have hw : ∀ (M : DM K) (len : Res Unit), len = .error (.ub "int overflow") →
      warpedDistanceI M len ratio a b d [] = .error (.ub "int overflow") := by
    intro M len h
    unfold warpedDistanceI
    simp only [e, bind, Except.bind]
    rw [if_neg (by omega), if_neg (by omega), h]
    rfl
  rcases hf with rfl | rfl | rfl
  · show Except.map Prod.fst (warpedDistanceI _ (ints [2 * ((max a.length b.length : ℕ) : Int)]) ratio a b d []) = _
    rw [hw _ _ hlen]; rfl
  · show Except.map Prod.fst (warpedDistanceI _ (ints [2 * ((max a.length b.length : ℕ) : Int)]) ratio a b d []) = _
    rw [hw _ _ hlen]; rfl
  · have hk : kimLowerBoundI r a b = .error (.ub "int overflow") := by
      unfold kimLowerBoundI Metric.lenI
      simp only
      rw [hlen]; rfl
    show Except.map Prod.fst (cascadeDistanceI r ratio a b d []) = _
    unfold cascadeDistanceI
    rw [hk]; rfl

/-- Such series have a distance where integers are unbounded. -/
theorem C93_long_false : ∃ a b : List ℚ, a ≠ [] ∧ b ≠ [] ∧
    (∃ v, (DistRef.warped .manhattan).evalW (rnd id) 0 (a.map fin) (b.map fin) .inf = .ok (fin v)) ∧
    (DistRef.warped .manhattan).evalI (rnd id) 0 (a.map fin) (b.map fin) .inf = .error (.ub "int overflow") := by
  have key : ∀ n : ℕ, 2 ^ 30 ≤ n → ∃ a b : List ℚ, a ≠ [] ∧ b ≠ [] ∧
      (∃ v, (DistRef.warped .manhattan).evalW (rnd id) 0 (a.map fin) (b.map fin) .inf = .ok (fin v)) ∧
      (DistRef.warped .manhattan).evalI (rnd id) 0 (a.map fin) (b.map fin) .inf = .error (.ub "int overflow") := by
    intro n hn
    have h2 : 2 ≤ n := le_trans (by norm_num) hn
    have hne : List.replicate n (0 : ℚ) ≠ [] := by simp; omega
    refine ⟨List.replicate n 0, List.replicate n 0, hne, hne, ?_, ?_⟩
    · obtain ⟨F, h3, -, -, h4⟩ := warpedR_ok (K := ℚ) (rd := id) ⟨fun _ _ h => h, fun _ => rfl, fun _ => rfl⟩ .manhattan (by simp) (by simp) 0 le_rfl
        (List.replicate n 0) (List.replicate n 0) (by simp; omega) (by simp; omega) (by simp; omega)
      obtain ⟨v, rfl⟩ := h4 (by simp [Comparable])
      exact ⟨v, by rw [(C87_same_code id).1]; exact h3⟩
    · refine C93_long _ 0 le_rfl _ (by simp) _ _ (by simpa using hne) (by simpa using hne) (by simpa using hn) _ ?_
      simp [BandOps.mul]
  exact key (2 ^ 30) le_rfl

/-! ## Data, grouping and searching -/

/-- C93, `normalize`. -/
theorem C93_normalize_partial (ds : Dataset K) (rows : List (List (Dbl K))) (H : Holds ds rows) (hI : Fits32 ds) :
    ds.normalizeI r = ds.normalizeW r := by
  unfold Dataset.normalizeI Dataset.normalizeW
  rw [cellsI_eq H hI]

/-- C93, grouping: all integers of 32 bits, distances included, as in the unbounded model. Missing: as in C91. -/
theorem C93_group_partial [BandOps] (ds : Dataset K) (rows : List (List (Dbl K))) (H : Holds ds rows) (hI : Fits32 ds) (ratio : ℚ)
    (m : Metric) (t : Dbl K) (whole : Bool) (hw : whole = true → rows ≠ [] → 1 ≤ ds.maxCol) (log : ℕ → Bool)
    (hlog : ∀ ℓ, InRange ds.maxCol whole ℓ → log ℓ = true → rows.length * (ds.maxCol - ℓ + 1) < 21474840)
    (htot : groupable ds.maxCol whole rows < 2 ^ 31) (gs : GSpace K) :
    @GSpace.groupI K _ _ (machineArith r) ds ratio log (metricName m) t whole gs =
      @GSpace.group K _ _ (overflowArith r) ds ratio log (metricName m) t whole gs := by
  rw [← group_machine]
  exact @C91_group_partial K _ _ _ _ (machineArith r) (machine_evals r) ds rows H hI ratio m t whole hw log hlog htot gs

section
variable [BandOps] (ratio : ℚ) (hr : 0 ≤ ratio) (z : GSet K) (rows : List (List (Dbl K))) (m : Metric) (t : Dbl K) (whole : Bool)
  (hz : @Ready K _ _ (overflowArith r) rows (metricName m) t whole z) (L : ℕ) (hL : DataSize L z.ds)
  (hb : ⌊BandOps.mul ratio L⌋ < 2 ^ 31) (hlim : L < lengthLimit (if m = .euclidean then .cascade else .warped m))
include hr hz hL hb hlim

/-- C93, best match: all integers of 32 bits, distances included, as in the unbounded model. Missing: data of more values, longer
queries. -/
theorem C93_best_partial (hI : Fits32 z.ds) (hcols : z.ds.maxCol ≤ 2 ^ 30) (hb' : ⌊BandOps.mul ratio z.ds.maxCol.toNat⌋ < 2 ^ 31)
    (query : List (Dbl K)) (hle : (query.length : Int) ≤ z.ds.maxCol) (hqL : query.length ≤ L) :
    @GSet.getBestMatchI K _ (machineArith r) _ ratio z query = @GSet.getBestMatch K _ (overflowArith r) _ ratio z query := by
  rw [← @C92_best_partial K _ _ _ _ (overflowArith r) (overflow_evals r) _ z rows ratio hr _ t whole hz hI hcols hb' query hle]
  obtain ⟨m', gs, hname, hgs, hin, hwarp⟩ := @ready_in K _ _ _ _ rows _ t whole z (overflowArith r) (overflow_evals r) hz
    (fun pts => pts.length ≤ L)
  have hm : m' = m := by
    cases m <;> cases m' <;> first | rfl | (exfalso; revert hname; decide)
  subst hm
  unfold GSet.getBestMatchI
  rw [hgs]
  refine bestI_congr (D := fun pts => pts.length ≤ L) (points_size hL) hqL hin (fun w hw => ?_)
  rw [hwarp] at hw
  cases hw
  exact machine_agree hr hb r _ hlim

/-- C93, k best: calls one after another, in any order and with any queries, answer and count with the integers of the distances of 32
bits as they do with unbounded ones, of which C92 says when they overflow. -/
theorem C93_session_partial (A : Algos (Cand K)) (B : Algos (GIdx K)) (calls : List (List (Dbl K) × Int × Int))
    (hc : ∀ c ∈ calls, c.1.length ≤ L) (extra : Int) :
    @GSet.sessionI K _ (machineArith r) A B _ ratio z calls extra = @GSet.sessionI K _ (overflowArith r) A B _ ratio z calls extra := by
  obtain ⟨m', gs, hname, hgs, hin, hwarp⟩ := @ready_in K _ _ _ _ rows _ t whole z (overflowArith r) (overflow_evals r) hz
    (fun pts => pts.length ≤ L)
  have hm : m' = m := by
    cases m <;> cases m' <;> first | rfl | (exfalso; revert hname; decide)
  subst hm
  refine sessionI_congr A B (D := fun pts => pts.length ≤ L) (points_size hL) ?_ calls hc extra
  intro gs' h
  rw [hgs] at h
  cases h
  refine ⟨hin, fun w hw => ?_⟩
  rw [hwarp] at hw
  cases hw
  exact machine_agree hr hb r _ hlim

end

/-- C93 with C87: the best match computed with integers of 32 bits and numbers that are rounded and have a greatest one is that of
unbounded integers and rounded numbers without a greatest. -/
theorem C93_double_partial [BandOps] (rd : K → K) (hrd : Rounding rd) (X B : K) (hX : rd X = X) (hX1 : 1 ≤ X) (hB : 0 ≤ B) (L : ℕ) (m : Metric)
    (hs : m = .euclidean → LawfulSqrt K) (hN : NoOverflow rd X B (2 * L) m) (ratio : ℚ) (hr : 0 ≤ ratio) (z : GSet K)
    (rows : List (List (Dbl K))) (t : Dbl K) (whole : Bool)
    (hz : @Ready K _ _ (overflowArith (rndMax rd X)) rows (metricName m) t whole z) (hd : DataBelow B z.ds) (hL : DataSize L z.ds)
    (hb : ⌊BandOps.mul ratio L⌋ < 2 ^ 31) (hlim : L < lengthLimit (if m = .euclidean then .cascade else .warped m))
    (hI : Fits32 z.ds) (hcols : z.ds.maxCol ≤ 2 ^ 30) (hb' : ⌊BandOps.mul ratio z.ds.maxCol.toNat⌋ < 2 ^ 31)
    (query : List (Dbl K)) (hqB : ∀ x ∈ query, Below B x) (hle : (query.length : Int) ≤ z.ds.maxCol) (hqL : query.length ≤ L) :
    @GSet.getBestMatchI K _ (machineArith (rndMax rd X)) _ ratio z query = @GSet.getBestMatch K _ (roundedArith rd) _ ratio z query := by
  rw [C93_best_partial (rndMax rd X) ratio hr z rows m t whole hz L hL hb hlim hI hcols hb' query hle hqL]
  refine ((C87_search_partial rd hrd X B hX hX1 hB L m hs hN ratio hr query hqB hqL).2 z hd hL ?_).1
  intro gs hg
  obtain ⟨m', gs', hname, hgs, hin, hwarp⟩ := @ready_in K _ _ _ _ rows _ t whole z (overflowArith (rndMax rd X)) (overflow_evals _) hz
    (fun pts => (∀ x ∈ pts, Below B x) ∧ pts.length ≤ L)
  have hm : m' = m := by
    cases m <;> cases m' <;> first | rfl | (exfalso; revert hname; decide)
  subst hm
  rw [hg] at hgs
  cases hgs
  refine ⟨hin, fun w hw => ?_⟩
  rw [hwarp] at hw
  cases hw
  unfold warpedOf
  split
  · rename_i h; rw [h]; rfl
  · rfl

/-! ### Examples -/

example := C93_distance (K := ℚ) (rndMax roundDouble maxDouble) (1 / 2) (by norm_num) 5 (by decide +kernel) (.warped .manhattan)
  (by decide +kernel) [fin 7, fin 2, fin 3] [fin 3, fin 2] (by decide) (by decide)
example := C93_distance (K := ℚ) (rnd (roundTo 7)) (1 / 2) (by norm_num) 5 (by decide +kernel) .cascade
  (by decide +kernel) [fin 7, fin 2, fin 3] [fin 3, fin 2] (by decide) (by decide)
example := C93_envelope (K := ℚ) [fin 7, fin 2, fin 3] 1 (by decide) (by decide) (by decide)
/-- The envelope and the distance with integers of 32 bits. -/
example : (keoghLUI (K := ℚ) [fin 7, fin 2, fin 3] 1).map (fun e => ((List.range 3).map e.1, (List.range 3).map e.2)) =
    .ok ([some (fin 2), some (fin 2), some (fin 2)], [some (fin 7), some (fin 7), some (fin 3)]) := by decide +kernel
example : (DistRef.warped .manhattan).evalI (K := ℚ) (rnd id) (1 / 2) [fin 7, fin 2, fin 3] [fin 3, fin 2] .inf = .ok (fin (5 / 6)) := by
  decide +kernel
example := C93_normalize_partial (rndMax roundDouble maxDouble) exData _ exData_holds exGrouped_fits

/-- Grouped with threshold 10 by one thread, in `double`. -/
def exGroupedW : GSet ℚ × Res Int :=
  exSet.groupAllLengths (@GSpace.group ℚ _ _ (overflowArith (rndMax roundDouble maxDouble)) exData (1 / 10) (fun _ => false) "manhattan"
    (fin 10) false) (fun _ => (GSpace.fresh, .ok 0)) 1

theorem exGroupedW_ready : @Ready ℚ _ _ (overflowArith (rndMax roundDouble maxDouble)) ([[7, 2, 3], [4, 12]].map (·.map (fin : ℚ → Dbl ℚ)))
    (metricName .manhattan) (fin 10) false exGroupedW.1 :=
  @Ready.grouped ℚ _ _ (overflowArith (rndMax roundDouble maxDouble)) _ _ _ _ exSet exSet_holds exSet_max (1 / 10) (fun _ => false) 1
    exGroupedW ⟨(GSpace.fresh, .ok 0), fun h => absurd h (by decide), rfl⟩ 3 (by decide +kernel)

theorem exGroupedW_fits : Fits32 exGroupedW.1.ds := ⟨by decide +kernel, by decide +kernel, by decide +kernel, by decide +kernel⟩

theorem exGroupedW_data : exGroupedW.1.ds.data = some ([(7 : ℚ), 2, 3, 4, 12, 0, 0, 0].map fin) := by decide +kernel

theorem exGroupedW_size : DataSize 8 exGroupedW.1.ds := by
  intro buf hb
  rw [exGroupedW_data] at hb
  cases hb
  decide

example := C93_group_partial (rndMax roundDouble maxDouble) exData _ exData_holds exGrouped_fits (1 / 10) .manhattan (fin 10) false
  (by simp) (fun _ => true) (by
    intro ℓ h _
    have : exData.maxCol = 3 := by decide +kernel
    rw [this]
    show (2 : Int) * (3 - ℓ + 1) < _
    omega) (by decide +kernel) GSpace.fresh
example := C93_best_partial (rndMax roundDouble maxDouble) (1 / 2) (by norm_num) exGroupedW.1 _ .manhattan (fin 10) false exGroupedW_ready 8
  exGroupedW_size (by decide +kernel) (by decide +kernel) exGroupedW_fits (by decide +kernel) (by decide +kernel) [fin 3, fin 2]
  (by decide +kernel) (by decide)
example := C93_session_partial (rndMax roundDouble maxDouble) (1 / 2) (by norm_num) exGroupedW.1 _ .manhattan (fin 10) false exGroupedW_ready 8
  exGroupedW_size (by decide +kernel) (by decide +kernel) (refAlgos Cand.lt) (refAlgos GIdx.lt) [([fin 3, fin 2], 1, 3), ([fin 7, fin 2], 2, 2)]
  (by decide) 0
example := C93_double_partial (K := ℚ) roundDouble roundDouble_rounding maxDouble (2 ^ 480) max_fixed one_le_max (by positivity) 8 .manhattan
  (fun h => by cases h) (C87_double _ (by decide) _ (by norm_num)) (1 / 2) (by norm_num) exGroupedW.1 _ (fin 10) false exGroupedW_ready
  (by
    intro buf hb x hx
    rw [exGroupedW_data] at hb
    cases hb
    have key : ∀ y ∈ [(7 : ℚ), 2, 3, 4, 12, 0, 0, 0], |y| ≤ 2 ^ 480 := by decide +kernel
    obtain ⟨y, hy, rfl⟩ := List.mem_map.1 hx
    exact ⟨y, rfl, key y hy⟩)
  exGroupedW_size (by decide +kernel) (by decide +kernel) exGroupedW_fits (by decide +kernel) (by decide +kernel) [fin 3, fin 2]
  (by
    have key : ∀ y ∈ [(3 : ℚ), 2], |y| ≤ 2 ^ 480 := by decide +kernel
    intro x hx
    obtain ⟨y, hy, rfl⟩ := List.mem_map.1 (show x ∈ [(3 : ℚ), 2].map fin from hx)
    exact ⟨y, rfl, key y hy⟩)
  (by decide +kernel) (by decide)

/-- The best match with everything of the machine. -/
example : @GSet.getBestMatchI ℚ _ (machineArith (rndMax roundDouble maxDouble)) _ (1 / 2) exGroupedW.1 [fin 3, fin 2] =
    .ok ⟨⟨0, 0, 0, 3⟩, fin (roundDouble (5 / 6))⟩ := by decide +kernel

end Genex.Props
