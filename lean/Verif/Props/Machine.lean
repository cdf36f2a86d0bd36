import Verif.Lemmas.MachineSizes
import Verif.Props.Group

/-!
# C91: `int` of 32 bits in loading, access, saving and grouping

The other claims compute positions and counts without bounds.  Here are the sizes for which that is right, and what happens beyond them.
-/

set_option linter.unusedSectionVars false

namespace Genex.Props

open Dbl Spec

section

variable {K : Type} [Field K]

/-- C91, loading: with less than `2 ^ 31` lines and columns, and rows read times columns below `2 ^ 31`, no `int` overflows.
Missing: larger files, where it is false, see `C91_load_false`. -/
theorem C91_load_partial (parse : Text → Parsed K) (content path : Text) (maxNumRow : Int) (startCol : ℕ) (sep : List Char)
    (hasName : Bool) (ds : Dataset K) (hs : startCol < 2 ^ 31) (hl : (linesOf content).length < 2 ^ 31) (W : ℕ) (hW' : W < 2 ^ 31)
    (hW : ∀ l ∈ linesOf content, (columns sep l).length ≤ W) (ha : (firstLines maxNumRow content).length * W < 2 ^ 31) :
    Dataset.loadDataI parse (some content) path maxNumRow startCol sep hasName ds =
      Dataset.loadData parse (some content) path maxNumRow startCol sep hasName ds := by
  refine loadDataI_eq parse _ path maxNumRow startCol sep hasName ds hs ?_
  rintro c ⟨⟩
  have h := maxColumns_bound hW
  refine ⟨by rw [linesOf_eq]; exact hl, by omega, ?_⟩
  rw [rowsRead_eq]
  exact lt_of_le_of_lt (Nat.mul_le_mul_left _ h) ha

/-- C91: the array of a file of `2 ^ 31` values or more cannot be created: the rows read times the columns of the longest line overflow. -/
theorem C91_load_over (parse : Text → Parsed K) (content path : Text) (maxNumRow startCol : Int) (sep : List Char)
    (hasName : Bool) (ds : Dataset K) (l : Text) (hl : l ∈ linesOf content)
    (h : 2 ^ 31 ≤ (firstLines maxNumRow content).length * (columns sep l).length) :
    (Dataset.loadDataI parse (some content) path maxNumRow startCol sep hasName ds).2 = .error (.ub "int overflow") := by
  unfold Dataset.loadDataI Dataset.loadContentI
  simp only [sizesI_over hl h]

/-- C91: what is loaded from such a file has the size that the theorems below ask for, if there is a column of values. -/
theorem C91_loaded_partial (parse : Text → Parsed K) (content path : Text) (maxNumRow : Int) (startCol : ℕ) (sep : List Char)
    (hasName : Bool) (ds ds' : Dataset K) (hs : startCol < 2 ^ 31) (hl : (linesOf content).length < 2 ^ 31) (W : ℕ) (hW' : W + 1 < 2 ^ 31)
    (hW : ∀ l ∈ linesOf content, (columns sep l).length ≤ W) (ha : (firstLines maxNumRow content).length * W < 2 ^ 31)
    (h : Dataset.loadDataI parse (some content) path maxNumRow startCol sep hasName ds = (ds', .ok ())) (h0 : 0 ≤ ds'.maxCol) :
    Fits32 ds' := by
  rw [C91_load_partial parse content path maxNumRow startCol sep hasName ds hs hl W (by omega) hW ha] at h
  exact load_fits parse content path maxNumRow startCol sep hasName ds ds' h hW hW' hl ha h0

variable (ds : Dataset K) (rows : List (List (Dbl K)))

/-- C91, access: in a dataset of such a size every call of `getTimeSeries`, with any arguments, and every access to the series it
returns, computes the positions of the unbounded model. -/
theorem C91_access_partial (H : Holds ds rows) (hI : Fits32 ds) (index start stop : Int) :
    ds.getTimeSeriesI index start stop = ds.getTimeSeries index start stop ∧
    ∀ v, ds.getTimeSeries index start stop = .ok v → ds.pointsI v = ds.points v ∧ ∀ i, ds.pointAtI v i = ds.pointAt v i := by
  refine ⟨getTimeSeriesI_eq H hI index start stop, fun v hv => ?_⟩
  have hb := getTimeSeries_bounds H hI hv
  exact ⟨pointsI_eq hb.1 hb.2, pointAtI_eq hb.1 hb.2⟩

/-- C91, saving. -/
theorem C91_save_partial (H : Holds ds rows) (hI : Fits32 ds) (print : Dbl K → Text) (sep : Char) :
    ds.saveDataI print sep = ds.saveData print sep := saveDataI_eq H hI print sep

/-- C91, the cells visited by `normalize`. -/
theorem C91_cells_partial [LinearOrder K] (H : Holds ds rows) (hI : Fits32 ds) : ds.cellsI = ds.cells := cellsI_eq H hI

end

section

variable {K : Type} [Field K] [LinearOrder K] [IsStrictOrderedRing K] [HasSqrt K] [Arith K] [PairwiseEvals K]
variable (ds : Dataset K) (rows : List (List (Dbl K)))

/-- C91, grouping one length: with a finite threshold it returns if the progress is not logged, or if there is nothing to do, or if the
number of places, rows times positions, is at least 5 and less than 21474840. -/
theorem C91_length (H : Holds ds rows) (hI : Fits32 ds) (ℓ n : ℕ) (hl : 1 ≤ ℓ) (hn : (n : Int) = ds.maxCol - ℓ + 1) (ratio : ℚ)
    (m : Metric) (τ : K) (log : ℕ → Bool) :
    (∃ N, (GSpace.groupLengthI ds ratio log (.pairwise m) (fin τ) ℓ).2 = .ok N) ↔
      (log ℓ = true → rows = [] ∨ n = 0 ∨ 5 ≤ rows.length * n ∧ rows.length * n < 21474840) := by
  refine groupLengthI_iff H hI (fun _ => hl) hn ?_ ratio _ (fin τ) log (evals_pairwise ratio m) (Or.inl ?_)
  · have h1 : (n : Int) ≤ ds.maxCol := by omega
    have h2 := hI.area
    rw [H.count] at h2
    have h3 : (rows.length : Int) * n ≤ rows.length * ds.maxCol := Int.mul_le_mul_of_nonneg_left h1 (by omega)
    have h4 : ((rows.length * n : ℕ) : Int) < 2 ^ 31 := by push_cast; omega
    omega
  · rw [fin_div_fin two_ne_zero]; simp

/-- C91, grouping: with less than `2 ^ 31` subsequences to group, and less than 21474840 places of each length whose progress is logged, no
`int` overflows.  Missing: more places with the log, and more groups, where it is false, see `C91_log_false` and `C91_total_false`. -/
theorem C91_group_partial (H : Holds ds rows) (hI : Fits32 ds) (ratio : ℚ) (m : Metric) (t : Dbl K) (whole : Bool)
    (hw : whole = true → rows ≠ [] → 1 ≤ ds.maxCol) (log : ℕ → Bool)
    (hlog : ∀ ℓ, InRange ds.maxCol whole ℓ → log ℓ = true → rows.length * (ds.maxCol - ℓ + 1) < 21474840)
    (htot : groupable ds.maxCol whole rows < 2 ^ 31) (gs : GSpace K) :
    GSpace.groupI ds ratio log (metricName m) t whole gs = GSpace.group ds ratio log (metricName m) t whole gs :=
  groupI_eq H hI ratio m t whole hw log hlog (evals_pairwise ratio m) htot gs

/-- C91: if the groups can be counted in the unbounded integers, then `totalNumberOfGroups` is that number or overflows. -/
theorem C91_total (H : Holds ds rows) (hI : Fits32 ds) (ratio : ℚ) (m : Metric) (t : Dbl K) (whole : Bool)
    (hw : whole = true → rows ≠ [] → 1 ≤ ds.maxCol) (log : ℕ → Bool)
    (hlog : ∀ ℓ, InRange ds.maxCol whole ℓ → log ℓ = true → rows.length * (ds.maxCol - ℓ + 1) < 21474840)
    (gs gs' : GSpace K) (N : Int) (h : GSpace.group ds ratio log (metricName m) t whole gs = (gs', .ok N)) :
    (N < 2 ^ 31 → GSpace.groupI ds ratio log (metricName m) t whole gs = (gs', .ok N)) ∧
    (2 ^ 31 ≤ N → (GSpace.groupI ds ratio log (metricName m) t whole gs).2 = .error (.ub "int overflow")) :=
  groupI_total H hI ratio m t whole hw log hlog (evals_pairwise ratio m) gs gs' N h

/-- C91: grouping whole series with the log overflows when there are 21474840 series or more. -/
theorem C91_log_over (H : Holds ds rows) (hI : Fits32 ds) (hmax : 1 ≤ ds.maxCol) (ratio : ℚ) (m : Metric) (τ : K) (log : ℕ → Bool)
    (hlog : log ds.maxCol.toNat = true) (hbig : 21474840 ≤ rows.length) (gs : GSpace K) :
    (GSpace.groupI ds ratio log (metricName m) (fin τ) true gs).2 = .error (.ub "int overflow") := by
  refine groupI_log_over H hI ratio m (fin τ) true ds.maxCol.toNat ?_ ?_ (fun _ _ => hmax) log hlog ?_ (Or.inl ?_)
    (evals_pairwise ratio m) gs
  · unfold InRange; simp; omega
  · intro i hi
    have h2 : (if (true = true) then (i : Int) = ds.maxCol else 2 ≤ i) := hi.2
    rw [if_pos rfl] at h2
    omega
  · rw [show ds.maxCol - (ds.maxCol.toNat : Int) + 1 = 1 by omega]; omega
  · rw [fin_div_fin two_ne_zero]; simp

end

/-! ## Examples -/

theorem exData_fits : Fits32 exData := ⟨by decide +kernel, by decide +kernel, by decide +kernel, by decide +kernel⟩

example := C91_load_partial exParse "1 2\n3 4\n".toList [] 0 0 [' '] false (Dataset.fresh : Dataset ℚ) (by norm_num) (by decide +kernel) 2
  (by norm_num) (by decide +kernel) (by decide +kernel)

example : ∃ ds', Dataset.loadDataI exParse "1 2\n3 4\n".toList [] 0 0 [' '] false (Dataset.fresh : Dataset ℚ) = (ds', .ok ()) ∧ Fits32 ds' :=
  ⟨(Dataset.loadDataI exParse "1 2\n3 4\n".toList [] 0 0 [' '] false (Dataset.fresh : Dataset ℚ)).1, by decide +kernel,
    C91_loaded_partial exParse "1 2\n3 4\n".toList [] 0 0 [' '] false Dataset.fresh _ (by norm_num) (by decide +kernel) 2 (by norm_num)
      (by decide +kernel) (by decide +kernel) (by decide +kernel) (by decide +kernel)⟩

example := C91_access_partial exData _ exData_holds exData_fits
example : exData.getTimeSeriesI 1 0 2 = .ok ⟨3, 1, 0, 2⟩ := by decide +kernel
example := C91_save_partial exData _ exData_holds exData_fits
example := C91_cells_partial exData _ exData_holds exData_fits
example : exData.cellsI = .ok [0, 1, 2, 3, 4] := by decide +kernel
example := C91_length exData _ exData_holds exData_fits 2 2 (by norm_num) (by decide +kernel) (1 / 10) .manhattan 10 (fun _ => false)
example : (GSpace.groupI exData (1 / 10) (fun _ => false) "manhattan" (fin 10) false GSpace.fresh).2 = .ok 3 := by decide +kernel
example := C91_group_partial exData _ exData_holds exData_fits (1 / 10) .manhattan (fin 10) false (by simp) (fun _ => false) (by simp)
  (by decide +kernel) GSpace.fresh
example := C91_total exData _ exData_holds exData_fits (1 / 10) .manhattan (fin 10) false (by simp) (fun _ => false) (by simp)
  GSpace.fresh (GSpace.group exData (1 / 10) (fun _ => false) "manhattan" (fin 10) false GSpace.fresh).1 3 (by decide +kernel)

/-! ## Where it is false -/

/-- `c` values on the first of `n` lines. -/
def wideFile (c n : ℕ) : Text := (((((List.replicate c ['1']).map (· ++ [','])).flatten :: List.replicate n []).map (· ++ ['\n'])).flatten)

theorem wideFile_lines (c n : ℕ) : linesOf (wideFile c n) = ((List.replicate c ['1']).map (· ++ [','])).flatten :: List.replicate n [] := by
  rw [← linesOf_eq]
  apply fileLines_flatten
  intro l hl
  rcases List.mem_cons.1 hl with rfl | h
  · simp
  · rw [List.eq_of_mem_replicate h]; simp

theorem wideFile_over (c n : ℕ) (h : 2 ^ 31 ≤ (n + 1) * c) : ∃ l ∈ linesOf (wideFile c n),
    2 ^ 31 ≤ (firstLines 0 (wideFile c n)).length * (columns [','] l).length := by
  refine ⟨((List.replicate c ['1']).map (· ++ [','])).flatten, by rw [wideFile_lines]; simp, ?_⟩
  rw [← tokens_eq, tokens_pieces ',' (List.replicate c ['1']) (by intro p hp; rw [List.eq_of_mem_replicate hp]; simp)]
  rw [firstLines, if_pos le_rfl, wideFile_lines]
  simpa using h

/-- C91 is false of loading: a file of 65536 lines, the first with 32768 values and the others empty, has less than 200000 characters, and
loading it multiplies 65536 by 32768, undefined behaviour. -/
theorem C91_load_false : ∃ content : Text, content.length < 200000 ∧ ∀ parse : Text → Parsed ℚ,
    (Dataset.loadDataI parse (some content) [] 0 0 [','] false Dataset.fresh).2 = .error (.ub "int overflow") := by
  refine ⟨wideFile 32768 65535, ?_, fun parse => ?_⟩
  · have : ∀ c n, (wideFile c n).length = 2 * c + 1 + n := by
      intro c n
      unfold wideFile
      simp [Function.comp_def]
      omega
    rw [this]; norm_num
  · obtain ⟨l, hl, h⟩ := wideFile_over 32768 65535 (by norm_num)
    exact C91_load_over parse _ [] 0 0 [','] false _ l hl h

/-- `n` series of `w` zeros. -/
def flatSet (n w : ℕ) : Dataset ℚ :=
  { data := some (List.replicate (n * w) 0), names := [], lengths := List.replicate n (w : Int), itemCount := n, maxCol := w,
    filePath := [], normalized := false }

theorem flatSet_holds (n w : ℕ) : Holds (flatSet n w) (List.replicate n (List.replicate w (fin 0))) := by
  refine ⟨by simp [flatSet], by simp [flatSet], ?_, ?_⟩
  · intro i r hr
    have := List.eq_of_mem_replicate (List.mem_of_getElem? hr)
    subst this
    simp [flatSet]
  · intro i r hr j x hx
    have h1 := List.eq_of_mem_replicate (List.mem_of_getElem? hr)
    subst h1
    have hi : i < n := by simpa using (List.getElem?_eq_some_iff.1 hr).1
    have hj : j < w := by simpa using (List.getElem?_eq_some_iff.1 hx).1
    have h2 := List.eq_of_mem_replicate (List.mem_of_getElem? hx)
    subst h2
    have h3 : i * w + j < n * w := by
      have : (i + 1) * w ≤ n * w := Nat.mul_le_mul_right _ hi
      rw [Nat.add_mul] at this
      omega
    unfold Dataset.read flatSet
    simp only
    rw [show (i : Int) * (w : Int) + (j : Int) = ((i * w + j : ℕ) : Int) by push_cast; ring, if_neg (by omega), Int.toNat_natCast,
      List.getElem?_replicate, if_pos h3]
    rfl

/-- C91 is false of the log of the progress: 21474840 series of two points, grouped whole for longer than the clock waits. -/
theorem C91_log_false : ∃ (ds : Dataset ℚ) (rows : List (List (Dbl ℚ))), Holds ds rows ∧ Fits32 ds ∧ ds.maxCol = 2 ∧
    ∀ log : ℕ → Bool, log 2 = true →
      (GSpace.groupI ds (1 / 10) log "manhattan" (fin 10) true GSpace.fresh).2 = .error (.ub "int overflow") := by
  have hf : ∀ n : ℕ, 2 * n < 2 ^ 31 → Fits32 (flatSet n 2) := by
    intro n h
    refine ⟨by change (0 : Int) ≤ 2; omega, by change (2 : Int) + 1 < 2 ^ 31; omega, by change (n : Int) < 2 ^ 31; omega, ?_⟩
    change (n : Int) * 2 < 2 ^ 31
    omega
  have key : ∀ n : ℕ, 21474840 ≤ n → 2 * n < 2 ^ 31 → ∀ log : ℕ → Bool, log 2 = true →
      (GSpace.groupI (flatSet n 2) (1 / 10) log "manhattan" (fin 10) true GSpace.fresh).2 = .error (.ub "int overflow") := by
    intro n h h' log hl
    exact C91_log_over (flatSet n 2) _ (flatSet_holds n 2) (hf n h') (by change (1 : Int) ≤ 2; omega) (1 / 10) .manhattan 10 log hl
      (by rw [List.length_replicate]; exact h) GSpace.fresh
  exact ⟨flatSet 21474840 2, _, flatSet_holds _ _, hf _ (by norm_num), rfl, key _ le_rfl (by norm_num)⟩

/-- One series: 0, 1, 2, ... -/
def rampSet (w : ℕ) : Dataset ℚ :=
  { data := some ((List.range w).map (fun (i : ℕ) => fin (i : ℚ))), names := [], lengths := [(w : Int)], itemCount := 1, maxCol := w,
    filePath := [], normalized := false }

def rampRow (w : ℕ) : List ℚ := (List.range w).map (fun (i : ℕ) => (i : ℚ))

theorem rampSet_holds (w : ℕ) : Holds (rampSet w) ([rampRow w].map (·.map fin)) := by
  refine ⟨rfl, by simp [rampSet, rampRow], ?_, ?_⟩
  · intro i r hr
    match i, hr with
    | 0, hr => simp at hr; subst hr; simp [rampSet, rampRow]
  · intro i r hr j x hx
    match i, hr with
    | 0, hr =>
      simp at hr
      subst hr
      unfold Dataset.read rampSet
      simp only
      rw [show ((0 : ℕ) : Int) * (w : Int) + (j : Int) = (j : ℕ) by simp, if_neg (by omega), Int.toNat_natCast]
      have : (List.range w).map (fun (i : ℕ) => (fin (i : ℚ) : Dbl ℚ)) = (rampRow w).map fin := by simp [rampRow]
      rw [this, hx]

/-- The first point tells where a subsequence starts. -/
theorem ramp_distinct (w ℓ : ℕ) (hl : 1 ≤ ℓ) (i p i' p' : ℕ) (x : List ℚ) (h : SubOf [rampRow w] ℓ i p x)
    (h' : SubOf [rampRow w] ℓ i' p' x) : i = i' ∧ p = p' := by
  obtain ⟨r, h1, h2, h3⟩ := h
  obtain ⟨r', h1', h2', h3'⟩ := h'
  have hi : i = 0 := by have := (List.getElem?_eq_some_iff.1 h1).1; simp at this; exact this
  have hi' : i' = 0 := by have := (List.getElem?_eq_some_iff.1 h1').1; simp at this; exact this
  subst hi hi'
  simp at h1 h1'
  subst h1 h1'
  refine ⟨rfl, ?_⟩
  have e := congrArg (fun l => l[0]?) (h3.symm.trans h3')
  simp only [List.getElem?_take, List.getElem?_drop, if_pos (show 0 < ℓ by omega), add_zero] at e
  have hw : (rampRow w).length = w := by simp [rampRow]
  rw [hw] at h2 h2'
  simp only [rampRow, List.getElem?_map, List.getElem?_range (show p < w by omega), List.getElem?_range (show p' < w by omega)] at e
  simpa using e

/-- C91 is false of `totalNumberOfGroups`: one series of 65537 points, no two of its subsequences alike, with threshold zero. -/
theorem C91_total_false : ∃ (ds : Dataset ℚ) (rows : List (List (Dbl ℚ))), Holds ds rows ∧ Fits32 ds ∧ ds.itemCount = 1 ∧ ds.maxCol = 65537 ∧
    (GSpace.groupI ds (1 / 10) (fun _ => false) "manhattan" (fin 0) false GSpace.fresh).2 = .error (.ub "int overflow") := by
  have hf : ∀ w : ℕ, w + 1 < 2 ^ 31 → Fits32 (rampSet w) := by
    intro w h
    refine ⟨by change (0 : Int) ≤ w; omega, by change (w : Int) + 1 < 2 ^ 31; omega, by change (1 : Int) < 2 ^ 31; omega, ?_⟩
    change (1 : Int) * w < 2 ^ 31
    omega
  have key : ∀ w : ℕ, w + 1 < 2 ^ 31 → 2 ^ 32 ≤ (w - 1) * w →
      (GSpace.groupI (rampSet w) (1 / 10) (fun _ => false) "manhattan" (fin 0) false GSpace.fresh).2 = .error (.ub "int overflow") := by
    intro w h h'
    obtain ⟨gs', e⟩ := group_distinct (1 / 10) (rampSet_holds w) (hf w h).nonneg (m := .manhattan) (by decide) (by simp) (fun _ => false) false
      (by simp) (by simp) (fun ℓ hℓ => ramp_distinct w ℓ (by
        have h2 : (if (false = true) then (ℓ : Int) = (rampSet w).maxCol else 2 ≤ ℓ) := hℓ.2
        rw [if_neg (by simp)] at h2
        omega)) GSpace.fresh
    refine (C91_total (rampSet w) _ (rampSet_holds w) (hf w h) (1 / 10) .manhattan (fin 0) false (by simp) (fun _ => false) (by simp) _ _ _ e).2 ?_
    have hw : (rampRow w).length = w := by simp [rampRow]
    have h3 := groupable_one (rampRow w)
    rw [hw] at h3
    change (2 : Int) ^ 31 ≤ (groupable (w : Int) false [rampRow w] : ℕ)
    omega
  exact ⟨rampSet 65537, _, rampSet_holds _, hf _ (by norm_num), rfl, rfl, key _ (by norm_num) (by norm_num)⟩

end Genex.Props
