import Verif.Spec.MachineRun
import Verif.Lemmas.Paa
import Verif.Lemmas.DatasetProps
import Verif.Props.Double
import Verif.Props.Machine
import Verif.Props.MachineDist

set_option linter.unusedSectionVars false

/-! The stages of a run on the machine (for C94). -/

namespace Genex

open Dbl Spec Registry Props

variable {K : Type} [Field K] [LinearOrder K] [IsStrictOrderedRing K] [FloorRing K] [HasSqrt K]

/-- Arithmetic of `double` without integers. -/
local notation "rD" => (rndMax roundDouble maxDouble : Dbl K → Dbl K)

theorem groupable_congr {α β : Type} (w : Int) (whole : Bool) {a : List (List α)} {b : List (List β)}
    (h : a.map List.length = b.map List.length) : groupable w whole a = groupable w whole b := by
  have key : ∀ ℓ, subsOfLength a ℓ = subsOfLength b ℓ := by
    intro ℓ
    unfold subsOfLength
    have e : ∀ {γ : Type} (l : List (List γ)), l.map (fun r => r.length + 1 - ℓ) = (l.map List.length).map (fun n => n + 1 - ℓ) := by
      intro γ l; simp [Function.comp_def]
    rw [e, e, h]
  unfold groupable
  simp only [funext key]

variable {parse : Text → Parsed K} {j : Job K} {log : ℕ → Bool} {st W : ℕ} {file : List (List K)}

/-- What loading and normalising leave. -/
structure Prepared (j : Job K) (st W : ℕ) (file rows : List (List K)) (ds : Dataset K) : Prop where
  plain : j.norm = false → rows = file
  scaled : j.norm = true → Scaled roundDouble file rows
  lens : rows.map List.length = file.map List.length
  holds : Holds ds (rows.map (·.map fin))
  width : ds.maxCol = (W : Int) - valueCol st j.hasName
  fits : Fits32 ds
  values : Sized roundDouble (2 ^ 480) rows
  below : DataBelow (2 ^ 480) ds
  size : DataSize ((linesOf j.content).length * W) ds

theorem maxColumns_widest {sep : List Char} {content : Text} {W : ℕ}
    (h : IsGreatest {n | ∃ l ∈ linesOf content, n = (columns sep l).length} W) : Dataset.maxColumns sep (fileLines content) = W := by
  refine le_antisymm (maxColumns_bound (fun l hl => h.2 ⟨l, hl, rfl⟩)) ?_
  obtain ⟨l, hl, rfl⟩ := h.1
  rw [← tokens_eq]
  exact le_maxColumns _ _ _ (by rw [linesOf_eq]; exact hl)

theorem firstLines_le (m : Int) (content : Text) : (firstLines m content).length ≤ (linesOf content).length := by
  unfold firstLines
  split
  · exact le_rfl
  · simp

theorem dataI_ok (h : Readable parse j st W file) (hne : ∃ r ∈ file, r ≠ []) :
    ∃ ds rows, j.dataI rD parse = .ok ds ∧ Prepared j st W file rows ds := by
  have hW : ∀ l ∈ linesOf j.content, (columns j.sep l).length ≤ W := fun l hl => h.widest.2 ⟨l, hl, rfl⟩
  have hlen : (firstLines j.maxNumRow j.content).length = file.length := by
    have := congrArg List.length h.has.numbers
    simpa using this
  have hpos : 0 < file.length := List.length_pos_iff.2 h.has.some
  have hle := firstLines_le j.maxNumRow j.content
  have hW1 : W ≤ (linesOf j.content).length * W := Nat.le_mul_of_pos_left W (by omega)
  have hsize := h.size
  have hst : st ≤ W := by
    obtain ⟨l, hl⟩ := List.exists_mem_of_ne_nil (firstLines j.maxNumRow j.content) (by
      intro e; rw [e] at hlen; simp at hlen; omega)
    have h1 := h.has.reach l hl
    have h2 : st ≤ valueCol st j.hasName := by unfold valueCol; split <;> omega
    have h3 : l ∈ linesOf j.content := by
      unfold firstLines at hl
      split at hl
      · exact hl
      · exact List.mem_of_mem_take hl
    exact le_trans h2 (le_trans h1 (hW l h3))
  have harea : (firstLines j.maxNumRow j.content).length * W < 2 ^ 31 := by
    have := Nat.mul_le_mul_right W hle
    omega
  obtain ⟨ds, e, H, -, -, -⟩ := load_holds parse j.content j.path j.maxNumRow st j.sep j.hasName (file.map (·.map fin))
    (by
      unfold readVals
      rw [h.has.numbers]
      simp [List.map_map, Function.comp_def]) h.has.reach
  have eI : Dataset.loadDataI parse (some j.content) j.path j.maxNumRow j.startCol j.sep j.hasName Dataset.fresh = (ds, .ok ()) := by
    rw [h.col, C91_load_partial parse j.content j.path j.maxNumRow st j.sep j.hasName Dataset.fresh (by omega) h.lines W (by omega) hW harea]
    exact e
  have hbelow := load_below (parse := parse) (B := (2 : K) ^ 480) (by positivity) (sep := j.sep) (content := j.content) (path := j.path)
    (n := j.maxNumRow) (st := st) (nm := j.hasName) (ds := Dataset.fresh) (R := (linesOf j.content).length) (W := W) (by
      intro l hl t ht x hx
      have hm : ((columns j.sep l).drop (valueCol st j.hasName)).map parse ∈
          (firstLines j.maxNumRow j.content).map (fun l => ((columns j.sep l).drop (valueCol st j.hasName)).map parse) :=
        List.mem_map.2 ⟨l, hl, rfl⟩
      rw [h.has.numbers] at hm
      obtain ⟨r, hr', e⟩ := List.mem_map.1 hm
      have hx' : parse t ∈ r.map (fun x => Parsed.val (Dbl.fin x)) := by
        rw [e]
        exact List.mem_map.2 ⟨t, ht, rfl⟩
      obtain ⟨y, hy, ey⟩ := List.mem_map.1 hx'
      rw [hx, Parsed.val.injEq] at ey
      exact ⟨y, ey.symm, (h.values r hr').2 y hy⟩) (by simp [firstLines]) (by simpa [firstLines] using hW)
  rw [e] at hbelow
  have hmax : ds.maxCol = (W : Int) - valueCol st j.hasName := by
    have := loadData_maxCol _ _ _ _ _ _ _ _ _ e
    rw [this, maxColumns_widest h.widest]
    unfold valueCol b2i
    split <;> simp <;> omega
  have h0 : 0 ≤ ds.maxCol := by
    obtain ⟨r, hr⟩ := List.exists_mem_of_ne_nil _ h.has.some
    obtain ⟨i, hi⟩ := List.mem_iff_getElem?.1 hr
    have := H.fits i (r.map .fin) (by rw [List.getElem?_map, hi]; rfl)
    exact le_trans (Int.natCast_nonneg _) this
  have hfit : Fits32 ds := load_fits parse j.content j.path j.maxNumRow st j.sep j.hasName _ ds e hW (by omega) h.lines harea h0
  unfold Job.dataI
  simp only [eI, bind, Except.bind]
  cases hn : j.norm with
  | false =>
    refine ⟨ds, file, by simp, ⟨fun _ => rfl, fun h' => ?_, rfl, H, hmax, hfit, h.values, hbelow.1, hbelow.2.1⟩⟩
    rw [hn] at h'; cases h'
  | true =>
    have hr := roundDouble_rounding (K := K)
    have hfl : ∀ r ∈ file, Floats roundDouble r := fun r hr => (h.values r hr).1
    have hnorm : ds.normalizeI rD = ds.normalizeR roundDouble := by
      rw [C93_normalize_partial rD ds _ H hfit]
      exact (C87_normalize_partial roundDouble hr maxDouble max_fixed one_le_max roundDouble_unit ds file H
        (fun r hr' x hx r' hr'' y hy => sub_below hr twice_le_max ((h.values r hr').2 x hx) ((h.values r' hr'').2 y hy))).1
    obtain ⟨r0, hr0, hr0'⟩ := hne
    obtain ⟨x0, hx0⟩ := List.exists_mem_of_ne_nil r0 hr0'
    obtain ⟨ds', lo, hi, e', hlo, hhi, -, H', -, -, hmax'⟩ := normalizeR_ok hr (roundDouble_ops.sub_ne (by norm_num)) H ⟨x0, r0, hr0, hx0⟩ hfl
    obtain ⟨hb1, hb2⟩ := normalizeR_below hr roundDouble_unit one_le_range H hbelow.1 hbelow.2.1 e'
    have hrows : file.map (·.map (fun x => (fin (scaleR roundDouble lo hi x) : Dbl K))) =
        (file.map (·.map (fun x => if lo = hi then 0 else roundDouble (roundDouble (x - lo) / roundDouble (hi - lo))))).map (·.map fin) := by
      rw [List.map_map]
      congr 1
      funext r
      simp [Function.comp_def, scaleR]
    rw [hrows] at H'
    have hcount := H'.count
    have hcount' := H.count
    rw [List.length_map, List.length_map] at hcount
    rw [List.length_map] at hcount'
    refine ⟨ds', _, by rw [hnorm, e']; simp, ⟨fun h' => ?_, fun _ => ⟨lo, hi, hlo, hhi, rfl⟩, ?_, H', by rw [hmax', hmax], ⟨by rw [hmax']; exact h0,
      by rw [hmax']; exact hfit.cols, ?_, ?_⟩, scaled_sized hr roundDouble_unit one_le_range hlo hhi, hb1, hb2⟩⟩
    · rw [hn] at h'; cases h'
    · simp [Function.comp_def]
    · rw [hcount, ← hcount']; exact hfit.rows
    · rw [hcount, ← hcount', hmax']; exact hfit.area

section

variable {rows : List (List K)} {ds : Dataset K} {m : Metric} {t : Dbl K}

theorem Prepared.loaded (P : Prepared j st W file rows ds) (hne : ∃ r ∈ rows, r ≠ []) : ds.data ≠ none := by
  obtain ⟨r, hr, hr'⟩ := hne
  obtain ⟨i, hi⟩ := List.mem_iff_getElem?.1 hr
  obtain ⟨x, xs, rfl⟩ := List.exists_cons_of_ne_nil hr'
  have := P.holds.cells i _ (by rw [List.getElem?_map, hi]; rfl) 0 (fin x) (by simp)
  intro hd
  unfold Dataset.read at this
  rw [hd] at this
  cases this

/-- Grouping of what was prepared. -/
theorem groupI_ok [BandOps] {ratio : ℚ} (h : Manageable parse j log st W file) (P : Prepared j st W file rows ds)
    (hne : ∃ r ∈ rows, r ≠ []) (hm : m ≠ .sorensen ∧ m ≠ .cosine) (hs : m = .euclidean → LawfulSqrt K) (τ : K)
    (hname : j.distance = metricName m) (ht : j.threshold = fin τ) (hw : j.whole = false) :
    ∃ z, j.groupI rD ratio log ds = .ok z ∧ z.ds = ds ∧
      @Ready K _ _ (overflowArith rD) (rows.map (·.map fin)) (metricName m) (fin τ) false z ∧
      @Ready K _ _ (roundedArith roundDouble) (rows.map (·.map fin)) (metricName m) (fin τ) false z := by
  have hlen : rows.length = file.length := by simpa using congrArg List.length P.lens
  have hlog : ∀ ℓ, InRange ds.maxCol false ℓ → log ℓ = true → 5 ≤ (ds.maxCol - ℓ + 1) * (rows.map (·.map (fin : K → Dbl K))).length ∧
      ((rows.map (·.map (fin : K → Dbl K))).length : Int) * (ds.maxCol - ℓ + 1) < 21474840 := by
    intro ℓ hℓ hl
    obtain ⟨k1, k2⟩ := hℓ
    have k2' : 2 ≤ ℓ := by simpa using k2
    rw [P.width] at k1 ⊢
    rw [List.length_map, hlen, mul_comm (_ - (ℓ : Int) + 1)]
    exact h.logged ℓ k2' (by omega) hl
  have hgI : @GSpace.groupI K _ _ (machineArith rD) ds ratio log j.distance j.threshold j.whole GSpace.fresh =
      @GSpace.group K _ _ (overflowArith rD) ds ratio log (metricName m) (fin τ) false GSpace.fresh := by
    rw [hname, ht, hw]
    refine C93_group_partial rD ds _ P.holds P.fits ratio m (fin τ) false (by simp) log (fun ℓ k1 k2 => (hlog ℓ k1 k2).2) ?_ _
    rw [P.width, groupable_congr _ _ (b := file) (by rw [← P.lens]; simp [Function.comp_def])]
    exact h.groups
  have hdata := P.loaded hne
  obtain ⟨buf, hbuf⟩ := Option.ne_none_iff_exists'.1 hdata
  let out : GSet K × Res Int := GSet.groupAllLengths (@GSpace.group K _ _ (overflowArith rD) ds ratio log (metricName m) (fin τ) false)
    (fun _ => (GSpace.fresh, .ok 0)) 1 ⟨ds, none⟩
  have ho : @GSet.GroupAll K _ _ (overflowArith rD) ratio log (metricName m) (fin τ) false 1 ⟨ds, none⟩ out :=
    ⟨(GSpace.fresh, .ok 0), fun h => absurd h (by decide), rfl⟩
  have hN' : ∃ N, out.2 = .ok N :=
    @groupAll_returns K _ _ _ (overflowArith rD) (overflow_evals _) ⟨ds, none⟩ _ P.holds P.fits.nonneg ratio m (fin τ) false log 1 out
      (fun ℓ _ _ => Or.inl (by rw [fin_div_fin two_ne_zero]; simp)) (fun ℓ k1 k2 => (hlog ℓ k1 k2).1) ho hdata le_rfl (by simp)
  obtain ⟨N, hN⟩ := hN'
  have hsz : DataSize (2 ^ 52) ds := fun b hb => le_trans (P.size b hb) (by have := h.size; omega)
  have hr87 := ((C87_group_partial roundDouble roundDouble_rounding maxDouble (2 ^ 480) max_fixed one_le_max (by positivity) (2 ^ 52) m hs
    (C87_double m hm _ (by norm_num)) ratio ⟨ds, none⟩ P.below hsz (fin τ) false log 1 out N hN).1).1 ho
  have hj : j.groupI rD ratio log ds = .ok out.1 := by
    have hN2 := hN
    simp only [out, GSet.groupAllLengths, hbuf, if_true] at hN2
    simp only [Job.groupI, GSet.groupAllLengths, hbuf, hgI, if_true, out]
    rw [hN2]
    rfl
  refine ⟨out.1, hj, ?_, @Ready.grouped K _ _ (overflowArith rD) _ _ _ _ ⟨ds, none⟩ P.holds P.fits.nonneg ratio log 1 out ho N hN,
    @Ready.grouped K _ _ (roundedArith roundDouble) _ _ _ _ ⟨ds, none⟩ P.holds P.fits.nonneg ratio log 1 out hr87 N hN⟩
  simp only [out, GSet.groupAllLengths, hbuf, if_true]

/-- The answer is that of arithmetic that rounds, without bounds. -/
theorem answerI_eq [BandOps] {ratio : ℚ} (hr : 0 ≤ ratio) (h : Readable parse j st W file) (P : Prepared j st W file rows ds)
    (hm : m ≠ .sorensen ∧ m ≠ .cosine) (hs : m = .euclidean → LawfulSqrt K) {τ : K}
    (hband : ⌊BandOps.mul ratio ((linesOf j.content).length * W : ℕ)⌋ < 2 ^ 31) {z : GSet K} (hds : z.ds = ds)
    (hz : @Ready K _ _ (overflowArith rD) (rows.map (·.map fin)) (metricName m) (fin τ) false z)
    {i p e : ℕ} {r : List K} (hi : rows[i]? = some r) (hp : p < e) (he : e ≤ r.length)
    (hidx : j.index = i) (hstart : j.start = p) (hstop : j.stop = e) :
    j.answerI rD ratio z = @GSet.getBestMatch K _ (roundedArith roundDouble) _ ratio z ((sub r p e).map fin) := by
  obtain ⟨h1, h2⟩ := P.holds.view_points hi hp he
  obtain ⟨h3, h4⟩ := C91_access_partial ds _ P.holds P.fits i p e
  have hsz := h.size
  have hpos : 0 < file.length := List.length_pos_iff.2 h.has.some
  have hlines : file.length ≤ (linesOf j.content).length := by
    have := congrArg List.length h.has.numbers
    have h5 := firstLines_le j.maxNumRow j.content
    simp at this
    omega
  have hW1 : W ≤ (linesOf j.content).length * W := Nat.le_mul_of_pos_left W (by omega)
  have hlW : ds.maxCol ≤ W := by rw [P.width]; omega
  have hrl : (r.length : Int) ≤ ds.maxCol := by
    have := P.holds.fits i (r.map fin) (by rw [List.getElem?_map, hi]; rfl)
    simpa using this
  have hql : ((sub r p e).map (fin : K → Dbl K)).length = e - p := by rw [List.length_map, sub_length r p e he]
  have hlim : (linesOf j.content).length * W < lengthLimit (if m = .euclidean then .cascade else .warped m) := by
    split
    · exact hsz
    · exact lt_of_lt_of_le hsz (by unfold lengthLimit; norm_num)
  unfold Job.answerI
  rw [hidx, hstart, hstop, hds, h3, h1]
  simp only [bind, Except.bind]
  rw [(h4 _ h1).1, h2]
  refine C93_double_partial roundDouble roundDouble_rounding maxDouble (2 ^ 480) max_fixed one_le_max (by positivity)
    ((linesOf j.content).length * W) m hs (C87_double m hm _ (by norm_num; omega)) ratio hr z _ (fin τ) false hz (by rw [hds]; exact P.below)
    (by rw [hds]; exact P.size) hband hlim (by rw [hds]; exact P.fits) (by rw [hds]; omega) ?_ _ ?_ ?_ ?_
  · rw [hds]
    refine lt_of_le_of_lt (Int.floor_le_floor (BandOps.mono ratio _ _ hr ?_)) hband
    omega
  · exact map_below (fun x hx => (P.values r (List.mem_of_getElem? hi)).2 x (List.mem_of_mem_drop (List.mem_of_mem_take hx)))
  · rw [hql, hds]; omega
  · rw [hql]; omega

end

end Genex
