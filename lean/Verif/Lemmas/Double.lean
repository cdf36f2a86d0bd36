import Verif.Spec.Double
import Verif.Lemmas.EndToEnd
import Verif.Props.Overflow

set_option linter.unusedSectionVars false

/-! Lemmas on datasets loaded, normalised and grouped in arithmetic that rounds and overflows (for C88). -/

namespace Genex.Registry

open Genex.Api Genex.Props

variable {K : Type} [Field K] [LinearOrder K] [IsStrictOrderedRing K] [HasSqrt K] [A : Arith K] [BandOps] {rd : K → K} {u θ X B : K}

theorem sub_below (hr : Spec.Rounding rd) (hBX : rd (2 * B) ≤ X) {x y : K} (hx : |x| ≤ B) (hy : |y| ≤ B) : |rd (x - y)| ≤ X := by
  obtain ⟨h1, h2⟩ := abs_le.1 hx
  obtain ⟨h3, h4⟩ := abs_le.1 hy
  rw [abs_le]
  constructor
  · have := hr.mono (-(2 * B)) (x - y) (by linarith)
    rw [hr.neg] at this
    linarith
  · exact le_trans (hr.mono _ _ (by linarith)) hBX

/-- Scaled rows are numbers of the format, in range. -/
theorem scaled_sized {rd : K → K} {B : K} (hr : Spec.Rounding rd) (h1 : rd 1 = 1) (hB : 1 ≤ B) {raw : List (List K)} {lo hi : K}
    (hlo : IsLeast {x | ∃ r ∈ raw, x ∈ r} lo) (hhi : IsGreatest {x | ∃ r ∈ raw, x ∈ r} hi) :
    Sized rd B (raw.map (·.map (fun x => if lo = hi then 0 else rd (rd (x - lo) / rd (hi - lo))))) := by
  intro r hr'
  obtain ⟨r0, hr0, rfl⟩ := List.mem_map.1 hr'
  have key : ∀ x ∈ r0, rd (scaleR rd lo hi x) = scaleR rd lo hi x ∧ |scaleR rd lo hi x| ≤ B := by
    intro x hx
    have hle : lo ≤ x ∧ x ≤ hi := ⟨hlo.2 ⟨r0, hr0, hx⟩, hhi.2 ⟨r0, hr0, hx⟩⟩
    unfold scaleR
    by_cases hd : lo = hi
    · rw [if_pos hd, abs_zero]
      exact ⟨hr.zero, by linarith⟩
    · rw [if_neg hd]
      refine ⟨hr.idem _, ?_⟩
      have a0 : 0 ≤ rd (x - lo) := hr.nonneg (sub_nonneg.2 hle.1)
      have a1 : rd (x - lo) ≤ rd (hi - lo) := hr.mono _ _ (by linarith [hle.2])
      have b0 : 0 ≤ rd (x - lo) / rd (hi - lo) := div_nonneg a0 (le_trans a0 a1)
      rw [abs_of_nonneg (hr.nonneg b0)]
      refine le_trans ?_ hB
      rw [← h1]
      exact hr.mono _ _ (div_le_one_of_le₀ a1 (le_trans a0 a1))
  refine ⟨fun y hy => ?_, fun y hy => ?_⟩
  · obtain ⟨x, hx, rfl⟩ := List.mem_map.1 hy
    exact (key x hx).1
  · obtain ⟨x, hx, rfl⟩ := List.mem_map.1 hy
    exact (key x hx).2

theorem Serves.data (hA : A = overflowArith (rndMax rd X)) (hp : Spec.FloatOps rd u θ) (hu : u ≤ 1 / 5) (h1 : rd 1 = 1) (hX : rd X = X)
    (hX1 : 1 ≤ X) (hB : 1 ≤ B) (hBX : rd (2 * B) ≤ X) {E : Env K} {name : String} {R W : ℕ} {file rows : List (List K)} {s : Api K}
    (hf : Sized rd B file) (h : Serves E rd name R W file rows s) :
    Inv s ∧ Sized rd B rows ∧ ∃ g, Holds s name g ∧ Spec.Holds g.ds (rows.map (·.map .fin)) ∧ 0 ≤ g.ds.maxCol ∧ g.ds.maxCol ≤ W ∧
      Spec.DataBelow B g.ds ∧ Spec.DataSize (R * W) g.ds := by
  have hr := hp.toRounding
  induction h with
  | @loaded h0 h' s0 s₁ s' content path sep maxNumRow startCol hasName o hb has hlines hwide hl ha hk =>
    have hI := inv_history inv_fresh hb
    have hI₁ : Inv s₁ := inv_step hI (c := .call _) hl
    refine ⟨inv_history hI₁ ha, hf, ?_⟩
    obtain ⟨ds, e, H, -, -, -⟩ := load_holds E.parse content path maxNumRow startCol sep hasName (file.map (·.map .fin))
      (by
        have := has.numbers
        unfold readVals
        rw [this]
        simp [List.map_map, Function.comp_def]) has.reach
    have hbelow := load_below (parse := E.parse) (B := B) (by linarith) (sep := sep) (content := content) (path := path) (n := maxNumRow)
      (st := startCol) (nm := hasName) (ds := Dataset.fresh) (R := R) (W := W) (by
        intro l hl t ht x hx
        have hm : ((Spec.columns sep l).drop (Spec.valueCol startCol hasName)).map E.parse ∈
            (Spec.firstLines maxNumRow content).map (fun l => ((Spec.columns sep l).drop (Spec.valueCol startCol hasName)).map E.parse) :=
          List.mem_map.2 ⟨l, hl, rfl⟩
        rw [has.numbers] at hm
        obtain ⟨r, hr', e⟩ := List.mem_map.1 hm
        have hx' : E.parse t ∈ r.map (fun x => Parsed.val (Dbl.fin x)) := by
          rw [e]
          exact List.mem_map.2 ⟨t, ht, rfl⟩
        obtain ⟨y, hy, ey⟩ := List.mem_map.1 hx'
        rw [hx, Parsed.val.injEq] at ey
        exact ⟨y, ey.symm, (hf r hr').2 y hy⟩) hlines hwide
    rw [e] at hbelow
    simp only [exec] at hl
    split at hl
    · cases hl
    split at hl
    · cases hl
    · cases hl
    have hhold : Holds s₁ name ⟨ds, none⟩ := by
      cases hl
      refine (hI₁.holds).2 ⟨s0.heap.length, ?_, ?_⟩
      · simp [mapFind_mapSet]
      · rw [deref_some]; simp [e]
    obtain ⟨g', hg', hd'⟩ := data_history hI₁ ha hk hhold
    refine ⟨g', hg', by rw [hd']; exact H, ?_, by rw [hd']; exact hbelow.2.2 rfl, by rw [hd']; exact hbelow.1, by rw [hd']; exact hbelow.2.1⟩
    rw [hd']
    obtain ⟨r, hr⟩ := List.exists_mem_of_ne_nil _ has.some
    obtain ⟨i, hi⟩ := List.mem_iff_getElem?.1 hr
    have := H.fits i (r.map .fin) (by rw [List.getElem?_map, hi]; rfl)
    exact le_trans (Int.natCast_nonneg _) this
  | @normalised raw rows h s s₁ s' o hs hn hsc ha hk ih =>
    obtain ⟨hI, hraw, g, hg, H, hmax0, hmaxW, hdB, hdL⟩ := ih
    have hI₁ : Inv s₁ := inv_step hI (c := .call _) hn
    obtain ⟨lo, hi, hlo, hhi, rfl⟩ := hsc
    have hne : ∃ r ∈ raw, r ≠ [] := by
      obtain ⟨r, hr, hx⟩ := hlo.1
      exact ⟨r, hr, fun e => by rw [e] at hx; cases hx⟩
    have hfl : ∀ r ∈ raw, Spec.Floats rd r := fun r hr => (hraw r hr).1
    have hnorm : A.normalize g.ds = g.ds.normalizeR rd := by
      rw [hA]
      exact (C87_normalize_partial rd hr X hX hX1 h1 g.ds raw H
        (fun r hr' x hx r' hr'' y hy => sub_below hr hBX ((hraw r hr').2 x hx) ((hraw r' hr'').2 y hy))).1
    obtain ⟨ds', lo', hi', e, hlo', hhi', H', -, -⟩ := normalizeR_run rd u θ hp hu g.ds raw H hne hfl
    obtain rfl := hlo.unique hlo'
    obtain rfl := hhi.unique hhi'
    obtain ⟨f, Hf, hf01, -⟩ := C78_range_partial rd u θ hp hu g.ds raw H hne hfl h1 ds' _ e
    obtain ⟨_, _, _, e', _, _, _, _, _, _, hmax⟩ := normalizeR_ok hr (hp.sub_ne (by linarith)) H (by
      obtain ⟨r, hr, hx⟩ := hlo.1
      exact ⟨lo, r, hr, hx⟩) hfl
    rw [e] at e'
    cases e'
    obtain ⟨hb1, hb2⟩ := normalizeR_below hr h1 hB H hdB hdL e
    have hhold : Holds s₁ name ⟨ds', g.groups⟩ := by
      obtain ⟨id, k1, k2⟩ := hI.holds.1 hg
      simp only [exec] at hn
      rw [withSet_some k1 k2, hnorm, e] at hn
      cases hn
      exact holds_self_store k1 k2
    obtain ⟨g', hg', hd'⟩ := data_history hI₁ ha hk hhold
    refine ⟨inv_history hI₁ ha, ?_, g', hg', ?_, ?_, ?_, ?_, ?_⟩
    · exact scaled_sized hr h1 hB hlo hhi
    · rw [hd', List.map_map]
      have : (fun r : List K => r.map (fun x => (Dbl.fin (scaleR rd lo hi x) : Dbl K))) =
          (fun r => r.map Dbl.fin) ∘ (fun r => r.map (fun x => if lo = hi then 0 else rd (rd (x - lo) / rd (hi - lo)))) := by
        funext r
        simp [Function.comp_def, scaleR]
      rw [← this]
      exact H'
    · rw [hd', hmax]; exact hmax0
    · rw [hd', hmax]; exact hmaxW
    · rw [hd']; exact hb1
    · rw [hd']; exact hb2

/-- What is known of the dataset after grouping. -/
theorem GroupedOn.data (hA : A = overflowArith (rndMax rd X)) (hr : Spec.Rounding rd) (hX : rd X = X) (hX1 : 1 ≤ X) (hB : 0 ≤ B) {L : ℕ}
    {m : Metric} (hs : m = .euclidean → LawfulSqrt K) (hN : Spec.NoOverflow rd X B (2 * L) m) {E : Env K} {P : Api K → Prop} {name : String}
    {t : Dbl K} {whole : Bool} {rows : List (List K)} {W : ℕ}
    (hP : ∀ s, P s → Inv s ∧ ∃ g, Holds s name g ∧ Spec.Holds g.ds (rows.map (·.map .fin)) ∧ 0 ≤ g.ds.maxCol ∧ g.ds.maxCol ≤ W ∧
      Spec.DataBelow B g.ds ∧ Spec.DataSize L g.ds) {s : Api K} (h : GroupedOn E P name (metricName m) t whole s) :
    Inv s ∧ ∃ z gs, Holds s name z ∧ z.groups = some gs ∧
      @Spec.Ready K _ _ (roundedArith rd) (rows.map (·.map .fin)) (metricName m) t whole z ∧ z.ds.maxCol ≤ W ∧
      Spec.DataBelow B z.ds ∧ Spec.DataSize L z.ds ∧ Spec.CentroidsBelow B L gs ∧ ∀ w, gs.warped = some w → Spec.metricOf w = m := by
  obtain @⟨h3, s2, s3, _, nt, o, hl, hg, ha, hk⟩ := h
  obtain ⟨hI, g, hh, H, hmax0, hmaxW, hdB, hdL⟩ := hP s2 hl
  have hI₁ : Inv s3 := inv_step hI hg
  obtain ⟨id, k1, k2⟩ := hI.holds.1 hh
  simp only [Step, GroupCall, k1, k2] at hg
  obtain ⟨log, out, ho, rfl, hr'⟩ := hg
  refine ⟨inv_history hI₁ ha, ?_⟩
  cases e : out.2 with
  | error f => rw [e] at hr'; cases hr'
  | ok N =>
    rw [hA] at ho
    have c := C87_group_partial rd hr X B hX hX1 hB L m hs hN s2.ratio g hdB hdL t whole log nt out N e
    obtain ⟨gs, hout, hcb, hw⟩ := c.2 ho
    have hready := @Spec.Ready.grouped K _ _ (roundedArith rd) (rows.map (·.map .fin)) (metricName m) t whole g H hmax0 s2.ratio log nt out
      (c.1.1 ho) N e
    refine ⟨out.1, gs, (kept_history hI₁ ha hk out.1).1 (holds_self_store k1 k2), by rw [hout], hready, ?_, ?_, ?_, hcb, hw⟩ <;> rw [hout]
    · exact hmaxW
    · exact hdB
    · exact hdL

end Genex.Registry
