import Verif.Lemmas.MachineThreads
import Verif.Props.MachineRun

/-!
# C95: `int` of 32 bits in grouping with several threads

`groupMultiThreaded` with the integers of C91, in every interleaving of the workers.
-/

set_option linter.unusedSectionVars false

namespace Genex.Props

open Dbl Spec Genex.Registry

section

variable {K : Type} [Field K] [LinearOrder K] [HasSqrt K] [Arith K] (ds : Dataset K) (ratio : ℚ) (log : ℕ → Bool) (name : String) (t : Dbl K)
  (n : ℕ) (hn : 1 ≤ n) (whole : Bool) (gs : GSpace K)
include hn

/-- C95: however the workers interleave, several threads return, throw or overflow as one does; or a length is undefined, and then one
thread does not return either. -/
theorem C95_result (out : GSpace K × Res Int) (ho : GSpace.GroupMultiI ds ratio log name t n whole gs out) :
    out.2 = (GSpace.groupI ds ratio log name t whole gs).2 ∨
      (∃ w, out.2 = .error (.ub w)) ∧ ∃ e, (GSpace.groupI ds ratio log name t whole gs).2 = .error e := multiI_res hn ho

/-- C95: they return if and only if one thread does, and leave the same groups. -/
theorem C95_groups (out : GSpace K × Res Int) (ho : GSpace.GroupMultiI ds ratio log name t n whole gs out) (N : Int) :
    (out.2 = .ok N ↔ (GSpace.groupI ds ratio log name t whole gs).2 = .ok N) ∧
      (out.2 = .ok N → out = GSpace.groupI ds ratio log name t whole gs) := by
  have h2 := multiI_res hn ho
  have h1 : out.2 = .ok N → (GSpace.groupI ds ratio log name t whole gs).2 = .ok N := by
    intro h
    rw [h] at h2
    rcases h2 with h2 | ⟨⟨_, h2⟩, -⟩
    · exact h2.symm
    · cases h2
  refine ⟨⟨h1, fun h => ?_⟩, fun h => ?_⟩
  · rw [h] at h2
    rcases h2 with h2 | ⟨-, _, h2⟩
    · exact h2
    · cases h2
  · have h3 : GSpace.groupI ds ratio log name t whole gs = ((GSpace.groupI ds ratio log name t whole gs).1, .ok N) := by
      rw [← h1 h]
    rw [h3]
    exact multiI_eq hn h3 ho

/-- C95: and there is an outcome: some interleaving ends. -/
theorem C95_exists : ∃ out, GSpace.GroupMultiI ds ratio log name t n whole gs out := multiI_exists ds ratio log name t hn whole gs

/-- C95: every interleaving can be brought to its end. -/
theorem C95_finish (p : DistRef) (k m : ℕ) (is : List ℕ) (his : is.Nodup) (s : Pool.State n (Option (Running K) × Res ℕ))
    (hr : Pool.Run (groupTasksI ds ratio log p t) k (Pool.init n (fun _ => (none, .ok 0)) (groupOps is)) s m) :
    ∃ s' m', Pool.Run (groupTasksI ds ratio log p t) k (Pool.init n (fun _ => (none, .ok 0)) (groupOps is)) s' m' ∧ s'.owner = .done :=
  Pool.can_finish hn _ s _ k m le_rfl (Pool.inv_reach (Pool.inv_init (groupTasksI ds ratio log p t) (fun _ => (none, .ok 0)) (groupOps is)
    (by rw [Pool.enqs_ops]; exact his) (Pool.wf_ops is)) hr) hr

end

section

variable {K : Type} [Field K] [LinearOrder K] [IsStrictOrderedRing K] [HasSqrt K] [Arith K] [PairwiseEvals K]
  (ds : Dataset K) (rows : List (List (Dbl K)))

/-- C95: with data as in C91, no `int` overflows with several threads, whichever lengths log: what one thread with unbounded integers
groups, several threads with 32 bits group.  Missing: as in C91. -/
theorem C95_group_partial (H : Holds ds rows) (hI : Fits32 ds) (ratio : ℚ) (m : Metric) (t : Dbl K) (whole : Bool)
    (hw : whole = true → rows ≠ [] → 1 ≤ ds.maxCol) (log log' : ℕ → Bool)
    (hlog : ∀ ℓ, InRange ds.maxCol whole ℓ → log' ℓ = true →
      5 ≤ (ds.maxCol - ℓ + 1) * rows.length ∧ rows.length * (ds.maxCol - ℓ + 1) < 21474840)
    (htot : groupable ds.maxCol whole rows < 2 ^ 31) (gs g1 : GSpace K) (N : Int)
    (h : GSpace.group ds ratio log (metricName m) t whole gs = (g1, .ok N)) (n : ℕ) (hn : 1 ≤ n) (out : GSpace K × Res Int)
    (ho : GSpace.GroupMultiI ds ratio log' (metricName m) t n whole gs out) : out = (g1, .ok N) := by
  have hsame := C91_group_partial ds rows H hI ratio m t whole hw log' (fun ℓ k1 k2 => (hlog ℓ k1 k2).2) htot gs
  have hmem : ∀ i ∈ (gs.prepare ds (metricName m) t whole).1.lengths, log' i = log i ∨
      (log' i = true → 5 ≤ (ds.maxCol - i + 1) * ds.itemCount) := by
    intro i hi
    refine Or.inr fun hl => ?_
    rw [prepare_ok hI.nonneg] at hi
    have hr : InRange ds.maxCol whole i := (mem_lengths hI.nonneg (by simp only [prepared, List.length_replicate]; have := hI.nonneg; omega) i).1 hi
    rw [H.count]
    exact (hlog i hr hl).1
  obtain ⟨out', ho'⟩ := multi_exists ds ratio log' (metricName m) t hn whole gs
  have h1 := multi_eq hn h hmem ho'
  have h2 := multi_res hn ho'
  rw [h1] at h2
  replace h2 : .ok N = (GSpace.group ds ratio log' (metricName m) t whole gs).2 := by
    rcases h2 with h2 | ⟨_, h2, -⟩
    · exact h2
    · cases h2
  have h3 : GSpace.group ds ratio log' (metricName m) t whole gs = ((GSpace.group ds ratio log' (metricName m) t whole gs).1, .ok N) := by
    rw [Prod.ext_iff]
    exact ⟨rfl, h2.symm⟩
  have h4 := multi_eq hn h3 (fun _ _ => Or.inl rfl) ho'
  rw [h1] at h4
  rw [← h4] at h3
  rw [h3] at hsame
  exact multiI_eq hn hsame ho

end

section

variable {K : Type} [Field K] [LinearOrder K] [HasSqrt K] (r : Dbl K → Dbl K) (parse : Text → Parsed K) (j : Job K) [BandOps] (ratio : ℚ)
  (log : ℕ → Bool) (numThreads : Int) (hn : 1 ≤ numThreads)
include hn

/-- C95: whether a run from the file on (C94) answers, and what, does not depend on the number of threads nor on the interleaving. -/
theorem C95_run (res : Res (Cand K)) (h : j.Outcome r parse ratio log numThreads res) (a : Cand K) :
    res = .ok a ↔ j.runI r parse ratio log = .ok a := by
  suffices h2 : res = j.runI r parse ratio log ∨ (∃ e, res = .error e) ∧ ∃ e, j.runI r parse ratio log = .error e by
    rcases h2 with h2 | ⟨⟨e, h2⟩, e', h3⟩
    · rw [h2]
    · rw [h2, h3]
      constructor <;> intro h <;> cases h
  unfold Job.Outcome at h
  unfold Job.runI
  cases hd : j.dataI r parse with
  | error e =>
    rw [hd] at h
    exact Or.inl h
  | ok ds =>
    rw [hd] at h
    rw [show ((Except.ok ds : Res (Dataset K)) >>= fun ds => j.groupI r ratio log ds >>= fun z => j.answerI r ratio z) =
      (j.groupI r ratio log ds >>= fun z => j.answerI r ratio z) from rfl]
    obtain ⟨out, ⟨multi, hm, rfl⟩, rfl⟩ := h
    unfold Job.groupI GSet.groupAllLengths
    cases hdata : ds.data with
    | none => exact Or.inl rfl
    | some b =>
      simp only [if_true]
      by_cases h1 : numThreads = 1
      · rw [if_pos h1]
        simp only
        cases (@GSpace.groupI K _ _ (machineArith r) ds ratio log j.distance j.threshold j.whole GSpace.fresh).2 with
        | error e => exact Or.inl rfl
        | ok N => exact Or.inl rfl
      · rw [if_neg h1, if_pos (by omega)]
        simp only
        have ho := hm (by omega)
        have hnn : 1 ≤ numThreads.toNat := by omega
        have hres := @multiI_res K _ _ _ (machineArith r) ds ratio log j.distance j.threshold _ hnn j.whole _ _ ho
        rcases hres with hres | ⟨⟨w, hw⟩, e, he⟩
        · cases hg : (@GSpace.groupI K _ _ (machineArith r) ds ratio log j.distance j.threshold j.whole GSpace.fresh).2 with
          | error e => rw [hres, hg]; exact Or.inl rfl
          | ok N =>
            rw [hg] at hres
            have := (@C95_groups K _ _ _ (machineArith r) ds ratio log j.distance j.threshold _ hnn j.whole _ _ ho N).2 hres
            rw [this, hg]
            exact Or.inl rfl
        · rw [hw, he]
          exact Or.inr ⟨⟨_, rfl⟩, _, rfl⟩

/-- C95: and it ends in some way. -/
theorem C95_run_exists : ∃ res, j.Outcome r parse ratio log numThreads res := by
  unfold Job.Outcome
  cases hd : j.dataI r parse with
  | error e => exact ⟨_, rfl⟩
  | ok ds =>
    by_cases h1 : 1 < numThreads
    · obtain ⟨multi, hm⟩ := @multiI_exists K _ _ _ (machineArith r) ds ratio log j.distance j.threshold numThreads.toNat (by omega) j.whole
        GSpace.fresh
      exact ⟨_, _, ⟨multi, fun _ => hm, rfl⟩, rfl⟩
    · exact ⟨_, _, ⟨(GSpace.fresh, .ok 0), fun h => absurd h h1, rfl⟩, rfl⟩

end

/-! ## Examples -/

example := C95_result exData (1 / 10) (fun _ => false) "manhattan" (fin 10) 4 (by decide) false GSpace.fresh
example := C95_groups exData (1 / 10) (fun _ => false) "manhattan" (fin 10) 4 (by decide) false GSpace.fresh
example := C95_exists exData (1 / 10) (fun _ => false) "manhattan" (fin 10) 4 (by decide) false GSpace.fresh
example := C95_finish exData (1 / 10) (fun _ => false) (fin 10) 4 (by decide) (.pairwise .manhattan) 0 0 [2, 3] (by decide) _ (.refl _)

/-- Four threads, three groups. -/
example (out : GSpace ℚ × Res Int) (h : GSpace.GroupMultiI exData (1 / 10) (fun _ => false) "manhattan" (fin 10) 4 false GSpace.fresh out) :
    out.2 = .ok 3 := by
  rw [(C95_groups exData (1 / 10) (fun _ => false) "manhattan" (fin 10) 4 (by decide) false GSpace.fresh out h 3).1]
  decide +kernel

example := C95_group_partial exData _ exData_holds exData_fits (1 / 10) .manhattan (fin 10) false (by simp) (fun _ => true) (fun _ => false) (by simp)
  (by decide +kernel) GSpace.fresh

/-- The file of C94 with four threads. -/
example (res : Res (Cand ℚ)) (h : (exJob true).Outcome (rndMax roundDouble maxDouble) exParse (1 / 2) (fun _ => false) 4 res) :
    res = .ok ⟨⟨0, 0, 0, 2⟩, fin 0⟩ := by
  rw [C95_run _ _ _ _ _ 4 (by decide) res h]
  decide +kernel

example := C95_run_exists (rndMax roundDouble maxDouble) exParse (exJob true) (1 / 2) (fun _ => false) 4 (by decide)

end Genex.Props
