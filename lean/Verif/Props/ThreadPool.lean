import Verif.Props.Group

/-!
# C31, C32: the thread pool and multi-threaded grouping
-/

set_option linter.unusedSectionVars false

namespace Genex.Props

open Dbl Spec

/-! ## C32 -/

section pool

variable {n : ℕ} {S : Type}

/-- C32, at the end: when the destructor has returned, every worker has exited, the queue is empty, and every task that was
enqueued has run to its end exactly once: it is in `finished` once, its slot has received all its updates in order, each once,
and no other slot has changed.  Unless an exception stopped the owner, these are all the tasks of the program. -/
theorem C32_once (P : Pool.Tasks S) (slot : ℕ → S) (ops : List Pool.Op) (hd : (Pool.enqs ops).Nodup) (hw : Pool.WfOps [] ops)
    (hn : 1 ≤ n) (k m : ℕ) (s : Pool.State n S) (hr : Pool.Run P k (Pool.init n slot ops) s m) (hdone : s.owner = .done) :
    (∀ w, s.workers w = .exited) ∧ s.queue = [] ∧ s.finished.Nodup ∧ (∀ t, t ∈ s.finished ↔ t ∈ s.enqueued) ∧
      (∀ t, s.slot t = if t ∈ s.enqueued then (P.prog t).foldl (fun x f => f x) (slot t) else slot t) ∧
      (s.exc = none → s.enqueued = Pool.enqs ops) := by
  have I := Pool.inv_reach (Pool.inv_init (n := n) P slot ops hd hw) hr
  obtain ⟨hq, hst, hfin, hnd⟩ := I.final hn hdone
  refine ⟨I.done hdone, hq, I.finNodup, fun t => hfin.mem_iff, ?_, ?_⟩
  · intro t
    split
    · rename_i h
      exact (I.fin t (hfin.mem_iff.2 h)).2
    · rename_i h
      exact I.idle t (by rw [hst]; exact h)
  · intro he
    have := I.full he
    rw [hdone] at this
    simpa [Pool.Owner.ops, Pool.enqs] using this

/-- C32, on the way: as long as the destructor has not returned, some step other than a spurious wake-up is possible. -/
theorem C32_progress (P : Pool.Tasks S) (slot : ℕ → S) (ops : List Pool.Op) (hd : (Pool.enqs ops).Nodup)
    (hw : Pool.WfOps [] ops) (hn : 1 ≤ n) (k m : ℕ) (s : Pool.State n S) (hr : Pool.Run P k (Pool.init n slot ops) s m)
    (hdone : s.owner ≠ .done) : ∃ s', Pool.Step P false s s' :=
  Pool.progress hn (Pool.inv_reach (Pool.inv_init (n := n) P slot ops hd hw) hr) hdone

/-- C32, termination: there is a bound on the number of steps, three more for every spurious wake-up.  So a schedule with
finitely many spurious wake-ups that never stops while a step is possible ends, with the destructor returning. -/
theorem C32_terminates (P : Pool.Tasks S) (slot : ℕ → S) (ops : List Pool.Op) :
    ∃ B, ∀ (k m : ℕ) (s : Pool.State n S), Pool.Run P k (Pool.init n slot ops) s m → m ≤ B + 3 * k := by
  refine ⟨(Pool.init n slot ops : Pool.State n S).weight P, ?_⟩
  intro k m s hr
  have := Pool.weight_run hr
  omega

/-- C32: from every reachable state the end can be reached without any spurious wake-up. -/
theorem C32_can_finish (P : Pool.Tasks S) (slot : ℕ → S) (ops : List Pool.Op) (hd : (Pool.enqs ops).Nodup)
    (hw : Pool.WfOps [] ops) (hn : 1 ≤ n) (k m : ℕ) (s : Pool.State n S) (hr : Pool.Run P k (Pool.init n slot ops) s m) :
    ∃ s' m', Pool.Run P k (Pool.init n slot ops) s' m' ∧ s'.owner = .done :=
  Pool.can_finish hn _ s _ k m le_rfl (Pool.inv_reach (Pool.inv_init (n := n) P slot ops hd hw) hr) hr

/-- C32: no task is run by two workers at once, and a running task is not one that has already been run. -/
theorem C32_exclusive (P : Pool.Tasks S) (slot : ℕ → S) (ops : List Pool.Op) (hd : (Pool.enqs ops).Nodup)
    (hw : Pool.WfOps [] ops) (k m : ℕ) (s : Pool.State n S) (hr : Pool.Run P k (Pool.init n slot ops) s m) (w : Fin n) (t : ℕ)
    (r : List (S → S)) (h : s.workers w = .running t r) :
    t ∉ s.finished ∧ ∀ w' r', s.workers w' = .running t r' → w' = w := by
  have I := Pool.inv_reach (Pool.inv_init (n := n) P slot ops hd hw) hr
  exact ⟨(I.run w t r h).2.1, fun w' r' h' => I.runInj w' w t r' r h' h⟩

/-- Two tasks, the first of two updates; enqueue both, then wait for both. -/
def exTasks : Pool.Tasks ℕ := { prog := fun t => if t = 5 then [(· + 1), (· * 10)] else [(· + 7)], fut := fun x => .ok x }

def exOps : List Pool.Op := [.enqueue 5, .enqueue 9, .get 5, .get 9]

theorem exOps_nodup : (Pool.enqs exOps).Nodup := by decide

theorem exOps_wf : Pool.WfOps [] exOps := by
  refine ⟨?_, ?_, trivial⟩ <;> simp

/-- Two workers can finish them; then the slots are 10 and 7. -/
example : ∃ (s : Pool.State 2 ℕ) (m : ℕ), Pool.Run exTasks 0 (Pool.init 2 (fun _ => 0) exOps) s m ∧ s.owner = .done ∧
    (s.exc = none → s.slot 5 = 10 ∧ s.slot 9 = 7) := by
  obtain ⟨s, m, hr, hd⟩ := C32_can_finish exTasks (fun _ => 0) exOps exOps_nodup exOps_wf (n := 2) (by decide) 0 0 _ (.refl _)
  obtain ⟨-, -, -, -, hs, he⟩ := C32_once exTasks (fun _ => 0) exOps exOps_nodup exOps_wf (by decide) _ _ s hr hd
  refine ⟨s, m, hr, hd, fun h => ?_⟩
  have := he h
  rw [hs 5, hs 9, this]
  simp [exOps, Pool.enqs, exTasks]

example := C32_progress exTasks (fun _ => 0) exOps exOps_nodup exOps_wf (n := 3) (by decide) 0 0 _ (.refl _) (by simp [Pool.init])
example := C32_terminates exTasks (fun _ => 0) exOps (n := 3)
example := C32_exclusive exTasks (fun _ => 0) exOps exOps_nodup exOps_wf (n := 3) 0 0 _ (.refl _)

end pool

/-! ## C31 -/

section

variable {K : Type} [Field K] [LinearOrder K] [HasSqrt K]

/-- C31: if one thread groups the dataset with result `(s1, N)`, then so do `n` threads, under every schedule of the workers
(spurious wake-ups included) and every clock that does not divide by zero; and such a run exists.  `log` and `log'` are the
clocks of the two runs. -/
theorem C31_same (s : GSet K) [BandOps] (ratio : ℚ) (name : String) (t : Dbl K) (whole : Bool) (log log' : ℕ → Bool) (s1 : GSet K) (N : Int)
    (h1 : GSet.GroupAll ratio log name t whole 1 s (s1, .ok N)) (hmax : 0 ≤ s.ds.maxCol)
    (hlog : ∀ ℓ, InRange s.ds.maxCol whole ℓ → log' ℓ = log ℓ ∨
      (log' ℓ = true → 5 ≤ (s.ds.maxCol - ℓ + 1) * s.ds.itemCount)) (numThreads : Int) (hn : 1 < numThreads) :
    (∃ out, GSet.GroupAll ratio log' name t whole numThreads s out) ∧
      ∀ out, GSet.GroupAll ratio log' name t whole numThreads s out → out = (s1, .ok N) := by
  refine ⟨groupAll_exists s ratio log' name t whole numThreads, ?_⟩
  intro out ho
  rcases groupAll_cases h1 with ⟨e, he⟩ | ⟨_, he, -⟩ | ⟨-, hd, h2, h3⟩
  · cases he
  · cases he
  have h3 := h3 N rfl
  obtain ⟨multi, hm, rfl⟩ := ho
  have hname : ∃ m, name = metricName m := by
    rcases loadDistance_name (name := name) (gs := ({ GSpace.fresh with spaces := [] } : GSpace K)) with h | ⟨e, he⟩
    · exact h
    · exfalso
      unfold GSpace.group GSpace.prepare at h2
      simp only [he] at h2
      cases h2
  obtain ⟨m, rfl⟩ := hname
  have := multi_eq (n := numThreads.toNat) (by omega) (Prod.ext rfl h2.symm) (fun i hi => hlog i (by
    rw [prepare_ok hmax] at hi
    exact (mem_lengths (maxCol := s.ds.maxCol) hmax (by
      simp only [prepared, List.length_replicate]; omega) i).1 hi)) (hm hn)
  unfold GSet.groupAllLengths
  cases hdata : s.ds.data with
  | none => exact absurd hdata hd
  | some x =>
    simp only
    rw [if_neg (by omega), if_pos hn, this, h3]

/-- C31: with the same clock, several threads also throw what one thread throws; or a task is undefined, and then one thread does not
return either. -/
theorem C31_exception (s : GSet K) [BandOps] (ratio : ℚ) (name : String) (t : Dbl K) (whole : Bool) (log : ℕ → Bool) (numThreads : Int)
    (hn : 1 < numThreads) (out1 out : GSet K × Res Int) (h1 : GSet.GroupAll ratio log name t whole 1 s out1)
    (h : GSet.GroupAll ratio log name t whole numThreads s out) :
    out.2 = out1.2 ∨ (∃ w, out.2 = .error (.ub w)) ∧ ∃ e, out1.2 = .error e := by
  obtain ⟨multi, hm, rfl⟩ := h
  obtain ⟨-, -, rfl⟩ := h1
  have := multi_res (n := numThreads.toNat) (by omega) (hm hn)
  unfold GSet.groupAllLengths
  cases hdata : s.ds.data with
  | none => exact Or.inl rfl
  | some x =>
    simp only
    rw [if_neg (by omega), if_pos hn, if_pos trivial]
    exact this.imp_right (fun ⟨w, hw, h⟩ => ⟨⟨w, hw⟩, h.fails⟩)

end

/-- Four threads group the example as one does, whatever the schedule; no length may log, all having fewer than five places. -/
example : ∀ out, GSet.GroupAll (1 / 10) (fun _ => false) "manhattan" (fin 10) false 4 exSet out → out = exGrouped := by
  have h : exGrouped = (exGrouped.1, .ok 3) := Prod.ext rfl exGrouped_ok
  have h1 := exGrouped_run
  rw [h] at h1
  rw [h]
  exact (C31_same exSet _ _ _ _ _ (fun _ => false) _ 3 h1 exSet_max (by simp) 4 (by decide)).2

example := C31_exception exSet (1 / 10) "nonsense" (fin 10) false (fun _ => false) 4 (by decide)

end Genex.Props
