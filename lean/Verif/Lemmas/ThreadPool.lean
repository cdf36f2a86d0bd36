import Mathlib.Algebra.BigOperators.Group.Finset.Basic
import Mathlib.Algebra.Order.BigOperators.Group.Finset
import Mathlib.Data.Fintype.BigOperators
import Verif.Spec.Pool

/-! The thread pool: invariant, progress, bound on the number of steps. -/

set_option linter.unusedSectionVars false

namespace Genex.Pool

variable {n : ℕ} {S : Type}

def Owner.ops : Owner → List Op
  | .op ops => ops
  | .push t ops => .enqueue t :: ops
  | .notify ops => ops
  | _ => []

/-- Still before the destructor has set `stop`. -/
def Owner.early : Owner → Bool
  | .op _ => true
  | .push _ _ => true
  | .notify _ => true
  | .setStop => true
  | _ => false

def Owner.locks : Owner → Bool
  | .push _ _ => true
  | .setStop => true
  | _ => false

/-- Sum and exception that the operations produce, given the final states of the tasks. -/
def drain (val : ℕ → Res ℕ) : List Op → Int → Int × Option Fault
  | [], acc => (acc, none)
  | .enqueue _ :: ops, acc => drain val ops acc
  | .get t :: ops, acc =>
    match val t with
    | .ok k => drain val ops (acc + k)
    | .error e => (acc, some e)

structure Inv (P : Tasks S) (slot0 : ℕ → S) (ops0 : List Op) (s : State n S) : Prop where
  lockW : ∀ w, s.workers w = .hold → s.lock = some (.worker w)
  holdW : ∀ w, s.lock = some (.worker w) → s.workers w = .hold
  lockO : s.owner.locks = true ↔ s.lock = some .owner
  stop : s.stop = !s.owner.early
  fifo : s.enqueued = s.started ++ s.queue
  fresh : (s.enqueued ++ enqs s.owner.ops).Nodup
  wf : WfOps s.enqueued s.owner.ops
  sub : ∀ t, t ∈ s.enqueued ++ enqs s.owner.ops → t ∈ enqs ops0
  full : s.exc = none → s.enqueued ++ enqs s.owner.ops = enqs ops0
  run : ∀ w t r, s.workers w = .running t r → t ∈ s.started ∧ t ∉ s.finished ∧
    r.foldl (fun x f => f x) (s.slot t) = P.final slot0 t
  runInj : ∀ w w' t r r', s.workers w = .running t r → s.workers w' = .running t r' → w = w'
  cover : ∀ t ∈ s.started, t ∈ s.finished ∨ ∃ w r, s.workers w = .running t r
  fin : ∀ t ∈ s.finished, t ∈ s.started ∧ s.slot t = P.final slot0 t
  finNodup : s.finished.Nodup
  idle : ∀ t, t ∉ s.started → s.slot t = slot0 t
  wake : s.queue ≠ [] → (∃ w, s.workers w ≠ .waiting ∧ s.workers w ≠ .exited) ∨ (∃ ops, s.owner = .notify ops) ∨ n = 0
  exited : ∀ w, s.workers w = .exited → s.stop = true ∧ s.queue = []
  awake : ∀ k, s.owner = .join k → k ≤ n ∧ (∀ w : Fin n, s.workers w ≠ .waiting) ∧ ∀ w : Fin n, w.1 < k → s.workers w = .exited
  done : s.owner = .done → ∀ w, s.workers w = .exited
  result : s.exc = none → drain (fun t => P.fut (P.final slot0 t)) s.owner.ops s.acc =
    drain (fun t => P.fut (P.final slot0 t)) ops0 0
  resultE : ∀ e, s.exc = some e → s.owner.ops = [] ∧
    (s.acc, some e) = drain (fun t => P.fut (P.final slot0 t)) ops0 0

theorem inv_init (P : Tasks S) (slot0 : ℕ → S) (ops0 : List Op) (hn : (enqs ops0).Nodup) (hw : WfOps [] ops0) :
    Inv P slot0 ops0 (init n slot0 ops0) := by
  constructor <;> simp [init, Owner.locks, Owner.early, Owner.ops, hn, hw]

theorem enqs_sub_cons {t : ℕ} {ops : List Op} : enqs (.enqueue t :: ops) = t :: enqs ops := rfl

theorem put_workers (s : State n S) (w : Fin n) (x : Worker S) (w' : Fin n) :
    (s.put w x).workers w' = if w' = w then x else s.workers w' := by
  simp [State.put, Function.update_apply]

theorem Inv.stop_join {P : Tasks S} {slot0 : ℕ → S} {ops0 : List Op} {s : State n S} (I : Inv P slot0 ops0 s) {k : ℕ}
    (h : s.owner = .join k) : s.stop = true := by rw [I.stop, h]; rfl

theorem Inv.stop_done {P : Tasks S} {slot0 : ℕ → S} {ops0 : List Op} {s : State n S} (I : Inv P slot0 ops0 s)
    (h : s.owner = .done) : s.stop = true := by rw [I.stop, h]; rfl

/-- A worker that runs no task moves. -/
theorem Inv.move {P : Tasks S} {slot0 : ℕ → S} {ops0 : List Op} {s : State n S} (I : Inv P slot0 ops0 s) (w : Fin n)
    (x : Worker S) (l : Option (Holder n)) (ho : ∀ t r, s.workers w ≠ .running t r) (he : s.workers w ≠ .exited)
    (hx : ∀ t r, x ≠ .running t r)
    (hlW : ∀ w', (if w' = w then x else s.workers w') = .hold → l = some (.worker w'))
    (hhW : ∀ w', l = some (.worker w') → (if w' = w then x else s.workers w') = .hold)
    (hlO : l = some .owner ↔ s.lock = some .owner)
    (hwake : s.queue ≠ [] → x ≠ .waiting ∧ x ≠ .exited) (hexit : x = .exited → s.stop = true ∧ s.queue = [])
    (hwait : x = .waiting → s.stop = false) :
    Inv P slot0 ops0 { s.put w x with lock := l } := by
  have hput := put_workers s w x
  refine { I with lockW := ?_, holdW := ?_, lockO := ?_, run := ?_, runInj := ?_, cover := ?_, wake := ?_, exited := ?_,
                  awake := ?_, done := ?_ }
  · intro w' h
    simp only [hput] at h
    exact hlW w' h
  · intro w' h
    simp only [hput]
    exact hhW w' h
  · exact I.lockO.trans hlO.symm
  · intro w' t r h
    simp only [hput] at h
    split at h
    · exact absurd h (hx t r)
    · exact I.run w' t r h
  · intro w' w'' t r r' h h'
    simp only [hput] at h h'
    split at h
    · exact absurd h (hx t r)
    · split at h'
      · exact absurd h' (hx t r')
      · exact I.runInj w' w'' t r r' h h'
  · intro t ht
    rcases I.cover t ht with h | ⟨w', r, h⟩
    · exact Or.inl h
    · refine Or.inr ⟨w', r, ?_⟩
      simp only [hput]
      rw [if_neg]
      · exact h
      · rintro rfl; exact ho t r h
  · intro hq
    refine Or.inl ⟨w, ?_⟩
    simp only [hput, if_true]
    exact hwake hq
  · intro w' h
    simp only [hput] at h
    split at h
    · exact hexit h
    · exact I.exited w' h
  · intro k hk
    obtain ⟨h1, h2, h3⟩ := I.awake k hk
    refine ⟨h1, ?_, ?_⟩
    · intro w'
      simp only [hput]
      split
      · intro h
        have := I.stop_join hk
        rw [hwait h] at this
        cases this
      · exact h2 w'
    · intro w' hw'
      simp only [hput]
      split
      · subst w'
        exact absurd (h3 w hw') he
      · exact h3 w' hw'
  · intro hd
    exact absurd (I.done hd w) he

theorem inv_pop {P : Tasks S} {slot0 : ℕ → S} {ops0 : List Op} {s : State n S} (I : Inv P slot0 ops0 s) (w : Fin n)
    (t : ℕ) (q : List ℕ) (h : s.workers w = .hold) (hq : s.queue = t :: q) :
    Inv P slot0 ops0 { s.put w (.running t (P.prog t)) with lock := none, queue := q, started := s.started ++ [t] } := by
  have hput := put_workers s w (.running t (P.prog t))
  have hlock := I.lockW w h
  have hnd : (s.started ++ t :: q).Nodup := by
    have := I.fresh
    rw [I.fifo, hq] at this
    exact (List.nodup_append.1 this).1
  have htn : t ∉ s.started := by
    intro ht
    exact (List.nodup_append.1 hnd).2.2 t ht t (by simp) rfl
  have htf : t ∉ s.finished := fun h => htn (I.fin t h).1
  have hne : ∀ w', s.workers w' = .hold → w' = w := by
    intro w' h'
    have := I.lockW w' h'
    rw [hlock] at this
    simp only [Option.some.injEq, Holder.worker.injEq] at this
    exact this.symm
  refine { I with lockW := ?_, holdW := ?_, lockO := ?_, fifo := ?_, run := ?_, runInj := ?_, cover := ?_, fin := ?_,
                  idle := ?_, wake := ?_, exited := ?_, awake := ?_, done := ?_ }
  · intro w' h'
    simp only [hput] at h'
    split at h'
    · cases h'
    · exact absurd (hne w' h') ‹_›
  · intro w' h'; cases h'
  · exact I.lockO.trans (by simp [hlock])
  · simp [I.fifo, hq, State.put]
  · intro w' t' r h'
    simp only [hput] at h'
    split at h'
    · simp only [Worker.running.injEq] at h'
      obtain ⟨rfl, rfl⟩ := h'
      refine ⟨by simp, htf, ?_⟩
      simp only [State.put]
      rw [I.idle t htn]
      rfl
    · obtain ⟨h1, h2, h3⟩ := I.run w' t' r h'
      exact ⟨by simp [h1], h2, h3⟩
  · intro w' w'' t' r r' h1 h2
    simp only [hput] at h1 h2
    split at h1
    · simp only [Worker.running.injEq] at h1
      split at h2
      · subst w' w''; rfl
      · exact absurd (I.run w'' t' r' h2).1 (h1.1 ▸ htn)
    · split at h2
      · simp only [Worker.running.injEq] at h2
        exact absurd (I.run w' t' r h1).1 (h2.1 ▸ htn)
      · exact I.runInj w' w'' t' r r' h1 h2
  · intro t' ht'
    simp only [List.mem_append, List.mem_singleton] at ht'
    rcases ht' with ht' | rfl
    · rcases I.cover t' ht' with h' | ⟨w', r, h'⟩
      · exact Or.inl h'
      · refine Or.inr ⟨w', r, ?_⟩
        simp only [hput]
        rw [if_neg]
        · exact h'
        · rintro rfl; rw [h] at h'; cases h'
    · exact Or.inr ⟨w, P.prog t', by simp [hput]⟩
  · intro t' ht'
    obtain ⟨h1, h2⟩ := I.fin t' ht'
    exact ⟨by simp [h1], h2⟩
  · intro t' ht'
    simp only [List.mem_append, not_or] at ht'
    exact I.idle t' ht'.1
  · intro _
    exact Or.inl ⟨w, by simp [hput]⟩
  · intro w' h'
    simp only [hput] at h'
    split at h'
    · cases h'
    · have := (I.exited w' h').2
      rw [hq] at this; cases this
  · intro k hk
    obtain ⟨h1, h2, h3⟩ := I.awake k hk
    refine ⟨h1, ?_, ?_⟩
    · intro w'
      simp only [hput]
      split
      · simp
      · exact h2 w'
    · intro w' hw'
      simp only [hput]
      split
      · subst w'
        rw [h3 w hw'] at h; cases h
      · exact h3 w' hw'
  · intro hd
    rw [I.done hd w] at h; cases h

theorem inv_run {P : Tasks S} {slot0 : ℕ → S} {ops0 : List Op} {s : State n S} (I : Inv P slot0 ops0 s) (w : Fin n)
    (t : ℕ) (f : S → S) (r : List (S → S)) (h : s.workers w = .running t (f :: r)) :
    Inv P slot0 ops0 { s.put w (.running t r) with slot := Function.update s.slot t (f (s.slot t)) } := by
  have hput := put_workers s w (.running t r)
  obtain ⟨hst, hnf, hval⟩ := I.run w t _ h
  refine { I with lockW := ?_, holdW := ?_, run := ?_, runInj := ?_, cover := ?_, fin := ?_,
                  idle := ?_, wake := ?_, exited := ?_, awake := ?_, done := ?_ }
  · intro w' h'
    simp only [hput] at h'
    split at h'
    · cases h'
    · exact I.lockW w' h'
  · intro w' h'
    have := I.holdW w' h'
    simp only [hput]
    rw [if_neg]
    · exact this
    · rintro rfl; rw [h] at this; cases this
  · intro w' t' r' h'
    simp only [hput] at h'
    split at h'
    · simp only [Worker.running.injEq] at h'
      obtain ⟨rfl, rfl⟩ := h'
      refine ⟨hst, hnf, ?_⟩
      rw [← hval]
      simp
    · rename_i hne
      obtain ⟨h1, h2, h3⟩ := I.run w' t' r' h'
      refine ⟨h1, h2, ?_⟩
      rw [← h3]
      have : t' ≠ t := by rintro rfl; exact hne (I.runInj w' w t' _ _ h' h)
      simp [this]
  · intro w' w'' t' r1 r2 h1 h2
    simp only [hput] at h1 h2
    split at h1
    · simp only [Worker.running.injEq] at h1
      obtain ⟨rfl, rfl⟩ := h1
      split at h2
      · subst w' w''; rfl
      · subst w'; exact I.runInj _ _ _ _ _ h h2
    · split at h2
      · simp only [Worker.running.injEq] at h2
        obtain ⟨rfl, rfl⟩ := h2
        subst w''; exact I.runInj _ _ _ _ _ h1 h
      · exact I.runInj w' w'' t' r1 r2 h1 h2
  · intro t' ht'
    rcases I.cover t' ht' with h' | ⟨w', r', h'⟩
    · exact Or.inl h'
    · by_cases hw : w' = w
      · subst hw
        rw [h] at h'
        simp only [Worker.running.injEq] at h'
        obtain ⟨rfl, -⟩ := h'
        exact Or.inr ⟨w', r, by simp [hput]⟩
      · exact Or.inr ⟨w', r', by simp only [hput]; rw [if_neg hw]; exact h'⟩
  · intro t' ht'
    obtain ⟨h1, h2⟩ := I.fin t' ht'
    refine ⟨h1, ?_⟩
    have : t' ≠ t := by rintro rfl; exact hnf ht'
    simp only
    rw [Function.update_of_ne this]
    exact h2
  · intro t' ht'
    have : t' ≠ t := by rintro rfl; exact ht' hst
    simp only
    rw [Function.update_of_ne this]
    exact I.idle t' ht'
  · intro _
    exact Or.inl ⟨w, by simp [hput]⟩
  · intro w' h'
    simp only [hput] at h'
    split at h'
    · cases h'
    · exact I.exited w' h'
  · intro k hk
    obtain ⟨h1, h2, h3⟩ := I.awake k hk
    refine ⟨h1, ?_, ?_⟩
    · intro w'
      simp only [hput]
      split
      · simp
      · exact h2 w'
    · intro w' hw'
      simp only [hput]
      split
      · subst w'
        rw [h3 w hw'] at h; cases h
      · exact h3 w' hw'
  · intro hd
    rw [I.done hd w] at h; cases h

theorem inv_finish {P : Tasks S} {slot0 : ℕ → S} {ops0 : List Op} {s : State n S} (I : Inv P slot0 ops0 s) (w : Fin n)
    (t : ℕ) (h : s.workers w = .running t []) :
    Inv P slot0 ops0 { s.put w .acquire with finished := s.finished ++ [t] } := by
  have hput := put_workers s w .acquire
  obtain ⟨hst, hnf, hval⟩ := I.run w t _ h
  refine { I with lockW := ?_, holdW := ?_, run := ?_, runInj := ?_, cover := ?_, fin := ?_, finNodup := ?_,
                  wake := ?_, exited := ?_, awake := ?_, done := ?_ }
  · intro w' h'
    simp only [hput] at h'
    split at h'
    · cases h'
    · exact I.lockW w' h'
  · intro w' h'
    have := I.holdW w' h'
    simp only [hput]
    rw [if_neg]
    · exact this
    · rintro rfl; rw [h] at this; cases this
  · intro w' t' r' h'
    simp only [hput] at h'
    split at h'
    · cases h'
    · rename_i hne
      obtain ⟨h1, h2, h3⟩ := I.run w' t' r' h'
      have : t' ≠ t := by rintro rfl; exact hne (I.runInj w' w t' _ _ h' h)
      exact ⟨h1, by simp [h2, this], h3⟩
  · intro w' w'' t' r1 r2 h1 h2
    simp only [hput] at h1 h2
    split at h1
    · cases h1
    · split at h2
      · cases h2
      · exact I.runInj w' w'' t' r1 r2 h1 h2
  · intro t' ht'
    rcases I.cover t' ht' with h' | ⟨w', r', h'⟩
    · exact Or.inl (by simp [h'])
    · by_cases hw : w' = w
      · subst hw
        rw [h] at h'
        simp only [Worker.running.injEq] at h'
        obtain ⟨rfl, -⟩ := h'
        exact Or.inl (by simp)
      · exact Or.inr ⟨w', r', by simp only [hput]; rw [if_neg hw]; exact h'⟩
  · intro t' ht'
    simp only [List.mem_append, List.mem_singleton] at ht'
    rcases ht' with ht' | rfl
    · exact I.fin t' ht'
    · exact ⟨hst, hval⟩
  · simp only
    rw [List.nodup_append]
    refine ⟨I.finNodup, by simp, ?_⟩
    intro a ha b hb
    rw [List.mem_singleton] at hb
    subst hb
    rintro rfl; exact hnf ha
  · intro _
    exact Or.inl ⟨w, by simp [hput]⟩
  · intro w' h'
    simp only [hput] at h'
    split at h'
    · cases h'
    · exact I.exited w' h'
  · intro k hk
    obtain ⟨h1, h2, h3⟩ := I.awake k hk
    refine ⟨h1, ?_, ?_⟩
    · intro w'
      simp only [hput]
      split
      · simp
      · exact h2 w'
    · intro w' hw'
      simp only [hput]
      split
      · subst w'
        rw [h3 w hw'] at h; cases h
      · exact h3 w' hw'
  · intro hd
    rw [I.done hd w] at h; cases h

theorem inv_step {P : Tasks S} {slot0 : ℕ → S} {ops0 : List Op} {b : Bool} {s s' : State n S} (I : Inv P slot0 ops0 s)
    (h : Step P b s s') : Inv P slot0 ops0 s' := by
  cases h with
  | acquire _ w h hl =>
    refine I.move w .hold _ (by simp [h]) (by simp [h]) (by simp) ?_ ?_ (by simp [hl]) (by simp) (by simp) (by simp)
    · intro w' h'
      split at h'
      · subst w'; rfl
      · have := I.lockW w' h'; rw [hl] at this; cases this
    · intro w' h'
      simp only [Option.some.injEq, Holder.worker.injEq] at h'
      rw [if_pos h'.symm]
  | exit _ w h hs hq =>
    have hlock := I.lockW w h
    refine I.move w .exited none (by simp [h]) (by simp [h]) (by simp) ?_ (by simp) (by simp [hlock]) (by simp [hq])
      (by simp [hs, hq]) (by simp)
    intro w' h'
    split at h'
    · cases h'
    · have := I.lockW w' h'
      rw [hlock] at this
      simp only [Option.some.injEq, Holder.worker.injEq] at this
      exact absurd this.symm ‹_›
  | pop _ w t q h hq => exact inv_pop I w t q h hq
  | wait _ w h hs hq =>
    have hlock := I.lockW w h
    refine I.move w .waiting none (by simp [h]) (by simp [h]) (by simp) ?_ (by simp) (by simp [hlock]) (by simp [hq])
      (by simp) (by simp [hs])
    intro w' h'
    split at h'
    · cases h'
    · have := I.lockW w' h'
      rw [hlock] at this
      simp only [Option.some.injEq, Holder.worker.injEq] at this
      exact absurd this.symm ‹_›
  | spurious _ w h =>
    refine I.move w .acquire s.lock (by simp [h]) (by simp [h]) (by simp) ?_ ?_ Iff.rfl (by simp) (by simp) (by simp)
    · intro w' h'
      split at h'
      · cases h'
      · exact I.lockW w' h'
    · intro w' h'
      have := I.holdW w' h'
      rw [if_neg]
      · exact this
      · rintro rfl; rw [h] at this; cases this
  | run _ w t f r h => exact inv_run I w t f r h
  | finish _ w t h => exact inv_finish I w t h
  | lockEnqueue _ t ops h hl =>
    have e := I.result; have e' := I.resultE
    have hn : ∀ w, s.workers w ≠ .hold := fun w h' => by have := I.lockW w h'; rw [hl] at this; cases this
    have hst := I.stop; have hfr := I.fresh; have hwf := I.wf; have hsub := I.sub; have hfull := I.full
    simp only [h, Owner.ops, Owner.early] at e e' hst hfr hwf hsub hfull
    refine { I with lockW := fun w h' => absurd h' (hn w), holdW := ?_, lockO := ?_, stop := hst, fresh := hfr, wf := hwf,
                    sub := hsub, full := hfull, wake := ?_, awake := ?_, done := ?_, result := e, resultE := e' }
    · intro w h'; cases h'
    · simp [Owner.locks]
    · intro hq
      rcases I.wake hq with h' | ⟨ops, h'⟩ | h'
      · exact Or.inl h'
      · rw [h] at h'; cases h'
      · exact Or.inr (Or.inr h')
    · intro k h'; cases h'
    · intro h'; cases h'
  | push _ t ops h hs =>
    have e := I.result; have e' := I.resultE
    have hlock : s.lock = some .owner := I.lockO.1 (by rw [h]; rfl)
    have hn : ∀ w, s.workers w ≠ .hold := fun w h' => by have := I.lockW w h'; rw [hlock] at this; cases this
    have hst := I.stop; have hfr := I.fresh; have hwf := I.wf; have hsub := I.sub; have hfull := I.full
    simp only [h, Owner.ops, Owner.early, enqs, WfOps] at e e' hst hfr hwf hsub hfull
    refine { I with lockW := fun w h' => absurd h' (hn w), holdW := ?_, lockO := ?_, stop := hst, fifo := ?_, fresh := ?_,
                    wf := hwf, sub := ?_, full := ?_, wake := ?_, exited := ?_, awake := ?_, done := ?_, result := e, resultE := ?_ }
    · intro w h'; cases h'
    · simp [Owner.locks]
    · simp [I.fifo]
    · simpa [Owner.ops] using hfr
    · intro t' ht'
      exact hsub t' (by simpa [Owner.ops] using ht')
    · intro hx
      have := hfull hx
      simpa [Owner.ops] using this
    · intro _
      exact Or.inr (Or.inl ⟨ops, rfl⟩)
    · intro w h'
      have := (I.exited w h').1
      rw [hs] at this; cases this
    · intro k h'; cases h'
    · intro h'; cases h'
    · intro x hx
      have := (e' x hx).1
      cases this
  | pushStopped _ t ops h hs =>
    have hst := I.stop
    rw [hs, h] at hst
    cases hst
  | notifyOne _ ops w h hw =>
    have e := I.result; have e' := I.resultE
    have hst := I.stop; have hfr := I.fresh; have hwf := I.wf; have hsub := I.sub; have hfull := I.full
    have hlk := I.lockO
    simp only [h, Owner.ops, Owner.early, Owner.locks] at e e' hst hfr hwf hsub hfull hlk
    have J : Inv P slot0 ops0 { s.put w .acquire with lock := s.lock } := by
      refine I.move w .acquire s.lock (by simp [hw]) (by simp [hw]) (by simp) ?_ ?_ Iff.rfl (by simp) (by simp) (by simp)
      · intro w' h'
        split at h'
        · cases h'
        · exact I.lockW w' h'
      · intro w' h'
        have := I.holdW w' h'
        rw [if_neg]
        · exact this
        · rintro rfl; rw [hw] at this; cases this
    refine { J with lockO := hlk, stop := hst, fresh := hfr, wf := hwf, sub := hsub, full := hfull, wake := ?_, awake := ?_, done := ?_,
                    result := e, resultE := e' }
    · intro _
      exact Or.inl ⟨w, by simp [put_workers]⟩
    · intro k h'; cases h'
    · intro h'; cases h'
  | notifyNone _ ops h hw =>
    have e := I.result; have e' := I.resultE
    have hst := I.stop; have hfr := I.fresh; have hwf := I.wf; have hsub := I.sub; have hfull := I.full
    have hlk := I.lockO
    simp only [h, Owner.ops, Owner.early, Owner.locks] at e e' hst hfr hwf hsub hfull hlk
    refine { I with lockO := hlk, stop := hst, fresh := hfr, wf := hwf, sub := hsub, full := hfull, wake := ?_, awake := ?_, done := ?_,
                    result := e, resultE := e' }
    · intro _
      by_cases h0 : n = 0
      · exact Or.inr (Or.inr h0)
      · refine Or.inl ⟨⟨0, by omega⟩, hw _, ?_⟩
        intro h'
        have := (I.exited _ h').1
        rw [hst] at this; cases this
    · intro k h'; cases h'
    · intro h'; cases h'
  | getOk _ t ops k h hf hk =>
    have e := I.result; have e' := I.resultE
    have hst := I.stop; have hfr := I.fresh; have hwf := I.wf; have hsub := I.sub; have hfull := I.full
    have hlk := I.lockO
    rw [(I.fin t hf).2] at hk
    simp only [h, Owner.ops, Owner.early, Owner.locks, enqs, WfOps, drain, hk] at e e' hst hfr hwf hsub hfull hlk
    refine { I with lockO := hlk, stop := hst, fresh := hfr, wf := hwf.2, sub := hsub, full := hfull, wake := ?_, awake := ?_, done := ?_,
                    result := e, resultE := ?_ }
    · intro hq
      rcases I.wake hq with h' | ⟨ops, h'⟩ | h'
      · exact Or.inl h'
      · rw [h] at h'; cases h'
      · exact Or.inr (Or.inr h')
    · intro k h'; cases h'
    · intro h'; cases h'
    · intro x hx
      have := (e' x hx).1
      cases this
  | getThrow _ t ops e0 h hf hk =>
    have e := I.result; have e' := I.resultE
    have hst := I.stop; have hfr := I.fresh; have hwf := I.wf; have hsub := I.sub; have hfull := I.full
    have hlk := I.lockO
    rw [(I.fin t hf).2] at hk
    simp only [h, Owner.ops, Owner.early, Owner.locks, enqs, WfOps, drain, hk] at e e' hst hfr hwf hsub hfull hlk
    refine { I with lockO := hlk, stop := hst, fresh := ?_, wf := trivial, sub := ?_, full := ?_, wake := ?_, awake := ?_, done := ?_,
                    result := ?_, resultE := ?_ }
    · simp only [Owner.ops, enqs, List.append_nil]
      exact (List.nodup_append.1 hfr).1
    · intro t' ht'
      simp only [Owner.ops, enqs, List.append_nil] at ht'
      exact hsub t' (by simp [ht'])
    · intro hx; cases hx
    · intro hq
      rcases I.wake hq with h' | ⟨ops, h'⟩ | h'
      · exact Or.inl h'
      · rw [h] at h'; cases h'
      · exact Or.inr (Or.inr h')
    · intro k h'; cases h'
    · intro h'; cases h'
    · intro h'; cases h'
    · intro x hx
      simp only [Option.some.injEq] at hx
      subst hx
      refine ⟨rfl, ?_⟩
      cases hx : s.exc with
      | none => exact e hx
      | some y => have := (e' y hx).1; cases this
  | lockStop _ h hl =>
    have e := I.result; have e' := I.resultE
    have hn : ∀ w, s.workers w ≠ .hold := fun w h' => by have := I.lockW w h'; rw [hl] at this; cases this
    have hst := I.stop; have hfr := I.fresh; have hwf := I.wf; have hsub := I.sub; have hfull := I.full
    simp only [h, Owner.ops, Owner.early] at e e' hst hfr hwf hsub hfull
    refine { I with lockW := fun w h' => absurd h' (hn w), holdW := ?_, lockO := ?_, stop := hst, fresh := hfr, wf := hwf,
                    sub := hsub, full := hfull, wake := ?_, awake := ?_, done := ?_, result := e, resultE := fun x hx => ⟨rfl, (e' x hx).2⟩ }
    · intro w h'; cases h'
    · simp [Owner.locks]
    · intro hq
      rcases I.wake hq with h' | ⟨ops, h'⟩ | h'
      · exact Or.inl h'
      · rw [h] at h'; cases h'
      · exact Or.inr (Or.inr h')
    · intro k h'; cases h'
    · intro h'; cases h'
  | setStop _ h =>
    have e := I.result; have e' := I.resultE
    have hlock : s.lock = some .owner := I.lockO.1 (by rw [h]; rfl)
    have hn : ∀ w, s.workers w ≠ .hold := fun w h' => by have := I.lockW w h'; rw [hlock] at this; cases this
    have hst := I.stop; have hfr := I.fresh; have hwf := I.wf; have hsub := I.sub; have hfull := I.full
    simp only [h, Owner.ops, Owner.early] at e e' hst hfr hwf hsub hfull
    refine { I with lockW := fun w h' => absurd h' (hn w), holdW := ?_, lockO := ?_, stop := rfl, fresh := hfr, wf := hwf,
                    sub := hsub, full := hfull, wake := ?_, exited := ?_, awake := ?_, done := ?_, result := e, resultE := fun x hx => ⟨rfl, (e' x hx).2⟩ }
    · intro w h'; cases h'
    · simp [Owner.locks]
    · intro hq
      rcases I.wake hq with h' | ⟨ops, h'⟩ | h'
      · exact Or.inl h'
      · rw [h] at h'; cases h'
      · exact Or.inr (Or.inr h')
    · intro w h'
      have := (I.exited w h').1
      rw [hst] at this; cases this
    · intro k h'; cases h'
    · intro h'; cases h'
  | notifyAll _ h =>
    have e := I.result; have e' := I.resultE
    have hst := I.stop; have hfr := I.fresh; have hwf := I.wf; have hsub := I.sub; have hfull := I.full
    have hlk := I.lockO
    simp only [h, Owner.ops, Owner.early, Owner.locks] at e e' hst hfr hwf hsub hfull hlk
    have hw : ∀ (w : Fin n) (x : Worker S), x ≠ .acquire →
        ((s.workers w).wake = x ↔ s.workers w = x ∧ x ≠ .waiting) := by
      intro w x hx
      cases hs : s.workers w <;> cases x <;> simp_all [Worker.wake]
    refine { I with lockW := ?_, holdW := ?_, lockO := hlk, stop := hst, fresh := hfr, wf := hwf, sub := hsub, full := hfull, run := ?_,
                    runInj := ?_, cover := ?_, wake := ?_, exited := ?_, awake := ?_, done := ?_,
                    result := e, resultE := fun x hx => ⟨rfl, (e' x hx).2⟩ }
    · intro w h'
      exact I.lockW w ((hw w _ (by simp)).1 h').1
    · intro w h'
      exact (hw w _ (by simp)).2 ⟨I.holdW w h', by simp⟩
    · intro w t r h'
      exact I.run w t r ((hw w _ (by simp)).1 h').1
    · intro w w' t r r' h1 h2
      exact I.runInj w w' t r r' ((hw w _ (by simp)).1 h1).1 ((hw w' _ (by simp)).1 h2).1
    · intro t ht
      rcases I.cover t ht with h' | ⟨w, r, h'⟩
      · exact Or.inl h'
      · exact Or.inr ⟨w, r, (hw w _ (by simp)).2 ⟨h', by simp⟩⟩
    · intro hq
      rcases I.wake hq with ⟨w, h1, h2⟩ | ⟨ops, h'⟩ | h'
      · exact Or.inl ⟨w, fun h' => ((hw w _ (by simp)).1 h').2 rfl, fun h' => h2 ((hw w _ (by simp)).1 h').1⟩
      · rw [h] at h'; cases h'
      · exact Or.inr (Or.inr h')
    · intro w h'
      exact I.exited w ((hw w _ (by simp)).1 h').1
    · intro k h'
      simp only [Owner.join.injEq] at h'
      subst h'
      exact ⟨by omega, fun w h' => ((hw w _ (by simp)).1 h').2 rfl, fun w hw => by omega⟩
    · intro h'; cases h'
  | join _ k h hw =>
    have e := I.result; have e' := I.resultE
    have hst := I.stop; have hfr := I.fresh; have hwf := I.wf; have hsub := I.sub; have hfull := I.full
    have hlk := I.lockO
    obtain ⟨h1, h2, h3⟩ := I.awake k h
    simp only [h, Owner.ops, Owner.early, Owner.locks] at e e' hst hfr hwf hsub hfull hlk
    refine { I with lockO := hlk, stop := hst, fresh := hfr, wf := hwf, sub := hsub, full := hfull, wake := ?_, awake := ?_, done := ?_,
                    result := e, resultE := fun x hx => ⟨rfl, (e' x hx).2⟩ }
    · intro hq
      rcases I.wake hq with h' | ⟨ops, h'⟩ | h'
      · exact Or.inl h'
      · rw [h] at h'; cases h'
      · exact Or.inr (Or.inr h')
    · intro k' h'
      simp only [Owner.join.injEq] at h'
      subst h'
      refine ⟨by omega, h2, ?_⟩
      intro w hlt
      by_cases hwk : w = k
      · subst hwk; exact hw
      · exact h3 w (by
          have : w.1 ≠ k.1 := fun h => hwk (Fin.ext h)
          omega)
    · intro h'; cases h'
  | joined _ h =>
    have e := I.result; have e' := I.resultE
    have hst := I.stop; have hfr := I.fresh; have hwf := I.wf; have hsub := I.sub; have hfull := I.full
    have hlk := I.lockO
    obtain ⟨h1, h2, h3⟩ := I.awake n h
    simp only [h, Owner.ops, Owner.early, Owner.locks] at e e' hst hfr hwf hsub hfull hlk
    refine { I with lockO := hlk, stop := hst, fresh := hfr, wf := hwf, sub := hsub, full := hfull, wake := ?_, awake := ?_, done := ?_,
                    result := e, resultE := fun x hx => ⟨rfl, (e' x hx).2⟩ }
    · intro hq
      rcases I.wake hq with h' | ⟨ops, h'⟩ | h'
      · exact Or.inl h'
      · rw [h] at h'; cases h'
      · exact Or.inr (Or.inr h')
    · intro k' h'; cases h'
    · intro _ w
      exact h3 w w.2

theorem inv_reach {P : Tasks S} {slot0 : ℕ → S} {ops0 : List Op} {s0 s : State n S} {k m : ℕ} (I : Inv P slot0 ops0 s0)
    (h : Run P k s0 s m) : Inv P slot0 ops0 s := by
  induction h with
  | refl => exact I
  | tail _ h' ih => exact inv_step (ih I) h'

/-- Somebody can move, and not only by a spurious wake-up. -/
theorem progress {P : Tasks S} {slot0 : ℕ → S} {ops0 : List Op} {s : State n S} (hn : 1 ≤ n) (I : Inv P slot0 ops0 s)
    (hd : s.owner ≠ .done) : ∃ s', Step P false s s' := by
  cases hl : s.lock with
  | some x =>
    cases x with
    | worker w =>
      have hw := I.holdW w hl
      cases hq : s.queue with
      | cons t q => exact ⟨_, .pop s w t q hw hq⟩
      | nil =>
        cases hs : s.stop with
        | true => exact ⟨_, .exit s w hw hs hq⟩
        | false => exact ⟨_, .wait s w hw hs hq⟩
    | owner =>
      have := I.lockO.2 hl
      cases ho : s.owner with
      | push t ops =>
        have hst := I.stop
        rw [ho] at hst
        exact ⟨_, .push s t ops ho hst⟩
      | setStop => exact ⟨_, .setStop s ho⟩
      | _ => rw [ho] at this; cases this
  | none =>
    by_cases hall : ∃ w, s.workers w ≠ .waiting ∧ s.workers w ≠ .exited
    · obtain ⟨w, h1, h2⟩ := hall
      cases hw : s.workers w with
      | acquire => exact ⟨_, .acquire s w hw hl⟩
      | hold => have := I.lockW w hw; rw [hl] at this; cases this
      | waiting => exact absurd hw h1
      | exited => exact absurd hw h2
      | running t r =>
        cases r with
        | nil => exact ⟨_, .finish s w t hw⟩
        | cons f r => exact ⟨_, .run s w t f r hw⟩
    · have hrun : ∀ w t r, s.workers w ≠ .running t r := fun w t r h => hall ⟨w, by simp [h], by simp [h]⟩
      cases ho : s.owner with
      | op ops =>
        cases ops with
        | nil => exact ⟨_, .lockStop s ho hl⟩
        | cons o ops =>
          cases o with
          | enqueue t => exact ⟨_, .lockEnqueue s t ops ho hl⟩
          | get t =>
            have hwf := I.wf
            rw [ho] at hwf
            have ht := hwf.1
            rw [I.fifo] at ht
            have hq : s.queue = [] := by
              by_contra hq
              rcases I.wake hq with h' | ⟨ops, h'⟩ | h'
              · exact hall h'
              · rw [ho] at h'; cases h'
              · omega
            rw [hq, List.append_nil] at ht
            rcases I.cover t ht with hf | ⟨w, r, h'⟩
            · cases hk : P.fut (s.slot t) with
              | ok k => exact ⟨_, .getOk s t ops k ho hf hk⟩
              | error e => exact ⟨_, .getThrow s t ops e ho hf hk⟩
            · exact absurd h' (hrun w t r)
      | push t ops =>
        have := I.lockO.1 (by rw [ho]; rfl)
        rw [hl] at this; cases this
      | notify ops =>
        by_cases hw : ∃ w, s.workers w = .waiting
        · obtain ⟨w, hw⟩ := hw
          exact ⟨_, .notifyOne s ops w ho hw⟩
        · exact ⟨_, .notifyNone s ops ho (fun w h => hw ⟨w, h⟩)⟩
      | setStop => exact ⟨_, .setStop s ho⟩
      | notifyAll => exact ⟨_, .notifyAll s ho⟩
      | join k =>
        obtain ⟨h1, h2, h3⟩ := I.awake k ho
        by_cases hk : k = n
        · subst hk; exact ⟨_, .joined s ho⟩
        · have hlt : k < n := by omega
          refine ⟨_, .join s ⟨k, hlt⟩ ho ?_⟩
          by_contra he
          exact hall ⟨⟨k, hlt⟩, h2 _, he⟩
      | done => exact absurd ho hd

/-! ### The number of steps -/

def Worker.weight : Worker S → ℕ
  | .acquire => 2
  | .hold => 1
  | .waiting => 0
  | .running _ r => r.length + 3
  | .exited => 0

def queueWeight (P : Tasks S) (q : List ℕ) : ℕ := (q.map (fun t => (P.prog t).length + 3)).sum

def opsWeight (P : Tasks S) : List Op → ℕ
  | [] => 0
  | .enqueue t :: ops => (P.prog t).length + 8 + opsWeight P ops
  | .get _ :: ops => 1 + opsWeight P ops

def Owner.weight (P : Tasks S) (n : ℕ) : Owner → ℕ
  | .op ops => opsWeight P ops + (3 * n + 4)
  | .push t ops => (P.prog t).length + 7 + opsWeight P ops + (3 * n + 4)
  | .notify ops => 3 + opsWeight P ops + (3 * n + 4)
  | .setStop => 3 * n + 3
  | .notifyAll => 3 * n + 2
  | .join k => (n - k) + 1
  | .done => 0

def State.weight (P : Tasks S) (s : State n S) : ℕ :=
  (∑ w, (s.workers w).weight) + queueWeight P s.queue + s.owner.weight P n

theorem sum_put (s : State n S) (w : Fin n) (x : Worker S) :
    (∑ i, ((s.put w x).workers i).weight) + (s.workers w).weight = (∑ i, (s.workers i).weight) + x.weight := by
  rw [← Finset.add_sum_erase Finset.univ _ (Finset.mem_univ w), ← Finset.add_sum_erase Finset.univ _ (Finset.mem_univ w)]
  have : ∑ i ∈ Finset.univ.erase w, ((s.put w x).workers i).weight = ∑ i ∈ Finset.univ.erase w, (s.workers i).weight := by
    apply Finset.sum_congr rfl
    intro i hi
    rw [put_workers, if_neg (Finset.ne_of_mem_erase hi)]
  rw [this, put_workers, if_pos rfl]
  omega

theorem weight_step {P : Tasks S} {b : Bool} {s s' : State n S} (h : Step P b s s') :
    s'.weight P + 1 ≤ s.weight P + 3 * b.toNat := by
  cases h with
  | acquire _ w h hl =>
    have := sum_put s w .hold
    simp only [State.weight, h, Worker.weight, State.put, Bool.toNat_false] at *
    omega
  | exit _ w h hs hq =>
    have := sum_put s w .exited
    simp only [State.weight, h, Worker.weight, State.put, Bool.toNat_false] at *
    omega
  | pop _ w t q h hq =>
    have := sum_put s w (.running t (P.prog t))
    simp only [State.weight, h, Worker.weight, State.put, Bool.toNat_false, hq, queueWeight, List.map_cons,
      List.sum_cons] at *
    omega
  | wait _ w h hs hq =>
    have := sum_put s w .waiting
    simp only [State.weight, h, Worker.weight, State.put, Bool.toNat_false] at *
    omega
  | spurious _ w h =>
    have := sum_put s w .acquire
    simp only [State.weight, h, Worker.weight, State.put, Bool.toNat_true] at *
    omega
  | run _ w t f r h =>
    have := sum_put s w (.running t r)
    simp only [State.weight, h, Worker.weight, State.put, Bool.toNat_false, List.length_cons] at *
    omega
  | finish _ w t h =>
    have := sum_put s w .acquire
    simp only [State.weight, h, Worker.weight, State.put, Bool.toNat_false, List.length_nil] at *
    omega
  | lockEnqueue _ t ops h hl =>
    simp only [State.weight, h, Owner.weight, opsWeight, Bool.toNat_false]
    omega
  | push _ t ops h hs =>
    simp only [State.weight, h, Owner.weight, Bool.toNat_false, queueWeight, List.map_append, List.map_cons, List.map_nil,
      List.sum_append, List.sum_cons, List.sum_nil]
    omega
  | pushStopped _ t ops h hs =>
    simp only [State.weight, h, Owner.weight, Bool.toNat_false, opsWeight]
    omega
  | notifyOne _ ops w h hw =>
    have := sum_put s w .acquire
    simp only [State.weight, h, hw, Owner.weight, Worker.weight, State.put, Bool.toNat_false] at *
    omega
  | notifyNone _ ops h hw =>
    simp only [State.weight, h, Owner.weight, Bool.toNat_false]
    omega
  | getOk _ t ops k h hf hk =>
    simp only [State.weight, h, Owner.weight, opsWeight, Bool.toNat_false]
    omega
  | getThrow _ t ops e h hf hk =>
    simp only [State.weight, h, Owner.weight, opsWeight, Bool.toNat_false]
    omega
  | lockStop _ h hl =>
    simp only [State.weight, h, Owner.weight, opsWeight, Bool.toNat_false]
    omega
  | setStop _ h =>
    simp only [State.weight, h, Owner.weight, Bool.toNat_false]
    omega
  | notifyAll _ h =>
    have : ∑ w, (s.workers w).wake.weight ≤
        (∑ w, (s.workers w).weight) + 2 * n := by
      have hc : 2 * n = ∑ _w : Fin n, 2 := by simp [mul_comm]
      rw [hc, ← Finset.sum_add_distrib]
      apply Finset.sum_le_sum
      intro w _
      cases s.workers w <;> simp [Worker.weight, Worker.wake]
    simp only [State.weight, h, Owner.weight, Bool.toNat_false]
    omega
  | join _ k h hw =>
    have := k.2
    simp only [State.weight, h, Owner.weight, Bool.toNat_false]
    omega
  | joined _ h =>
    simp only [State.weight, h, Owner.weight, Bool.toNat_false]
    omega

theorem weight_run {P : Tasks S} {s s' : State n S} {k m : ℕ} (h : Run P k s s' m) :
    m + s'.weight P ≤ s.weight P + 3 * k := by
  induction h with
  | refl => omega
  | tail _ h' ih =>
    have := weight_step h'
    rw [Nat.mul_add]
    omega

theorem weight_init (P : Tasks S) (slot : ℕ → S) (ops : List Op) :
    (init n slot ops : State n S).weight P = 5 * n + 4 + opsWeight P ops := by
  simp [State.weight, init, Worker.weight, queueWeight, Owner.weight]
  omega

end Genex.Pool
