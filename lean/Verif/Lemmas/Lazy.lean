import Verif.Model.Lazy
import Mathlib.Algebra.BigOperators.Group.List.Basic
import Mathlib.Tactic.Linarith

/-! # What holds of every state of the threads that make the metric object on first use (lemmas for C86) -/

namespace Genex.Lazy

theorem sum_set_add {α : Type} (f : α → ℕ) {l : List α} {i : ℕ} {t : α} (t' : α) (h : l[i]? = some t) :
    ((l.set i t').map f).sum + f t = (l.map f).sum + f t' := by
  induction l generalizing i with
  | nil => simp at h
  | cons x l ih =>
    cases i with
    | zero =>
      simp at h
      subst h
      simp; omega
    | succ i =>
      have := ih (i := i) (by simpa using h)
      simp only [List.set_cons_succ, List.map_cons, List.sum_cons]
      omega

/-- What holds of a thread. -/
def ThreadOk (cell : Option ℕ) (objs : ℕ) (t : Thread) : Prop := match t.pc with
  | .check => True
  | .create => True
  | .store o => o < objs
  | .load _ => cell ≠ none
  | .deref p _ => cell ≠ none ∧ ∃ o, p = some o ∧ o < objs
  | .done => True

/-- The objects that a thread may still make. -/
def may (cell : Option ℕ) (t : Thread) : ℕ := match t.pc with
  | .check => if cell = none then 1 else 0
  | .create => 1
  | _ => 0

theorem may_le (cell : Option ℕ) (t : Thread) : may cell t ≤ 1 := by
  unfold may
  split <;> [split; skip; skip] <;> simp

theorem enter_ok (cell : Option ℕ) (objs : ℕ) (calls : List ℕ) : ThreadOk cell objs (enter calls) := by
  cases calls <;> trivial

theorem next_ok {cell : Option ℕ} (h : cell ≠ none) (objs u : ℕ) (calls : List ℕ) : ThreadOk cell objs (next u calls) := by
  cases u with
  | zero => exact enter_ok _ _ _
  | succ u => exact h

theorem next_may {cell : Option ℕ} (h : cell ≠ none) (u : ℕ) (calls : List ℕ) : may cell (next u calls) = 0 := by
  cases u with
  | zero =>
    unfold next enter
    cases calls.tail <;> simp [may, h]
  | succ u => rfl

/-- What holds of every state that occurs, `objs₀` objects having been there before and `n` threads. -/
structure Inv (objs₀ n : ℕ) (s : State) : Prop where
  len : s.threads.length = n
  cell : ∀ o, s.cell = some o → o < s.objs
  ok : ∀ t ∈ s.threads, ThreadOk s.cell s.objs t
  objs : s.objs + (s.threads.map (may s.cell)).sum ≤ objs₀ + n
  more : objs₀ ≤ s.objs

theorem ThreadOk.mono {cell cell' : Option ℕ} {objs objs' : ℕ} {t : Thread} (h : ThreadOk cell objs t) (hc : cell ≠ none → cell' ≠ none)
    (ho : objs ≤ objs') : ThreadOk cell' objs' t := by
  unfold ThreadOk at *
  split at h <;> simp_all
  · omega
  · obtain ⟨-, o, h1, h2⟩ := h
    exact ⟨o, h1, by omega⟩

theorem may_mono {cell cell' : Option ℕ} (hc : cell ≠ none → cell' ≠ none) (t : Thread) : may cell' t ≤ may cell t := by
  unfold may
  split
  · by_cases h : cell = none
    · rw [if_pos h]; split <;> omega
    · rw [if_neg (hc h)]; omega
  · exact le_rfl
  · exact le_rfl

theorem sum_may_le {cell cell' : Option ℕ} (hc : cell ≠ none → cell' ≠ none) (l : List Thread) :
    (l.map (may cell')).sum ≤ (l.map (may cell)).sum := by
  induction l with
  | nil => simp
  | cons x l ih => have := may_mono hc x; simp; omega

theorem inv_step {objs₀ n : ℕ} {s s' : State} (h : Inv objs₀ n s) (hs : Steps s s') : Inv objs₀ n s' := by
  obtain ⟨i, t, ⟨cell', objs', t'⟩, hi, hst, rfl⟩ := hs
  have hmem := List.mem_of_getElem? hi
  have hok := h.ok t hmem
  -- what a step does to the variable, the objects and the thread
  have key : (s.cell ≠ none → cell' ≠ none) ∧ s.objs ≤ objs' ∧ (∀ o, cell' = some o → o < objs') ∧ ThreadOk cell' objs' t' ∧
      objs' + may cell' t' ≤ s.objs + may s.cell t := by
    obtain ⟨pc, calls⟩ := t
    cases pc with
    | check =>
      simp only [step, Option.some.injEq, Prod.mk.injEq] at hst
      obtain ⟨rfl, rfl, rfl⟩ := hst
      refine ⟨id, le_rfl, h.cell, ?_, ?_⟩
      · split
        · trivial
        · exact next_ok (by assumption) _ _ _
      · by_cases hc : s.cell = none
        · simp [may, hc]
        · rw [if_neg hc, next_may hc]; omega
    | create =>
      simp only [step, Option.some.injEq, Prod.mk.injEq] at hst
      obtain ⟨rfl, rfl, rfl⟩ := hst
      exact ⟨id, by omega, fun o ho => by have := h.cell o ho; omega, by simp [ThreadOk], by simp [may]⟩
    | store o =>
      simp only [step, Option.some.injEq, Prod.mk.injEq] at hst
      obtain ⟨rfl, rfl, rfl⟩ := hst
      refine ⟨by simp, le_rfl, fun o' ho' => ?_, next_ok (by simp) _ _ _, by rw [next_may (by simp)]; omega⟩
      cases ho'
      exact hok
    | load u =>
      simp only [step, Option.some.injEq, Prod.mk.injEq] at hst
      obtain ⟨rfl, rfl, rfl⟩ := hst
      have hc : s.cell ≠ none := hok
      obtain ⟨o, ho⟩ := Option.ne_none_iff_exists'.1 hc
      exact ⟨id, le_rfl, h.cell, ⟨hc, o, ho, h.cell o ho⟩, by simp [may]⟩
    | deref p u =>
      obtain ⟨hc, o, rfl, ho⟩ := hok
      simp only [step, Option.some.injEq, Prod.mk.injEq] at hst
      obtain ⟨rfl, rfl, rfl⟩ := hst
      exact ⟨id, le_rfl, h.cell, next_ok hc _ _ _, by rw [next_may hc]; omega⟩
    | done => simp [step] at hst
  obtain ⟨k1, k2, k3, k4, k5⟩ := key
  refine ⟨by simp [h.len], k3, fun u hu => ?_, ?_, k2.trans' h.more⟩
  · rcases List.mem_or_eq_of_mem_set hu with hu | rfl
    · exact (h.ok u hu).mono k1 k2
    · exact k4
  · have h1 := sum_set_add (may cell') t' hi
    have h2 : (s.threads.map (may cell')).sum + (may s.cell t) ≤ (s.threads.map (may s.cell)).sum + may cell' t := by
      have : ∀ (l : List Thread) (i : ℕ), l[i]? = some t → (l.map (may cell')).sum + may s.cell t ≤ (l.map (may s.cell)).sum + may cell' t := by
        intro l
        induction l with
        | nil => intro i hi; simp at hi
        | cons x l ih =>
          intro i hi
          have hall : (l.map (may cell')).sum ≤ (l.map (may s.cell)).sum := sum_may_le k1 l
          cases i with
          | zero => simp at hi; subst hi; simp; omega
          | succ i =>
            have := ih i (by simpa using hi)
            have := may_mono k1 x
            simp only [List.map_cons, List.sum_cons]
            omega
      exact this _ i hi
    have h3 := h.objs
    simp only
    omega

theorem inv_init (cell : Option ℕ) (objs : ℕ) (hc : ∀ o, cell = some o → o < objs) (calls : List (List ℕ)) :
    Inv objs calls.length (init cell objs calls) := by
  refine ⟨by simp [init], hc, fun t ht => ?_, ?_, le_rfl⟩
  · obtain ⟨c, -, rfl⟩ := List.mem_map.1 ht
    exact enter_ok _ _ _
  · have : ∀ l : List Thread, (l.map (may cell)).sum ≤ l.length := by
      intro l
      induction l with
      | nil => simp
      | cons x l ih => have := may_le cell x; simp; omega
    have := this (calls.map enter)
    simp only [List.length_map] at this
    simp only [init]
    omega

theorem inv_occurs {cell : Option ℕ} {objs : ℕ} (hc : ∀ o, cell = some o → o < objs) {calls : List (List ℕ)} {s : State}
    (h : Occurs (init cell objs calls) s) : Inv objs calls.length s := by
  induction h with
  | refl => exact inv_init cell objs hc calls
  | tail _ hs ih => exact inv_step ih hs

theorem steps_at {s : State} {i : ℕ} {t : Thread} (hi : s.threads[i]? = some t) {c : Option ℕ} {n : ℕ} {t' : Thread}
    (h : step s.cell s.objs t = some (c, n, t')) : Steps s ⟨c, n, s.threads.set i t'⟩ := ⟨i, t, (c, n, t'), hi, h, rfl⟩

/-- The steps that a thread has left at most. -/
def weight (t : Thread) : ℕ := match t.pc with
  | .check => 3 + 2 * t.calls.headD 0 + (t.calls.tail.map fun u => 3 + 2 * u).sum
  | .create => 2 + 2 * t.calls.headD 0 + (t.calls.tail.map fun u => 3 + 2 * u).sum
  | .store _ => 1 + 2 * t.calls.headD 0 + (t.calls.tail.map fun u => 3 + 2 * u).sum
  | .load u => 2 * (u - 1) + 2 + (t.calls.tail.map fun u => 3 + 2 * u).sum
  | .deref _ u => 2 * (u - 1) + 1 + (t.calls.tail.map fun u => 3 + 2 * u).sum
  | .done => 0

theorem weight_enter (calls : List ℕ) : weight (enter calls) = (calls.map fun u => 3 + 2 * u).sum := by
  cases calls <;> simp [enter, weight]

theorem weight_next (u : ℕ) (calls : List ℕ) : weight (next u calls) ≤ 2 * u + (calls.tail.map fun u => 3 + 2 * u).sum := by
  cases u with
  | zero => simp [next, weight_enter]
  | succ u => simp [next, weight]; omega

theorem weight_step {s s' : State} (h : Steps s s') : (s'.threads.map weight).sum < (s.threads.map weight).sum := by
  obtain ⟨i, t, ⟨cell', objs', t'⟩, hi, hst, rfl⟩ := h
  have := sum_set_add weight t' hi
  have : weight t' < weight t := by
    obtain ⟨pc, calls⟩ := t
    cases pc with
    | check =>
      simp only [step, Option.some.injEq, Prod.mk.injEq] at hst
      obtain ⟨-, -, rfl⟩ := hst
      split
      · simp [weight]
      · have := weight_next (calls.headD 0) calls
        show _ < 3 + 2 * calls.headD 0 + (calls.tail.map fun u => 3 + 2 * u).sum
        omega
    | create =>
      simp only [step, Option.some.injEq, Prod.mk.injEq] at hst
      obtain ⟨-, -, rfl⟩ := hst
      simp [weight]
    | store o =>
      simp only [step, Option.some.injEq, Prod.mk.injEq] at hst
      obtain ⟨-, -, rfl⟩ := hst
      have := weight_next (calls.headD 0) calls
      show _ < 1 + 2 * calls.headD 0 + (calls.tail.map fun u => 3 + 2 * u).sum
      omega
    | load u =>
      simp only [step, Option.some.injEq, Prod.mk.injEq] at hst
      obtain ⟨-, -, rfl⟩ := hst
      simp [weight]
    | deref p u =>
      cases p with
      | none => simp [step] at hst
      | some p =>
        simp only [step, Option.some.injEq, Prod.mk.injEq] at hst
        obtain ⟨-, -, rfl⟩ := hst
        have := weight_next (u - 1) calls
        show _ < 2 * (u - 1) + 1 + (calls.tail.map fun u => 3 + 2 * u).sum
        omega
    | done => simp [step] at hst
  simp only
  omega

end Genex.Lazy
