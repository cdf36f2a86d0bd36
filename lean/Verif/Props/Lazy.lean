import Verif.Lemmas.Lazy
import Verif.Spec.Race

/-! # C86: the metric object made on first use by several threads -/

namespace Genex.Props

open Lazy Spec

/-- C86.  Whatever the order of the steps, no thread dereferences null or uses an object that was not made. -/
theorem C86_never_null {cell : Option ℕ} {objs : ℕ} (hc : ∀ o, cell = some o → o < objs) {calls : List (List ℕ)} {s : State}
    (h : Occurs (init cell objs calls) s) : ¬ NullUse s ∧ ¬ WildUse s := by
  have hi := inv_occurs hc h
  constructor
  · rintro ⟨⟨pc, c⟩, ht, u, rfl⟩
    obtain ⟨-, o, h1, -⟩ := hi.ok _ ht
    cases h1
  · rintro ⟨⟨pc, c⟩, ht, o, u, rfl, ho⟩
    obtain ⟨-, o', h1, h2⟩ := hi.ok _ ht
    cases h1
    omega

/-- C86.  At most one object is made for each thread. -/
theorem C86_objects {cell : Option ℕ} {objs : ℕ} (hc : ∀ o, cell = some o → o < objs) {calls : List (List ℕ)} {s : State}
    (h : Occurs (init cell objs calls) s) : s.objs ≤ objs + calls.length := by
  have := (inv_occurs hc h).objs
  omega

/-- C86.  If the object was made before the threads start, none of them writes the variable and there is no data race, and no object is made. -/
theorem C86_race_partial {o objs : ℕ} {calls : List (List ℕ)} {s : State} (h : Occurs (init (some o) objs calls) s) :
    ¬ Race s ∧ s.cell = some o ∧ s.objs = objs := by
  have key : s.cell = some o ∧ s.objs = objs ∧ ∀ t ∈ s.threads, t.pc ≠ .create ∧ ∀ x, t.pc ≠ .store x := by
    have hent : ∀ calls, (enter calls).pc ≠ .create ∧ ∀ x, (enter calls).pc ≠ .store x := by
      intro calls; cases calls <;> simp [enter]
    have hnext : ∀ u calls, (next u calls).pc ≠ .create ∧ ∀ x, (next u calls).pc ≠ .store x := by
      intro u calls
      cases u with
      | zero => exact hent _
      | succ u => simp [next]
    induction h with
    | refl =>
      refine ⟨rfl, rfl, fun t ht => ?_⟩
      obtain ⟨c, -, rfl⟩ := List.mem_map.1 ht
      exact hent c
    | tail _ hs ih =>
      obtain ⟨ih1, ih2, ih3⟩ := ih
      obtain ⟨i, t, ⟨cell', objs', t'⟩, hi, hst, rfl⟩ := hs
      have ht := ih3 t (List.mem_of_getElem? hi)
      have : cell' = some o ∧ objs' = objs ∧ t'.pc ≠ .create ∧ ∀ x, t'.pc ≠ .store x := by
        obtain ⟨pc, calls⟩ := t
        cases pc with
        | check =>
          simp only [step, ih1, Option.some.injEq, Prod.mk.injEq, reduceCtorEq, if_false] at hst
          obtain ⟨rfl, rfl, rfl⟩ := hst
          exact ⟨rfl, ih2, hnext _ _⟩
        | create => exact absurd rfl ht.1
        | store x => exact absurd rfl (ht.2 x)
        | load u =>
          simp only [step, Option.some.injEq, Prod.mk.injEq] at hst
          obtain ⟨rfl, rfl, rfl⟩ := hst
          exact ⟨ih1, ih2, by simp⟩
        | deref p u =>
          cases p with
          | none => simp [step] at hst
          | some p =>
            simp only [step, Option.some.injEq, Prod.mk.injEq] at hst
            obtain ⟨rfl, rfl, rfl⟩ := hst
            exact ⟨ih1, ih2, hnext _ _⟩
        | done => simp [step] at hst
      refine ⟨this.1, this.2.1, fun u hu => ?_⟩
      rcases List.mem_or_eq_of_mem_set hu with hu | rfl
      · exact ih3 u hu
      · exact this.2.2
  refine ⟨?_, key.1, key.2.1⟩
  rintro ⟨i, j, t, u, -, hi, -, ⟨x, hx⟩, -⟩
  exact (key.2.2 t (List.mem_of_getElem? hi)).2 x hx

/-- C86.  On first use by two threads or more there is a data race. -/
theorem C86_race_false {objs : ℕ} {calls : List (List ℕ)} {i j : ℕ} (hij : i ≠ j) {u v : ℕ} {us vs : List ℕ}
    (hi : calls[i]? = some (u :: us)) (hj : calls[j]? = some (v :: vs)) : ∃ s, Occurs (init none objs calls) s ∧ Race s := by
  have ti : (init none objs calls).threads[i]? = some ⟨.check, u :: us⟩ := by simp [init, hi, enter]
  have tj : (init none objs calls).threads[j]? = some ⟨.check, v :: vs⟩ := by simp [init, hj, enter]
  have li := (List.getElem?_eq_some_iff.1 ti).1
  have s1 := steps_at ti (c := none) (n := objs) (t' := ⟨.create, u :: us⟩) rfl
  have s2 := steps_at (s := ⟨none, objs, (init none objs calls).threads.set i ⟨.create, u :: us⟩⟩) (i := i) (t := ⟨.create, u :: us⟩)
    (by simp [List.getElem?_set_self li]) (c := none) (n := objs + 1) (t' := ⟨.store objs, u :: us⟩) rfl
  refine ⟨_, .tail (.tail .refl s1) s2, i, j, _, _, hij, List.getElem?_set_self (by simpa using li), (?_ : _ = some ⟨.check, v :: vs⟩), ⟨objs, rfl⟩, .inl (.inl rfl)⟩
  simp only
  rw [List.getElem?_set_ne hij, List.getElem?_set_ne hij]
  exact tj

/-- C86.  And every thread may make an object of its own; only the one stored last is used from then on, the others are never freed. -/
theorem C86_leak_false (objs : ℕ) (calls : List (List ℕ)) (h : ∀ c ∈ calls, c ≠ []) :
    ∃ s, Occurs (init none objs calls) s ∧ s.objs = objs + calls.length := by
  have p1 : ∀ (n : ℕ), n ≤ calls.length → Occurs (init none objs calls)
      ⟨none, objs, (calls.take n).map (fun c => ⟨.create, c⟩) ++ (calls.drop n).map enter⟩ := by
    intro n
    induction n with
    | zero => intro _; simp only [List.take_zero, List.map_nil, List.nil_append, List.drop_zero]; exact .refl
    | succ n ih =>
      intro hn
      refine (ih (by omega)).tail ?_
      have hd : calls.drop n = calls[n] :: calls.drop (n + 1) := List.drop_eq_getElem_cons (by omega)
      obtain ⟨u, us, hu⟩ := List.exists_cons_of_ne_nil (h calls[n] (List.getElem_mem _))
      have hl : ((calls.take n).map (fun c => (⟨.create, c⟩ : Thread))).length = n := by simp; omega
      have := steps_at (s := ⟨none, objs, (calls.take n).map (fun c => ⟨.create, c⟩) ++ (calls.drop n).map enter⟩) (i := n)
        (t := ⟨.check, u :: us⟩) (by
          simp only
          rw [List.getElem?_append_right (by omega), hl, hd, hu]
          simp [enter]) (c := none) (n := objs) (t' := ⟨.create, u :: us⟩) rfl
      convert this using 2
      rw [List.set_append_right _ _ (by omega), hl, hd, hu, Nat.sub_self, List.take_add_one]
      simp [hu, List.getElem?_eq_getElem (show n < calls.length by omega)]
  have p2 : ∀ (n : ℕ), n ≤ calls.length → ∃ A : List Thread, A.length = n ∧ Occurs (init none objs calls)
      ⟨none, objs + n, A ++ (calls.drop n).map (fun c => ⟨.create, c⟩)⟩ := by
    intro n
    induction n with
    | zero =>
      intro _
      refine ⟨[], rfl, ?_⟩
      have := p1 calls.length le_rfl
      simpa using this
    | succ n ih =>
      intro hn
      obtain ⟨A, hA, hr⟩ := ih (by omega)
      have hd : calls.drop n = calls[n] :: calls.drop (n + 1) := List.drop_eq_getElem_cons (by omega)
      refine ⟨A ++ [⟨.store (objs + n), calls[n]⟩], by simp [hA], hr.tail ?_⟩
      have := steps_at (s := ⟨none, objs + n, A ++ (calls.drop n).map (fun c => ⟨.create, c⟩)⟩) (i := n)
        (t := ⟨.create, calls[n]⟩) (by
          simp only
          rw [List.getElem?_append_right (by omega), hA, hd]
          simp) (c := none) (n := objs + n + 1) (t' := ⟨.store (objs + n), calls[n]⟩) rfl
      rw [show objs + (n + 1) = objs + n + 1 by omega]
      convert this using 2
      rw [List.set_append_right _ _ (by omega), hA, hd, Nat.sub_self]
      simp only [List.map_cons, List.set_cons_zero, List.append_assoc, List.cons_append, List.nil_append]
  obtain ⟨A, -, hr⟩ := p2 calls.length le_rfl
  exact ⟨_, hr, rfl⟩

/-- C86.  No thread waits for another: as long as one is not done there is a step, … -/
theorem C86_progress {cell : Option ℕ} {objs : ℕ} (hc : ∀ o, cell = some o → o < objs) {calls : List (List ℕ)} {s : State}
    (h : Occurs (init cell objs calls) s) (hf : ¬ Finished s) : ∃ s', Steps s s' := by
  have hi := inv_occurs hc h
  unfold Finished at hf
  push Not at hf
  obtain ⟨⟨pc, c⟩, ht, hd⟩ := hf
  obtain ⟨i, hit⟩ := List.getElem?_of_mem ht
  have hok := hi.ok _ ht
  cases pc with
  | check => exact ⟨_, steps_at hit rfl⟩
  | create => exact ⟨_, steps_at hit rfl⟩
  | store o => exact ⟨_, steps_at hit rfl⟩
  | load u => exact ⟨_, steps_at hit rfl⟩
  | deref p u =>
    obtain ⟨-, o, rfl, -⟩ := hok
    exact ⟨_, steps_at hit rfl⟩
  | done => exact absurd rfl hd

/-- C86.  … and there is no longer run than three steps for each call and two for each use. -/
theorem C86_ends {cell : Option ℕ} {objs : ℕ} {calls : List (List ℕ)} (run : ℕ → State) (N : ℕ) (h0 : run 0 = init cell objs calls)
    (h : ∀ n < N, Steps (run n) (run (n + 1))) : N ≤ (calls.map fun c => (c.map fun u => 3 + 2 * u).sum).sum := by
  have key : ∀ n ≤ N, n + ((run n).threads.map weight).sum ≤ (calls.map fun c => (c.map fun u => 3 + 2 * u).sum).sum := by
    intro n
    induction n with
    | zero =>
      intro _
      rw [h0]
      simp [init, Function.comp_def, weight_enter]
    | succ n ih =>
      intro hn
      have := ih (by omega)
      have := weight_step (h n (by omega))
      omega
  have := key N le_rfl
  omega

/-! Two threads, one with a call of three uses, one with two calls: both find the variable null. -/
example : ∃ s, Occurs (init none 0 [[3], [1, 4]]) s ∧ Race s := C86_race_false (i := 0) (j := 1) (by decide) rfl rfl
example : ∃ s, Occurs (init none 0 [[3], [1, 4]]) s ∧ s.objs = 2 := C86_leak_false 0 [[3], [1, 4]] (by decide)
example {s : State} (h : Occurs (init (some 0) 1 [[3], [1, 4]]) s) : ¬ Race s := (C86_race_partial h).1
example : ∃ s', Steps (init none 0 [[3], [1, 4]]) s' :=
  C86_progress (by simp) .refl (by
    intro h
    have := h ⟨.check, [3]⟩ (by simp [init, enter])
    cases this)

end Genex.Props
