import Verif.Lemmas.Api

/-!
# Which datasets are allocated
-/

set_option linter.unusedSectionVars false

namespace Genex.Api

open Genex Registry

variable {K : Type}

theorem countP_set_none {α : Type} : ∀ (l : List (Option α)) (i : ℕ) (x : α), l[i]? = some (some x) →
    (l.set i none).countP Option.isSome + 1 = l.countP Option.isSome
  | a :: l, 0, x, h => by
    simp only [List.getElem?_cons_zero, Option.some.injEq] at h
    subst h
    simp
  | a :: l, i + 1, x, h => by
    simp only [List.getElem?_cons_succ] at h
    have := countP_set_none l i x h
    simp only [List.set_cons_succ, List.countP_cons]
    omega
  | [], i, x, h => by simp at h

theorem countP_set_some {α : Type} : ∀ (l : List (Option α)) (i : ℕ) (x y : α), l[i]? = some (some x) →
    (l.set i (some y)).countP Option.isSome = l.countP Option.isSome
  | a :: l, 0, x, y, h => by
    simp only [List.getElem?_cons_zero, Option.some.injEq] at h
    subst h
    simp
  | a :: l, i + 1, x, y, h => by
    simp only [List.getElem?_cons_succ] at h
    have := countP_set_some l i x y h
    simp only [List.set_cons_succ, List.countP_cons]
    omega
  | [], i, x, y, h => by simp at h

theorem deleteAll_live {m : List (String × ℕ)} {s s' : Api K} [Field K] [LinearOrder K] [HasSqrt K] (h : deleteAll m s = some s') :
    s'.heap.countP Option.isSome + m.length = s.heap.countP Option.isSome := by
  induction m generalizing s with
  | nil => cases h; rfl
  | cons e m ih =>
    unfold deleteAll at h
    cases hd : s.delete e.2 with
    | none => rw [hd] at h; cases h
    | some t =>
      rw [hd] at h
      have := ih h
      unfold delete at hd
      cases hg : s.deref e.2 with
      | none => rw [hg] at hd; cases hd
      | some g =>
        rw [hg] at hd
        cases hd
        have h2 := countP_set_none _ _ _ (deref_some.1 hg)
        simp only at this
        rw [List.length_cons]
        omega

variable [Field K] [LinearOrder K] [HasSqrt K] [Arith K] [BandOps]

theorem live_history {E : Env K} {h : List (AnyCall K × Reply K)} {s : Api K} (hh : History E fresh h s) :
    s.heap.countP Option.isSome = s.datasets.length := by
  induction hh with
  | nil => rfl
  | @snoc t u h c r h1 h2 h3 ih =>
    have hI := inv_history inv_fresh h1
    cases step_eff hI h2 with
    | same hh hd hc hr => rw [hh, hd, ih]
    | leak o hh hd hc hr hs => rw [hh, hd, hs h3, List.countP_append, ih]; simp
    | add name g hf hh hd hc hr hn hch => rw [hh, hd, (mapSet_perm hf).length_eq, List.countP_append, ih]; simp
    | store name id g₀ g hf hg hh hd hc hr hn hch => rw [hh, hd, countP_set_some _ _ _ _ (deref_some.1 hg), ih]
    | remove name id g hf hg hh hd hc hr hn hch =>
      have := countP_set_none _ _ _ (deref_some.1 hg)
      have := sorted_length_erase hI.sorted hf
      rw [hh, hd]
      omega
    | clear hh hd hc hr hch =>
      obtain ⟨t', e, e'⟩ := hh
      have := deleteAll_live e
      rw [e', hd]
      simp only [List.length_nil]
      omega

end Genex.Api
