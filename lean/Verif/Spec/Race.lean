import Verif.Model.Lazy

/-! # Specification: data races on the shared variable -/

namespace Genex.Spec

open Lazy

/-- The next step of the thread reads the variable. -/
def Reads (t : Thread) : Prop := t.pc = .check ∨ ∃ u, t.pc = .load u

/-- The next step of the thread writes the variable. -/
def Writes (t : Thread) : Prop := ∃ o, t.pc = .store o

/-- Two different threads are about to access the variable, one of them to write it, and nothing orders the two accesses: a data race. -/
def Race (s : State) : Prop :=
  ∃ (i j : ℕ) (t u : Thread), i ≠ j ∧ s.threads[i]? = some t ∧ s.threads[j]? = some u ∧ Writes t ∧ (Reads u ∨ Writes u)

/-- The thread is about to dereference null. -/
def NullUse (s : State) : Prop := ∃ t ∈ s.threads, ∃ u, t.pc = .deref none u

/-- The thread uses an object that was never made. -/
def WildUse (s : State) : Prop := ∃ t ∈ s.threads, ∃ o u, t.pc = .deref (some o) u ∧ s.objs ≤ o

/-- Every thread made all its calls. -/
def Finished (s : State) : Prop := ∀ t ∈ s.threads, t.pc = .done

end Genex.Spec
