import Mathlib.Data.List.Basic
import Mathlib.Logic.Relation

/-!
# The metric object made on first use by several threads (genex/distance/Distance.hpp:239-243, 277-281)

```
static DM* metric = nullptr;
if (metric == nullptr) { metric = new DM(); }
... metric->init() ... metric->reduce(...) ... metric->norm(...)
```

Each thread makes a number of calls of `pairwiseDistance`; a call reads the variable for the test and then once for every use of the
object.  The steps of different threads are interleaved in any way, and each step sees what the steps before it wrote: sequential
consistency, which C++ promises only for executions without data races; races are therefore stated as a property of their own.
`warpedDistance` (genex/distance/Distance.hpp:94-98) does the same.
-/

namespace Genex.Lazy

/-- Where a thread is. -/
inductive PC where
  /-- before the test `metric == nullptr` -/
  | check
  /-- before `new DM()` -/
  | create
  /-- before the assignment of the object to `metric` -/
  | store (obj : ℕ)
  /-- before the next use of the object: `uses` of them are left in this call, this one included -/
  | load (uses : ℕ)
  /-- the variable was read, and is about to be dereferenced -/
  | deref (obj : Option ℕ) (uses : ℕ)
  | done
deriving DecidableEq

/-- A thread: where it is, and the calls it still has to finish, each with the number of uses of the object. -/
structure Thread where
  pc : PC
  calls : List ℕ
deriving DecidableEq

/-- The variable (`none` is null), the number of objects made, the threads. -/
structure State where
  cell : Option ℕ
  objs : ℕ
  threads : List Thread
deriving DecidableEq

/-- Where the thread goes with these calls left. -/
def enter (calls : List ℕ) : Thread := match calls with
  | [] => ⟨.done, []⟩
  | u :: us => ⟨.check, u :: us⟩

/-- Where a call goes when `uses` are left. -/
def next (uses : ℕ) (calls : List ℕ) : Thread := match uses with
  | 0 => enter calls.tail
  | u + 1 => ⟨.load (u + 1), calls⟩

/-- One step of a thread: the variable, the number of objects and the thread afterwards; `none` if the thread is done, or would
dereference null. -/
def step (cell : Option ℕ) (objs : ℕ) (t : Thread) : Option (Option ℕ × ℕ × Thread) := match t.pc with
  | .check => some (cell, objs, if cell = none then ⟨.create, t.calls⟩ else next (t.calls.headD 0) t.calls)
  | .create => some (cell, objs + 1, ⟨.store objs, t.calls⟩)
  | .store o => some (some o, objs, next (t.calls.headD 0) t.calls)
  | .load u => some (cell, objs, ⟨.deref cell u, t.calls⟩)
  | .deref (some _) u => some (cell, objs, next (u - 1) t.calls)
  | .deref none _ => none
  | .done => none

/-- A step of the thread `i`. -/
def Steps (s s' : State) : Prop :=
  ∃ (i : ℕ) (t : Thread) (r : Option ℕ × ℕ × Thread), s.threads[i]? = some t ∧ step s.cell s.objs t = some r ∧
    s' = ⟨r.1, r.2.1, s.threads.set i r.2.2⟩

/-- The start: `cell` is what earlier calls left in the variable. -/
def init (cell : Option ℕ) (objs : ℕ) (calls : List (List ℕ)) : State := ⟨cell, objs, calls.map enter⟩

/-- The states that occur. -/
def Occurs (s₀ s : State) : Prop := Relation.ReflTransGen Steps s₀ s

end Genex.Lazy
