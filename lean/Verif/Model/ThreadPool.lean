import Mathlib.Data.Fintype.Basic
import Verif.Model.Group

/-!
# Thread pool (genex/lib/ThreadPool.hpp) and multi-threaded grouping (genex/group/GlobalGroupSpace.cpp:90-115)

A transition system.  Each thread takes one step at a time, in any order; the steps between two steps of the same thread are
arbitrary.  The mutex is explicit.  A task is a list of updates of its own slot of memory, so tasks interleave update by
update.  `std::future`, `std::packaged_task`: the future of a task is ready when the task has ended, and `get()` then returns
its value or throws its exception.  Not modelled: failure to start a thread.
-/

namespace Genex.Pool

/-- Where a worker is in its loop, genex/lib/ThreadPool.hpp:67-82. -/
inductive Worker (S : Type) where
  /-- about to lock `queue_mutex`: line 72, or inside `wait` after being woken -/
  | acquire
  /-- holds the mutex: the predicate of `wait` and lines 75-78 are next -/
  | hold
  /-- blocked in `condition.wait` -/
  | waiting
  /-- runs a task, the mutex being released: line 81; the updates still to be made -/
  | running (t : ℕ) (rest : List (S → S))
  /-- has returned, line 76 -/
  | exited

/-- A notified worker. -/
def Worker.wake {S : Type} : Worker S → Worker S
  | .waiting => .acquire
  | x => x

/-- What the owner of the pool does before destroying it. -/
inductive Op where
  | enqueue (t : ℕ)
  /-- `get()` on the future of a task -/
  | get (t : ℕ)
deriving DecidableEq

/-- Where the owner is. -/
inductive Owner where
  /-- the next operation; when none is left, the destructor -/
  | op (ops : List Op)
  /-- in `enqueue`, holding the mutex: genex/lib/ThreadPool.hpp:101-106 -/
  | push (t : ℕ) (ops : List Op)
  /-- in `enqueue`, about to call `notify_one`: line 108 -/
  | notify (ops : List Op)
  /-- in the destructor, holding the mutex: line 117 -/
  | setStop
  /-- about to call `notify_all`: line 119 -/
  | notifyAll
  /-- joins worker `k`: lines 120-121 -/
  | join (k : ℕ)
  /-- the destructor has returned -/
  | done

inductive Holder (n : ℕ) where
  | owner
  | worker (w : Fin n)

/-- State of a pool of `n` workers. `enqueued`, `started`, `finished` record history and are never read by a step, apart from
`finished` by `get`. -/
structure State (n : ℕ) (S : Type) where
  queue : List ℕ
  stop : Bool
  lock : Option (Holder n)
  workers : Fin n → Worker S
  owner : Owner
  slot : ℕ → S
  /-- sum of the values got, and the exception thrown by `get` -/
  acc : Int
  exc : Option Fault
  enqueued : List ℕ
  started : List ℕ
  finished : List ℕ

/-- What the tasks do: the updates of task `t`, and the value or exception its final state amounts to. -/
structure Tasks (S : Type) where
  prog : ℕ → List (S → S)
  fut : S → Res ℕ

/-- The pool as constructed (genex/lib/ThreadPool.hpp:60-85). -/
def init {S : Type} (n : ℕ) (slot : ℕ → S) (ops : List Op) : State n S :=
  { queue := [], stop := false, lock := none, workers := fun _ => .acquire, owner := .op ops, slot := slot, acc := 0,
    exc := none, enqueued := [], started := [], finished := [] }

variable {n : ℕ} {S : Type}

/-- Worker `w` moves to `x`. -/
def State.put (s : State n S) (w : Fin n) (x : Worker S) : State n S := { s with workers := Function.update s.workers w x }

/-- The steps; the flag marks spurious wake-ups. -/
inductive Step (P : Tasks S) : Bool → State n S → State n S → Prop
  /-- line 72 -/
  | acquire (s w) (h : s.workers w = .acquire) (hl : s.lock = none) :
      Step P false s { s.put w .hold with lock := some (.worker w) }
  /-- lines 75-76 -/
  | exit (s w) (h : s.workers w = .hold) (hs : s.stop = true) (hq : s.queue = []) :
      Step P false s { s.put w .exited with lock := none }
  /-- lines 77-79 -/
  | pop (s w) (t q) (h : s.workers w = .hold) (hq : s.queue = t :: q) :
      Step P false s { s.put w (.running t (P.prog t)) with lock := none, queue := q, started := s.started ++ [t] }
  /-- lines 73-74: the predicate is false -/
  | wait (s w) (h : s.workers w = .hold) (hs : s.stop = false) (hq : s.queue = []) :
      Step P false s { s.put w .waiting with lock := none }
  | spurious (s w) (h : s.workers w = .waiting) : Step P true s (s.put w .acquire)
  /-- line 81: one update of the task's slot -/
  | run (s w) (t f r) (h : s.workers w = .running t (f :: r)) :
      Step P false s { s.put w (.running t r) with slot := Function.update s.slot t (f (s.slot t)) }
  /-- line 81: the task ends and its future becomes ready -/
  | finish (s w) (t) (h : s.workers w = .running t []) :
      Step P false s { s.put w .acquire with finished := s.finished ++ [t] }
  /-- line 99 -/
  | lockEnqueue (s) (t ops) (h : s.owner = .op (.enqueue t :: ops)) (hl : s.lock = none) :
      Step P false s { s with owner := .push t ops, lock := some .owner }
  /-- lines 102-106 -/
  | push (s) (t ops) (h : s.owner = .push t ops) (hs : s.stop = false) :
      Step P false s { s with owner := .notify ops, lock := none, queue := s.queue ++ [t], enqueued := s.enqueued ++ [t] }
  /-- line 103: `enqueue on stopped ThreadPool` -/
  | pushStopped (s) (t ops) (h : s.owner = .push t ops) (hs : s.stop = true) :
      Step P false s { s with owner := .op [], lock := none, exc := some (.std "enqueue on stopped ThreadPool") }
  /-- line 108, some worker is waiting -/
  | notifyOne (s) (ops w) (h : s.owner = .notify ops) (hw : s.workers w = .waiting) :
      Step P false s { s.put w .acquire with owner := .op ops }
  /-- line 108, no worker is waiting -/
  | notifyNone (s) (ops) (h : s.owner = .notify ops) (hw : ∀ w, s.workers w ≠ .waiting) :
      Step P false s { s with owner := .op ops }
  /-- `get()` returns -/
  | getOk (s) (t ops k) (h : s.owner = .op (.get t :: ops)) (hf : t ∈ s.finished) (hk : P.fut (s.slot t) = .ok k) :
      Step P false s { s with owner := .op ops, acc := s.acc + k }
  /-- `get()` throws, and the exception leaves the function that owns the pool -/
  | getThrow (s) (t ops e) (h : s.owner = .op (.get t :: ops)) (hf : t ∈ s.finished) (hk : P.fut (s.slot t) = .error e) :
      Step P false s { s with owner := .op [], exc := some e }
  /-- line 116 -/
  | lockStop (s) (h : s.owner = .op []) (hl : s.lock = none) :
      Step P false s { s with owner := .setStop, lock := some .owner }
  /-- lines 117-118 -/
  | setStop (s) (h : s.owner = .setStop) :
      Step P false s { s with owner := .notifyAll, lock := none, stop := true }
  /-- line 119 -/
  | notifyAll (s) (h : s.owner = .notifyAll) :
      Step P false s { s with owner := .join 0, workers := fun w => (s.workers w).wake }
  /-- line 121 -/
  | join (s) (k : Fin n) (h : s.owner = .join k) (hw : s.workers k = .exited) :
      Step P false s { s with owner := .join (k + 1) }
  /-- line 122 -/
  | joined (s) (h : s.owner = .join n) : Step P false s { s with owner := .done }

/-- `Run P k s s' m`: `s'` is reached from `s` in `m` steps, of which `k` are spurious wake-ups. -/
inductive Run (P : Tasks S) : ℕ → State n S → State n S → ℕ → Prop
  | refl (s) : Run P 0 s s 0
  | tail {k m b s s' s''} (h : Run P k s s' m) (h' : Step P b s' s'') : Run P (k + b.toNat) s s'' (m + 1)

end Genex.Pool

namespace Genex

variable {K : Type} [Field K] [LinearOrder K] [HasSqrt K]

/-- `_group(i)` as a list of updates of `localLengthGroupSpace[i]` and of the value or exception of the task
(genex/group/GlobalGroupSpace.cpp:58-64): creation, one update for every round of the loops of `generateGroups`, return. -/
def groupProg [Arith K] (ds : Dataset K) (ratio : ℚ) (log : ℕ → Bool) (p : DistRef) (t : Dbl K) (i : ℕ) :
    List (Option (LocalSpace K) × Res ℕ → Option (LocalSpace K) × Res ℕ) :=
  let start : Option (LocalSpace K) × Res ℕ → Option (LocalSpace K) × Res ℕ := fun s =>
    match LocalSpace.new ds i with
    | .error e => (s.1, .error e)
    | .ok sp => (some sp, .ok 0)
  let round (c : ℕ × ℕ) : Option (LocalSpace K) × Res ℕ → Option (LocalSpace K) × Res ℕ := fun s =>
    match s with
    | (some sp, .ok k) =>
      match sp.groupStep ds ratio p t (log i) c with
      | .error e => (some sp, .error e)
      | .ok sp' => (some sp', .ok k)
    | s => s
  let finish : Option (LocalSpace K) × Res ℕ → Option (LocalSpace K) × Res ℕ := fun s =>
    match s with
    | (some sp, .ok _) => (some sp, .ok sp.groups.length)
    | s => s
  [start] ++ ((List.range (ds.maxCol - i + 1).toNat).flatMap
    (fun s => (List.range ds.itemCount).map (fun j => (j, s)))).map round ++ [finish]

/-- The tasks of `groupMultiThreaded`. -/
def groupTasks [Arith K] (ds : Dataset K) (ratio : ℚ) (log : ℕ → Bool) (p : DistRef) (t : Dbl K) :
    Pool.Tasks (Option (LocalSpace K) × Res ℕ) :=
  { prog := groupProg ds ratio log p t, fut := Prod.snd }

/-- What `groupMultiThreaded` asks of the pool: all lengths enqueued, then all futures in the same order
(genex/group/GlobalGroupSpace.cpp:100-113). -/
def groupOps (is : List ℕ) : List Pool.Op := is.map .enqueue ++ is.map .get

/-- `groupMultiThreaded` (genex/group/GlobalGroupSpace.cpp:90-115): `out` is a possible outcome with `n` threads.  Undefined behaviour of
any task is undefined behaviour of the program, whether its future is asked for or not. -/
inductive GSpace.GroupMulti [Arith K] (ds : Dataset K) (ratio : ℚ) (log : ℕ → Bool) (name : String) (t : Dbl K) (n : ℕ)
    (whole : Bool) (gs : GSpace K) : GSpace K × Res Int → Prop
  | fails (e) (h : (gs.prepare ds name t whole).2 = .error e) :
      GroupMulti ds ratio log name t n whole gs ((gs.prepare ds name t whole).1, .error e)
  | runs (p) (h : (gs.prepare ds name t whole).2 = .ok p) (k m) (s : Pool.State n (Option (LocalSpace K) × Res ℕ))
      (hr : Pool.Run (groupTasks ds ratio log p t) k
        (Pool.init n (fun _ => (none, .ok 0)) (groupOps (gs.prepare ds name t whole).1.lengths)) s m)
      (hd : s.owner = .done) (hu : ∀ i w, (s.slot i).2 ≠ .error (.ub w)) :
      GroupMulti ds ratio log name t n whole gs
        ({ (gs.prepare ds name t whole).1 with
           spaces := (List.range (gs.prepare ds name t whole).1.spaces.length).map (fun i => (s.slot i).1)
           total := s.acc },
         match s.exc with | none => .ok s.acc | some e => .error e)
  | undefined (p) (h : (gs.prepare ds name t whole).2 = .ok p) (k m) (s : Pool.State n (Option (LocalSpace K) × Res ℕ))
      (hr : Pool.Run (groupTasks ds ratio log p t) k
        (Pool.init n (fun _ => (none, .ok 0)) (groupOps (gs.prepare ds name t whole).1.lengths)) s m)
      (hd : s.owner = .done) (i w) (hu : (s.slot i).2 = .error (.ub w)) :
      GroupMulti ds ratio log name t n whole gs ((gs.prepare ds name t whole).1, .error (.ub w))

/-- `groupAllLengths` (genex/GroupableTimeSeriesSet.cpp:22-47): `out` is a possible outcome. -/
def GSet.GroupAll [Arith K] (ratio : ℚ) (log : ℕ → Bool) (name : String) (t : Dbl K) (whole : Bool) (numThreads : Int) (s : GSet K)
    (out : GSet K × Res Int) : Prop :=
  ∃ multi, (1 < numThreads → GSpace.GroupMulti s.ds ratio log name t numThreads.toNat whole GSpace.fresh multi) ∧
    out = s.groupAllLengths (GSpace.group s.ds ratio log name t whole) (fun _ => multi) numThreads

end Genex
