import Verif.Model.Machine
import Verif.Model.ThreadPool

/-!
# Grouping with several threads, `int` of 32 bits

The tasks of `groupMultiThreaded` with the integers of C91.  The pool itself (genex/lib/ThreadPool.hpp) counts with `size_t` only.
-/

namespace Genex

variable {K : Type} [Field K] [LinearOrder K]

/-- `totalTimeSeries`, `counter` and the space of a running task (genex/group/LocalLengthGroupSpace.cpp:50-60). -/
structure Running (K : Type) where
  total : Int
  counter : Int
  space : LocalSpace K

/-- `_group(i)` (genex/group/GlobalGroupSpace.cpp:58-64) as a list of updates of its variables and of the value or exception of the task:
creation, the product `totalTimeSeries`, one update for every round of the loops of `generateGroups`, return. -/
def groupProgI [Arith K] (ds : Dataset K) (ratio : ℚ) (log : ℕ → Bool) (p : DistRef) (t : Dbl K) (i : ℕ) :
    List (Option (Running K) × Res ℕ → Option (Running K) × Res ℕ) :=
  let start : Option (Running K) × Res ℕ → Option (Running K) × Res ℕ := fun s =>
    match LocalSpace.newI ds i with
    | .error e => (s.1, .error e)
    | .ok sp =>
      match int32 (sp.subCount * ds.itemCount) with
      | .error e => (some ⟨0, 0, sp⟩, .error e)
      | .ok total => (some ⟨total, 0, sp⟩, .ok 0)
  let round (c : ℕ × ℕ) : Option (Running K) × Res ℕ → Option (Running K) × Res ℕ := fun s =>
    match s with
    | (some x, .ok k) =>
      match x.space.groupBodyI ds ratio p t (log i) x.total x.counter c with
      | .error e => (some x, .error e)
      | .ok r => (some ⟨x.total, r.1, r.2⟩, .ok k)
    | s => s
  let finish : Option (Running K) × Res ℕ → Option (Running K) × Res ℕ := fun s =>
    match s with
    | (some x, .ok _) => (some x, .ok x.space.groups.length)
    | s => s
  [start] ++ ((List.range (ds.maxCol - i + 1).toNat).flatMap
    (fun s => (List.range ds.itemCount).map (fun j => (j, s)))).map round ++ [finish]

/-- The tasks of `groupMultiThreaded`. -/
def groupTasksI [Arith K] (ds : Dataset K) (ratio : ℚ) (log : ℕ → Bool) (p : DistRef) (t : Dbl K) :
    Pool.Tasks (Option (Running K) × Res ℕ) :=
  { prog := groupProgI ds ratio log p t, fut := Prod.snd }

/-- `groupMultiThreaded` (genex/group/GlobalGroupSpace.cpp:90-115): `out` is a possible outcome with `n` threads.  The total is a sum of
numbers that are not negative, so one of the additions overflows if the sum of what was got does.  Undefined behaviour of any task is
undefined behaviour of the program. -/
inductive GSpace.GroupMultiI [Arith K] (ds : Dataset K) (ratio : ℚ) (log : ℕ → Bool) (name : String) (t : Dbl K) (n : ℕ)
    (whole : Bool) (gs : GSpace K) : GSpace K × Res Int → Prop
  | fails (e) (h : (gs.prepare ds name t whole).2 = .error e) :
      GroupMultiI ds ratio log name t n whole gs ((gs.prepare ds name t whole).1, .error e)
  | wide (p e) (h : (gs.prepare ds name t whole).2 = .ok p) (hw : int32 (ds.maxCol + 1) = .error e) :
      GroupMultiI ds ratio log name t n whole gs ((gs.prepare ds name t whole).1, .error e)
  | runs (p x) (h : (gs.prepare ds name t whole).2 = .ok p) (hw : int32 (ds.maxCol + 1) = .ok x) (k m)
      (s : Pool.State n (Option (Running K) × Res ℕ))
      (hr : Pool.Run (groupTasksI ds ratio log p t) k
        (Pool.init n (fun _ => (none, .ok 0)) (groupOps (gs.prepare ds name t whole).1.lengths)) s m)
      (hd : s.owner = .done) (hu : ∀ i w, (s.slot i).2 ≠ .error (.ub w)) :
      GroupMultiI ds ratio log name t n whole gs
        ({ (gs.prepare ds name t whole).1 with
           spaces := (List.range (gs.prepare ds name t whole).1.spaces.length).map (fun i => (s.slot i).1.map Running.space)
           total := s.acc },
         match int32 s.acc with
         | .error e => .error e
         | .ok _ => match s.exc with | none => .ok s.acc | some e => .error e)
  | undefined (p x) (h : (gs.prepare ds name t whole).2 = .ok p) (hw : int32 (ds.maxCol + 1) = .ok x) (k m)
      (s : Pool.State n (Option (Running K) × Res ℕ))
      (hr : Pool.Run (groupTasksI ds ratio log p t) k
        (Pool.init n (fun _ => (none, .ok 0)) (groupOps (gs.prepare ds name t whole).1.lengths)) s m)
      (hd : s.owner = .done) (i w) (hu : (s.slot i).2 = .error (.ub w)) :
      GroupMultiI ds ratio log name t n whole gs ((gs.prepare ds name t whole).1, .error (.ub w))

/-- `groupAllLengths` (genex/GroupableTimeSeriesSet.cpp:22-47): `out` is a possible outcome. -/
def GSet.GroupAllI [Arith K] (ratio : ℚ) (log : ℕ → Bool) (name : String) (t : Dbl K) (whole : Bool) (numThreads : Int) (s : GSet K)
    (out : GSet K × Res Int) : Prop :=
  ∃ multi, (1 < numThreads → GSpace.GroupMultiI s.ds ratio log name t numThreads.toNat whole GSpace.fresh multi) ∧
    out = s.groupAllLengths (GSpace.groupI s.ds ratio log name t whole) (fun _ => multi) numThreads

end Genex
