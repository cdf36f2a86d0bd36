import Verif.Model.Scripts
import Mathlib.Algebra.Order.Floor.Ring

/-!
# The script that groups the data sets (scripts/2_generate_groups.py), and the extents of scripts/5_genex.py

Numbers are rounded by `rd`; names of data sets, files and logging are left out.
-/

namespace Genex.Scripts

section
variable {K : Type} [Field K] [LinearOrder K] [FloorRing K]

/-- The number of entries of `np.arange(start, stop, step)`: the quotient rounded up, 0 if negative. -/
def arangeLen (rd : K → K) (start stop step : K) : ℕ := ⌈rd (rd (stop - start) / step)⌉.toNat

/-- Entry `i` of `np.arange(start, stop, step)`: the first two are `start` and `start + step`; the others go on with their difference. -/
def arangeAt (rd : K → K) (start step : K) (i : ℕ) : K :=
  if i = 0 then start
  else if i = 1 then rd (start + step)
  else rd (start + rd (i * rd (rd (start + step) - start)))

/-- `round` of Python 2: the nearest integer, away from 0 if there are two. -/
def pyRound (x : K) : ℤ := if 0 ≤ x then ⌊x + 1 / 2⌋ else -⌊-x + 1 / 2⌋

/-- `round(st * 10) / 10` (scripts/2_generate_groups.py:37). -/
def toTenth (rd : K → K) (x : K) : K := rd ((pyRound (rd (x * 10)) : K) / 10)

/-- The thresholds with which a data set is grouped (scripts/2_generate_groups.py:36-37); the step is the number nearest to one tenth. -/
def thresholds (rd : K → K) (fromSt toSt : K) : List K :=
  (List.range (arangeLen rd fromSt toSt (rd (1 / 10)))).map fun i => toTenth rd (arangeAt rd fromSt (rd (1 / 10)) i)

/-- The extent of the search in round `i` (scripts/5_genex.py:150-151). -/
def extent (rd : K → K) (subseq i : ℕ) : ℤ := pyRound (rd (rd (arangeAt rd (rd (1 / 10)) (rd (1 / 10)) i / 100) * subseq))

end

/-- What is recorded as progress: the distance and the threshold; written `'%s %s %.1f'` with the name of the data set (scripts/2_generate_groups.py:118, 126). -/
abbrev Params (K : Type) := String × K

variable {K : Type} [DecidableEq K]

/-- `exclude` (scripts/2_generate_groups.py:115-119). -/
def exclude (startOver : Bool) (progress : List (Params K)) (c : Params K) : Bool := !startOver && decide (c ∈ progress)

/-- `progress` (scripts/2_generate_groups.py:121-132). -/
def record (progress : List (Params K)) (c : Params K) : List (Params K) := if c ∈ progress then progress else progress ++ [c]

/-- The loop of `group_dataset` over distances and thresholds (scripts/2_generate_groups.py:35-82).  `grp` groups and saves.  The result: the progress recorded, the parameters grouped,
and the exception that ends the script, if any. -/
def groupLoop (startOver dry : Bool) (grp : Params K → Res Unit) : List (Params K) → List (Params K) → List (Params K) × List (Params K) × Res Unit
  | [], progress => (progress, [], .ok ())
  | c :: cs, progress =>
    if exclude startOver progress c then groupLoop startOver dry grp cs progress
    else if dry then groupLoop startOver dry grp cs progress
    else match grp c with
      | .error f => (progress, [], .error f)
      | .ok () =>
        let r := groupLoop startOver dry grp cs (record progress c)
        (r.1, c :: r.2.1, r.2.2)

end Genex.Scripts
