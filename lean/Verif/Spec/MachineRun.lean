import Verif.Spec.Double
import Verif.Spec.Machine
import Verif.Spec.Float
import Verif.Model.MachineRun

/-!
# Specification: files that the machine can handle
-/

namespace Genex.Spec

open Genex Genex.Registry

variable {K : Type} [Field K] [LinearOrder K] [FloorRing K]

/-- The file of a job has the numbers `file`, `W` columns in its longest line and values from column `st` (after the name) on.  All
numbers are doubles of absolute value at most `2 ^ 480`.  The lines times the columns are less than a third of `2 ^ 31`. -/
structure Readable (parse : Text → Parsed K) (j : Job K) (st W : ℕ) (file : List (List K)) : Prop where
  has : FileHas parse j.content j.sep j.maxNumRow st j.hasName file
  col : j.startCol = st
  widest : IsGreatest {n | ∃ l ∈ linesOf j.content, n = (columns j.sep l).length} W
  size : (linesOf j.content).length * W < 715827882
  lines : (linesOf j.content).length < 2 ^ 31
  values : Sized roundDouble (2 ^ 480) file

/-- And the subsequences of two and more points are less than `2 ^ 31`, and the places of each length whose progress is logged 5 to
21474839. -/
structure Manageable (parse : Text → Parsed K) (j : Job K) (log : ℕ → Bool) (st W : ℕ) (file : List (List K)) : Prop
    extends Readable parse j st W file where
  groups : groupable ((W : Int) - valueCol st j.hasName) false file < 2 ^ 31
  logged : ∀ ℓ : ℕ, 2 ≤ ℓ → ℓ + valueCol st j.hasName ≤ W → log ℓ = true →
    5 ≤ file.length * ((W : Int) - valueCol st j.hasName - ℓ + 1) ∧ file.length * ((W : Int) - valueCol st j.hasName - ℓ + 1) < 21474840

end Genex.Spec
