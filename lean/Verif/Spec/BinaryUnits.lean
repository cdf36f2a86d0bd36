import Verif.Model.Dataset

/-!
# Specification: numbers in another unit, the special values kept
-/

namespace Genex.Spec

variable {K : Type} [Field K] [LinearOrder K]

/-- A number multiplied by `s`; infinities and NaN stay what they are. -/
def stretch (s : K) : Dbl K → Dbl K
  | .fin x => .fin (s * x)
  | d => d

/-- Multiplication by `s` does not interfere with the rounding. -/
def Respects (rd : K → K) (s : K) : Prop := 0 < s ∧ ∀ x, rd (s * x) = s * rd x

/-- The dataset with every number of its array in the other unit. -/
def stretched (s : K) (ds : Dataset K) : Dataset K := { ds with data := ds.data.map (·.map (stretch s)) }

end Genex.Spec
