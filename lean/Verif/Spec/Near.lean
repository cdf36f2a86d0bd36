import Verif.Spec.Search

/-!
# Specification: distances up to an error
-/

namespace Genex.Spec

variable {K : Type} [Field K] [LinearOrder K] [HasSqrt K]

/-- `d` is the DTW distance of `a` and `b` up to the relative error `e` and the absolute error `α`; infinite only if it is. -/
def NearDtw (m : Metric) [BandOps] (ratio : ℚ) (e α : K) (a b : List K) (d : Dbl K) : Prop :=
  (d = .inf ∧ Dtw m ratio a b .inf) ∨ ∃ x D, d = .fin x ∧ Dtw m ratio a b (.fin D) ∧ |x - D| ≤ e * D + α

end Genex.Spec
