import Verif.Spec.Ucr

/-! # Specification: windows whose variance rounding does not hide -/

namespace Genex.Spec

variable {K : Type} [Field K] [LinearOrder K]

/-- The variance of `w`, whose numbers are at most `M`, is positive, and rounding `N` times, each time with the relative error `u` (and `θ ^ 2` at underflow), changes
no more of it than the part `τ`. -/
def Varied (u θ : K) (N : ℕ) (M τ : K) (w : List K) : Prop :=
  0 < variance w ∧ 2 * M ^ 2 * ((1 + u) ^ (2 * N + 6) - 1) + 6 * θ ^ 2 ≤ τ * variance w

end Genex.Spec
