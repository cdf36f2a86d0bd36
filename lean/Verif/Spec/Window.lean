import Mathlib.Data.List.Basic
import Mathlib.Order.Bounds.Basic
import Mathlib.Algebra.Order.Field.Basic

/-! # Specification: sliding windows -/

namespace Genex.Spec

/-- The values of `a` at positions at most `r` away from `i`. -/
def window {K : Type} (a : List K) (r i : ℕ) : Set K :=
  {v | ∃ j, a[j]? = some v ∧ i ≤ j + r ∧ j ≤ i + r}

/-- Distance of `x` from the interval `[lo, up]`. -/
def outside {K : Type} [Field K] [LinearOrder K] (lo up x : K) : K := max 0 (max (x - up) (lo - x))

end Genex.Spec
