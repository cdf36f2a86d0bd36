import Verif.Spec.Band
import Mathlib.Data.List.Chain
import Mathlib.Data.List.Basic
import Mathlib.Algebra.Order.Field.Basic
import Mathlib.Algebra.Order.Floor.Semiring
import Mathlib.Data.Rat.Floor

/-!
# Specification: alignments of two series

An alignment (warping path) of a series of length `m` with one of length `n` is a list of index pairs that starts at
`(0,0)`, ends at `(m-1,n-1)` and advances one or both indices by one at every step.
-/

namespace Genex.Spec

/-- One step of an alignment. -/
def Step (c d : ℕ × ℕ) : Prop :=
  d = (c.1 + 1, c.2 + 1) ∨ d = (c.1 + 1, c.2) ∨ d = (c.1, c.2 + 1)

instance (c d : ℕ × ℕ) : Decidable (Step c d) := by unfold Step; infer_instance

/-- `p` aligns a series of length `m ≥ 1` with one of length `n ≥ 1`. -/
structure Alignment (m n : ℕ) (p : List (ℕ × ℕ)) : Prop where
  first : p.head? = some (0, 0)
  last : p.getLast? = some (m - 1, n - 1)
  steps : p.IsChain Step

/-- No pair of the alignment is more than `r` apart. -/
def InBand (r : ℕ) (p : List (ℕ × ℕ)) : Prop := ∀ c ∈ p, c.1 ≤ c.2 + r ∧ c.2 ≤ c.1 + r

/-- Width of the warping band for series of length at most `len`: the given fraction of `len`, rounded down, and at most
`len - 1`.  The fraction is the exact product `ratio * len` unless another `BandOps` is given. -/
def bandWidth [BandOps] (ratio : ℚ) (len : ℕ) : ℕ := min ⌊BandOps.mul ratio len⌋₊ (len - 1)

/-- The costs of all alignments inside a band of width `r`. -/
def bandedCosts {K : Type} (m n r : ℕ) (cost : List (ℕ × ℕ) → K) : Set K :=
  {v | ∃ p, Alignment m n p ∧ InBand r p ∧ cost p = v}

/-- The differences along an alignment. -/
def diffs {K : Type} [Field K] (a b : List K) (p : List (ℕ × ℕ)) : List K :=
  p.map fun c => a.getD c.1 0 - b.getD c.2 0

/-- Sum of squared differences along an alignment. -/
def sqCost {K : Type} [Field K] (a b : List K) (p : List (ℕ × ℕ)) : K :=
  ((diffs a b p).map fun d => d ^ 2).sum

/-- Sum of absolute differences along an alignment. -/
def absCost {K : Type} [Field K] [LinearOrder K] (a b : List K) (p : List (ℕ × ℕ)) : K :=
  ((diffs a b p).map fun d => |d|).sum

/-- Largest absolute difference along an alignment. -/
def maxCost {K : Type} [Field K] [LinearOrder K] (a b : List K) (p : List (ℕ × ℕ)) : K :=
  ((diffs a b p).map fun d => |d|).foldr max 0

end Genex.Spec
