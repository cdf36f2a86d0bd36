import Mathlib.Algebra.Order.Field.Basic
import Mathlib.Algebra.Order.Floor.Ring
import Mathlib.Data.Int.Log
import Mathlib.Algebra.Ring.Int.Parity

/-!
# Specification: rounding

`Rounding` is what most proofs use of the rounding of an arithmetic operation, `FloatOps` what those about its error use.
`roundTo p` rounds to `p` binary digits, to nearest and ties to even, without limits on the exponent.  `roundSub p lo` in addition has
no digits below `2 ^ lo`, which is the gradual underflow of IEEE 754.  `double` is `p = 53`, `lo = -1074`.
-/

namespace Genex.Spec

variable {K : Type} [Field K] [LinearOrder K]

/-- A rounding function: monotone, symmetric, and the identity on its results. -/
structure Rounding (rd : K → K) : Prop where
  mono : ∀ x y, x ≤ y → rd x ≤ rd y
  neg : ∀ x, rd (-x) = -rd x
  idem : ∀ x, rd (rd x) = rd x

/-- A rounding with relative error at most `u` up to an absolute error of at most `θ ^ 2`, as underflow makes; sums of two results do
not have the latter. -/
structure FloatOps (rd : K → K) (u θ : K) : Prop extends Rounding rd where
  err : ∀ x, |rd x - x| ≤ u * |x| + θ ^ 2
  add : ∀ x y, rd x = x → rd y = y → |rd (x + y) - (x + y)| ≤ u * |x + y|
  u_nonneg : 0 ≤ u
  θ_nonneg : 0 ≤ θ
  θ_le : θ ≤ u ^ 2

/-- The points are numbers that the rounding leaves as they are. -/
def Floats (rd : K → K) (a : List K) : Prop := ∀ x ∈ a, rd x = x

instance {rd : K → K} {a : List K} : Decidable (Floats rd a) := inferInstanceAs (Decidable (∀ x ∈ a, rd x = x))

/-- The sum of `k` terms `c`, rounded after each addition. -/
def sumOf (rd : K → K) (c : K) : ℕ → K
  | 0 => 0
  | k + 1 => rd (sumOf rd c k + c)

section
variable [FloorRing K]

/-- The nearest integer, the even one if there are two. -/
def roundEven (z : K) : ℤ :=
  if z - ⌊z⌋ < 1 / 2 then ⌊z⌋
  else if 1 / 2 < z - ⌊z⌋ then ⌊z⌋ + 1
  else if ⌊z⌋ % 2 = 0 then ⌊z⌋ else ⌊z⌋ + 1

/-- Exponent of the last of `p` digits of a number. -/
def lastDigit (p : ℕ) (x : K) : ℤ := Int.log 2 |x| - (p - 1)

/-- Rounding to `p` binary digits, to nearest, ties to even. -/
def roundTo (p : ℕ) (x : K) : K := roundEven (x / 2 ^ lastDigit p x) * 2 ^ lastDigit p x

/-- The same with gradual underflow: `2 ^ lo` is the smallest positive number. -/
def roundSub (p : ℕ) (lo : ℤ) (x : K) : K :=
  roundEven (x / 2 ^ max (lastDigit p x) lo) * 2 ^ max (lastDigit p x) lo

/-- The rounding of `double`, without overflow. -/
def roundDouble (x : K) : K := roundSub 53 (-1074) x

end

end Genex.Spec
