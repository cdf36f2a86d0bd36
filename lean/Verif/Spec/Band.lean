import Mathlib.Algebra.Order.Floor.Defs
import Mathlib.Algebra.Order.Floor.Semiring
import Mathlib.Data.Rat.Floor
import Mathlib.Tactic.Linarith
import Mathlib.Tactic.Positivity

/-!
# How the product of the warping band is taken

`calculateWarpingBandSize` (genex/distance/Distance.cpp:89-93) computes `length * warpingBandRatio` in double arithmetic
and rounds the product down.  `BandOps` is the product together with what the searches need to know about it, so that
every theorem that mentions the band holds for the exact product and for the product rounded to a double alike.
-/

namespace Genex

/-- A way of computing `length * ratio`. -/
class BandOps where
  /-- `length * warpingBandRatio` (Distance.cpp:91) -/
  mul : ℚ → Int → ℚ
  /-- the product of a nonnegative ratio is not negative -/
  nonneg : ∀ (r : ℚ) (n : ℕ), 0 ≤ r → 0 ≤ mul r n
  /-- it grows with the length -/
  mono : ∀ (r : ℚ) (n n' : ℕ), 0 ≤ r → n ≤ n' → mul r n ≤ mul r n'
  /-- a ratio of one or more covers the whole length -/
  full : ∀ (r : ℚ) (n : ℕ), 1 ≤ r → (n : ℚ) ≤ mul r n
  /-- the band grows by at most one when the length grows by one -/
  step : ∀ (r : ℚ) (n : ℕ), 0 ≤ r → 1 ≤ n → min ⌊mul r (n + 1 : ℕ)⌋ (n : Int) ≤ min ⌊mul r n⌋ ((n : Int) - 1) + 1

/-- The exact product. -/
@[reducible] def exactBand : BandOps where
  mul r n := n * r
  nonneg r n h := by positivity
  mono r n n' h hn := by
    apply mul_le_mul_of_nonneg_right _ h
    exact_mod_cast hn
  full r n h := by
    have : (0 : ℚ) ≤ n := by positivity
    push_cast
    nlinarith
  step r n h hn := by
    rcases le_or_gt 1 r with h1 | h1
    · have : (n : Int) ≤ ⌊((n : Int) : ℚ) * r⌋ := by
        rw [Int.le_floor]
        have : (0 : ℚ) ≤ n := by positivity
        push_cast
        nlinarith
      omega
    · have : ⌊(((n + 1 : ℕ) : Int) : ℚ) * r⌋ ≤ ⌊((n : Int) : ℚ) * r⌋ + 1 := by
        rw [← Int.floor_add_one]
        apply Int.floor_le_floor
        push_cast
        nlinarith
      omega

/-- Where nothing else is said the product is exact. -/
instance : BandOps := exactBand

end Genex
