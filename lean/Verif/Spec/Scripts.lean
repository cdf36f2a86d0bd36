import Verif.Model.Dbl
import Mathlib.Data.Finset.Card
import Mathlib.Data.Finset.Prod
import Mathlib.Order.Interval.Finset.Nat

/-! # Specification: subsequences of a collection of series of one length -/

namespace Genex.Spec

/-- The subsequences of at least two points of `count` series of `length` points: series, first point, one after the last point. -/
def subsequences (count length : ℕ) : Finset (ℕ × ℕ × ℕ) :=
  (Finset.range count ×ˢ (Finset.range (length + 1) ×ˢ Finset.range (length + 1))).filter fun t => t.2.1 + 2 ≤ t.2.2

/-- A bound that does not apply if it is negative. -/
def Within (lo hi x : Int) : Prop := (0 ≤ lo → lo ≤ x) ∧ (0 ≤ hi → x ≤ hi)

/-- A finite number of absolute value below `10 ^ -9`. -/
def SmallErr {K : Type} [Field K] [LinearOrder K] : Dbl K → Prop
  | .fin v => |v| < 1 / 10 ^ 9
  | _ => False

end Genex.Spec
