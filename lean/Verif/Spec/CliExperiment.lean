import Verif.Model.Dbl
import Mathlib.Data.Finset.Card
import Mathlib.Data.Finset.Lattice.Basic

/-! # Specification: agreement of two lists of results -/

namespace Genex.Spec

variable {K : Type} [Field K] [LinearOrder K]

/-- Two finite distances differ by less than `10 ^ -9`. -/
def SameDist : Dbl K → Dbl K → Prop
  | .fin x, .fin y => |x - y| < 1 / 10 ^ 9
  | _, _ => False

instance (x y : Dbl K) : Decidable (SameDist x y) := by
  cases x <;> cases y <;> unfold SameDist <;> infer_instance

/-- The number of places at which two lists of distances agree. -/
def agreeing (a b : List (Dbl K)) : ℕ := ((a.zip b).filter fun p => SameDist p.1 p.2).length

/-- The Jaccard index of two finite sets. -/
def jaccard {α : Type} [DecidableEq α] (s t : Finset α) : ℚ := (s ∩ t).card / (s ∪ t).card

end Genex.Spec
