import Verif.Spec.Float
import Verif.Model.Group

/-!
# Specification: data whose distances cannot overflow
-/

namespace Genex.Spec

variable {K : Type} [Field K] [LinearOrder K]

/-- The point is finite and at most `B` in size. -/
def Below (B : K) (x : Dbl K) : Prop := ∃ y, x = .fin y ∧ |y| ≤ B

/-- The greatest sums that `n` terms can make, of points at most `B` in size, are not greater than `X`. -/
def NoOverflow (rd : K → K) (X B : K) (n : ℕ) : Metric → Prop
  | .euclidean => sumOf rd (rd (rd (2 * B) * rd (2 * B))) n ≤ X
  | .manhattan => sumOf rd (rd (2 * B)) n ≤ X
  | .chebyshev => rd (2 * B) ≤ X
  | .cosine => False
  | .sorensen => False

/-- The metric of a distance function. -/
def metricOf : DistRef → Metric
  | .pairwise m => m
  | .warped m => m
  | .cascade => .euclidean

/-- Every number in the array of the dataset. -/
def DataAll (P : Dbl K → Prop) (ds : Dataset K) : Prop := ∀ buf, ds.data = some buf → ∀ x ∈ buf, P x

/-- They are in range. -/
def DataBelow (B : K) (ds : Dataset K) : Prop := DataAll (Below B) ds

/-- The array has at most `L` numbers. -/
def DataSize (L : ℕ) (ds : Dataset K) : Prop := ∀ buf, ds.data = some buf → buf.length ≤ L

/-- The same for the representatives that groups keep themselves, as those read from a file. -/
def CentroidsBelow (B : K) (L : ℕ) (gs : GSpace K) : Prop :=
  ∀ sp, some sp ∈ gs.spaces → ∀ g ∈ sp.groups, ∀ pts, g.centroid = .own pts → (∀ x ∈ pts, Below B x) ∧ pts.length ≤ L

end Genex.Spec
