import Verif.Spec.Align
import Verif.Spec.Paa
import Verif.Model.Dbl

/-! # Specification: the nearest part of a series after standardisation -/

namespace Genex.Spec

variable {K : Type}

/-- The `m` points from the position `i` on. -/
def part (x : List K) (m i : ℕ) : List K := (x.drop i).take m

/-- All points are the same. -/
def Flat (w : List K) : Prop := ∀ x ∈ w, ∀ y ∈ w, x = y

section
variable [Field K]

/-- The mean squared deviation from the mean. -/
def variance (w : List K) : K := (w.map fun x => (x - mean w) ^ 2).sum / w.length

/-- The points as multiples of the standard deviation from the mean. -/
def standardised [HasSqrt K] (w : List K) : List K := w.map fun x => (x - mean w) / HasSqrt.sqrt (variance w)

variable [LinearOrder K]

/-- The square of the DTW distance of two series is `D`: the least sum of squared differences over all alignments in a band of
width `r`. -/
def Apart (r : ℕ) (a b : List K) (D : K) : Prop := IsLeast (bandedCosts a.length b.length r (sqCost a b)) D

/-- Of the parts of `data` as long as the query, at the positions before `n`, that are not flat, the one at `l` is the first of those
that are nearest to the query, after standardisation, and `D` is the square of the distance. -/
structure Nearest [HasSqrt K] (data query : List K) (r n l : ℕ) (D : K) : Prop where
  lt : l < n
  rough : ¬ Flat (part data query.length l)
  dist : Apart r (standardised (part data query.length l)) (standardised query) D
  first : ∀ i < n, ¬ Flat (part data query.length i) → ∀ D', Apart r (standardised (part data query.length i)) (standardised query) D' →
    D ≤ D' ∧ (i < l → D < D')

end

end Genex.Spec
