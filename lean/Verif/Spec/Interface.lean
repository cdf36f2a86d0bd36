import Verif.Spec.EndToEnd
import Verif.Spec.Pairwise

/-!
# Distances and bands as the caller of the interface knows them
-/

namespace Genex.Registry

open Genex.Api

variable {K : Type}

/-- The band ratio after some calls: the one set last, or 0.1. -/
def ratioSet : List (AnyCall K) → ℚ
  | [] => 1 / 10
  | c :: l =>
    -- the latest call first
    match c with
    | .call (.setRatio r) => r
    | _ => ratioSet l

/-- The textbook distance of two series of one length.  Not for the cosine and sorensen distances. -/
def textbook [Field K] [LinearOrder K] [HasSqrt K] (m : Metric) (a b : List K) : Option K :=
  match m with
  | .euclidean => some (Spec.rms a b)
  | .manhattan => some (Spec.meanAbs a b)
  | .chebyshev => some (Spec.maxAbs a b)
  | .sorensen => none
  | .cosine => none

/-- The cost of an alignment of two series in the terms of the DTW distance. -/
def alignCost [Field K] [LinearOrder K] [HasSqrt K] (m : Metric) (a b : List K) (p : List (ℕ × ℕ)) : Option K :=
  match m with
  | .euclidean => some (HasSqrt.sqrt (Spec.sqCost a b p) / ((2 * max a.length b.length : ℕ) : K))
  | .manhattan => some (Spec.absCost a b p / ((2 * max a.length b.length : ℕ) : K))
  | .chebyshev => some (Spec.maxCost a b p)
  | .sorensen => none
  | .cosine => none

end Genex.Registry
