import Verif.Spec.Search
import Verif.Spec.Float

/-!
# The product of the warping band, rounded to a double
-/

namespace Genex

/-- `length * warpingBandRatio` (genex/distance/Distance.cpp:91) in double arithmetic: the exact product, rounded.  Beyond lengths of
`2 ^ 26` it is replaced by the exact product (or the last rounded one, if that is greater): there the rounded band can grow by two from
one length to the next. -/
def doubleMul (r : ℚ) (n : Int) : ℚ :=
  if n ≤ 2 ^ 26 then Spec.roundDouble (n * r) else max (Spec.roundDouble (2 ^ 26 * r)) (n * r)

namespace Spec

/-- Width of the warping band in double arithmetic: the fraction of the length, rounded to a double and then down, and at most
`len - 1`. -/
def doubleWidth (ratio : ℚ) (len : ℕ) : ℕ := min ⌊roundDouble (ratio * len)⌋₊ (len - 1)

/-- Series of `q` and `ℓ` points can be aligned in that band. -/
def ComparableDouble (ratio : ℚ) (q ℓ : ℕ) : Prop := q ≤ ℓ + doubleWidth ratio (max q ℓ) ∧ ℓ ≤ q + doubleWidth ratio (max q ℓ)

/-- Half the width of that band for series of `m` and `n` points.  If one series has a single point, the code lets an alignment go twice as
far. -/
def dtwWidth (ratio : ℚ) (m n : ℕ) : ℕ := (if m = 1 ∨ n = 1 then 2 else 1) * doubleWidth ratio (max m n)

variable {K : Type} [Field K] [LinearOrder K] [HasSqrt K]

/-- `d` is the least cost of an alignment of `a` and `b` no pair of which is more than `w` apart, infinity if there is none. -/
def LeastIn (w : ℕ) (a b : List K) (cost : List (ℕ × ℕ) → K) (d : Dbl K) : Prop :=
  (∃ x, d = .fin x ∧ IsLeast (bandedCosts a.length b.length w cost) x) ∨ (d = .inf ∧ bandedCosts a.length b.length w cost = ∅)

/-- `d` is the DTW distance of two series with the band `w`: the root of the summed squares, or the sum of the absolute differences, over
twice the longer length; or the largest difference. -/
def DtwIn (m : Metric) (w : ℕ) (a b : List K) (d : Dbl K) : Prop :=
  match m with
  | .euclidean => LeastIn w a b (fun p => HasSqrt.sqrt (sqCost a b p) / ((2 * max a.length b.length : ℕ) : K)) d
  | .manhattan => LeastIn w a b (fun p => absCost a b p / ((2 * max a.length b.length : ℕ) : K)) d
  | .chebyshev => LeastIn w a b (fun p => maxCost a b p) d
  | .sorensen => False
  | .cosine => False

end Spec

end Genex
