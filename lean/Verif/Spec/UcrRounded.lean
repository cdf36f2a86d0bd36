import Verif.Spec.Ucr
import Verif.Spec.Float

/-!
# Specification: the nearest part of a series, with rounded results

Everything that is written with `fl` is rounded by it.  Nothing here is approximate: these are the numbers that the operations give when
their results are rounded.
-/

namespace Genex.Spec

variable {K : Type} [Field K] [LinearOrder K]

/-- The square of a difference. -/
def sqBy (fl : K → K) (x y : K) : K := fl (fl (x - y) * fl (x - y))

/-- The cost of an alignment, added up along it. -/
def sqCostBy (fl : K → K) (a b : List K) (p : List (ℕ × ℕ)) : K :=
  p.foldl (fun s c => fl (s + sqBy fl (a.getD c.1 0) (b.getD c.2 0))) 0

/-- `D` is the least of the costs of the alignments in a band of width `r`. -/
def ApartBy (fl : K → K) (r : ℕ) (a b : List K) (D : K) : Prop := IsLeast (bandedCosts a.length b.length r (sqCostBy fl a b)) D

/-- The sum of some numbers, from the left. -/
def totalBy (fl : K → K) (l : List K) : K := l.foldl (fun s x => fl (s + x)) 0

/-- The sum that is kept of the last numbers of `x`, before the number `i` comes: every number is added when it comes, and subtracted after the
`m`-th number from it. -/
def keptSum (fl : K → K) (m : ℕ) (x : ℕ → K) : ℕ → K
  | 0 => 0
  | i + 1 => if m ≤ i + 1 then fl (fl (keptSum fl m x i + x i) - x (i + 1 - m)) else fl (keptSum fl m x i + x i)

/-- The mean of `m` numbers with this sum. -/
def meanOf (fl : K → K) (m : ℕ) (S : K) : K := fl (S / m)

variable [HasSqrt K]

/-- The standard deviation of `m` numbers with this sum and this sum of squares; 0 if there is none. -/
def devOf (fl : K → K) (m : ℕ) (S S2 : K) : K :=
  if fl (fl (S2 / m) - fl (meanOf fl m S * meanOf fl m S)) < 0 then 0
  else fl (HasSqrt.sqrt (fl (fl (S2 / m) - fl (meanOf fl m S * meanOf fl m S))))

/-- The points as multiples of `σ` from `μ`. -/
def scaledBy (fl : K → K) (μ σ : K) (w : List K) : List K := w.map fun x => fl (fl (x - μ) / σ)

/-- The deviation of the query. -/
def queryDev (fl : K → K) (w : List K) : K := devOf fl w.length (totalBy fl w) (totalBy fl (w.map fun x => fl (x * x)))

/-- The standardised query. -/
def queryBy (fl : K → K) (w : List K) : List K := scaledBy fl (meanOf fl w.length (totalBy fl w)) (queryDev fl w) w

/-- The sum over the `m` numbers from the position `p` on, sums being kept from every `n`-th position on. -/
def sumFrom (fl : K → K) (m n : ℕ) (x : ℕ → K) (p : ℕ) : K :=
  fl (keptSum fl m (fun k => x (p / n * n + k)) (p % n + (m - 1)) + x (p + (m - 1)))

/-- The mean that is used for the part at the position `p`. -/
def partMean (fl : K → K) (m n : ℕ) (data : List K) (p : ℕ) : K := meanOf fl m (sumFrom fl m n (fun k => data.getD k 0) p)

/-- The deviation that is used for the part at the position `p`. -/
def partDev (fl : K → K) (m n : ℕ) (data : List K) (p : ℕ) : K :=
  devOf fl m (sumFrom fl m n (fun k => data.getD k 0) p) (sumFrom fl m n (fun k => fl (data.getD k 0 * data.getD k 0)) p)

/-- The standardised part at the position `p`. -/
def partBy (fl : K → K) (m n : ℕ) (data : List K) (p : ℕ) : List K :=
  scaledBy fl (partMean fl m n data p) (partDev fl m n data p) (part data m p)

/-- Of the parts of `data` at the positions before `N` that have a deviation, the one at `l` has the distance `D` from the query `b`, and none is nearer,
but for the factors `A` and `B`. -/
structure NearestBy (fl : K → K) (A B : K) (data b : List K) (n r N l : ℕ) (D : K) : Prop where
  lt : l < N
  rough : 0 < partDev fl b.length n data l
  dist : ApartBy fl r (partBy fl b.length n data l) b D
  near : ∀ i < N, 0 < partDev fl b.length n data i → ∀ D', ApartBy fl r (partBy fl b.length n data i) b D' → A * D ≤ B * D'

end Genex.Spec
