import Verif.Model.BruteForce
import Verif.Model.Group
import Verif.Spec.Align
import Verif.Spec.Group

/-!
# Specification: subsequences and searching
-/

namespace Genex.Spec

open Genex

variable {K : Type}

/-- `x` is the part of series `i` from point `s` up to (excluding) point `e`, at least two points. -/
def IsSub (rows : List (List K)) (i s e : ℕ) (x : List K) : Prop :=
  ∃ r, rows[i]? = some r ∧ s + 2 ≤ e ∧ e ≤ r.length ∧ x = (r.drop s).take (e - s)

/-- Number of subsequences with at least two points. -/
def subCount (rows : List (List K)) : ℕ := (rows.map (fun r => r.length * (r.length - 1) / 2)).sum

/-- Series of `q` and `ℓ` points can be aligned: the lengths differ by at most the band of the longer one. -/
def Comparable [BandOps] (ratio : ℚ) (q ℓ : ℕ) : Prop :=
  q ≤ ℓ + bandWidth ratio (max q ℓ) ∧ ℓ ≤ q + bandWidth ratio (max q ℓ)

instance [BandOps] (ratio : ℚ) (q ℓ : ℕ) : Decidable (Comparable ratio q ℓ) := by unfold Comparable; infer_instance

/-- The lengths a search for a query of `q` points considers: grouped and comparable. -/
def Considered (maxCol : Int) (whole : Bool) [BandOps] (ratio : ℚ) (q ℓ : ℕ) : Prop :=
  InRange maxCol whole ℓ ∧ Comparable ratio q ℓ

instance (maxCol : Int) (whole : Bool) [BandOps] (ratio : ℚ) (q ℓ : ℕ) : Decidable (Considered maxCol whole ratio q ℓ) := by
  unfold Considered InRange; infer_instance

/-- Number of subsequences of the lengths considered. -/
def available (rows : List (List K)) (maxCol : Int) (whole : Bool) [BandOps] (ratio : ℚ) (q : ℕ) : ℕ :=
  (((List.range (maxCol.toNat + 1)).filter (fun ℓ => decide (Considered maxCol whole ratio q ℓ))).map
    (subsOfLength rows)).sum

variable [Field K] [LinearOrder K] [HasSqrt K]

/-- Half the width of the band for series of `m` and `n` points: that of the longer one.  If one series has a single point, the
code lets an alignment go twice as far. -/
def dtwBand [BandOps] (ratio : ℚ) (m n : ℕ) : ℕ := (if m = 1 ∨ n = 1 then 2 else 1) * bandWidth ratio (max m n)

/-- `d` is the least cost of an alignment of `a` and `b` in the band, infinity if there is none. -/
def LeastCost [BandOps] (ratio : ℚ) (a b : List K) (cost : List (ℕ × ℕ) → K) (d : Dbl K) : Prop :=
  let costs := bandedCosts a.length b.length (dtwBand ratio a.length b.length) cost
  (∃ x, d = .fin x ∧ IsLeast costs x) ∨ (d = .inf ∧ costs = ∅)

/-- `d` is the DTW distance of two series (metric `m`, band ratio `ratio`): the root of the summed squares, or the sum of the absolute
differences, over twice the longer length; or the largest difference.  Not for the cosine and sorensen distances. -/
def Dtw (m : Metric) [BandOps] (ratio : ℚ) (a b : List K) (d : Dbl K) : Prop :=
  match m with
  | .euclidean => LeastCost ratio a b (fun p => HasSqrt.sqrt (sqCost a b p) / ((2 * max a.length b.length : ℕ) : K)) d
  | .manhattan => LeastCost ratio a b (fun p => absCost a b p / ((2 * max a.length b.length : ℕ) : K)) d
  | .chebyshev => LeastCost ratio a b (fun p => maxCost a b p) d
  | .sorensen => False
  | .cosine => False

/-- Distances from a query to series, given by `P`: among subsequences of the dataset finite ones are equal or at least `1e-9` apart. -/
def SpacedFor (P : List K → Dbl K → Prop) (rows : List (List K)) : Prop :=
  ∀ i s e x i' s' e' x' u v, IsSub rows i s e x → IsSub rows i' s' e' x' → P x (.fin u) →
    P x' (.fin v) → u ≠ v → 1 / 1000000000 ≤ |u - v|

/-- `members` are the members of a group of one of the lengths considered for queries of `n` points, and `d` is the distance
`P` of its representative. -/
def GroupFor (P : List K → Dbl K → Prop) (ds : Dataset K) (gs : GSpace K) (rows : List (List K)) (whole : Bool) [BandOps] (ratio : ℚ) (n : ℕ)
    (members : List View) (d : Dbl K) : Prop :=
  ∃ ℓ sp g i p x, Considered ds.maxCol whole ratio n ℓ ∧ gs.spaces[ℓ]? = some (some sp) ∧ g ∈ sp.groups ∧
    g.centroid = .view (subView ds.maxCol i p ℓ) ∧ SubOf rows ℓ i p x ∧ P x d ∧ LocalSpace.getMembers ds sp g = .ok members

/-- The view `v` is a subsequence of one of the lengths considered for queries of `n` points, and `d` is its distance `P`. -/
def FoundFor (P : List K → Dbl K → Prop) (rows : List (List K)) (maxCol : Int) (whole : Bool) [BandOps] (ratio : ℚ) (n : ℕ) (v : View)
    (d : Dbl K) : Prop :=
  ∃ ℓ i p x, Considered maxCol whole ratio n ℓ ∧ SubOf rows ℓ i p x ∧ v = subView maxCol i p ℓ ∧ P x d

/-- DTW distances that are equal or at least `1e-9` apart. -/
def WellSpaced (m : Metric) [BandOps] (ratio : ℚ) (rows : List (List K)) (q : List K) : Prop := SpacedFor (Dtw m ratio q) rows

/-- `GroupFor` with the DTW distance from the query. -/
def IsGroup (ds : Dataset K) (gs : GSpace K) (rows : List (List K)) (whole : Bool) (m : Metric) [BandOps] (ratio : ℚ) (q : List K)
    (members : List View) (d : Dbl K) : Prop := GroupFor (Dtw m ratio q) ds gs rows whole ratio q.length members d

/-- `FoundFor` with the DTW distance from the query. -/
def IsFound (rows : List (List K)) (maxCol : Int) (whole : Bool) (m : Metric) [BandOps] (ratio : ℚ) (q : List K) (v : View)
    (d : Dbl K) : Prop := FoundFor (Dtw m ratio q) rows maxCol whole ratio q.length v d

end Genex.Spec
