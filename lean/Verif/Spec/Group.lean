import Verif.Spec.Pairwise
import Verif.Spec.Dataset
import Verif.Model.Distance

/-!
# Specification: groups
-/

namespace Genex.Spec

open Genex

variable {K : Type} [Field K] [LinearOrder K] [HasSqrt K]

/-- The textbook distance of a metric; only for the three metrics for which the claims about groups are made. -/
def textbook : Metric → List K → List K → K
  | .euclidean => rms
  | .manhattan => meanAbs
  | .chebyshev => maxAbs
  | _ => fun _ _ => 0

/-- `ℓ` is one of the lengths that are grouped, when the longest possible length is `maxCol`: all from 2 up, or only the
longest. -/
def InRange (maxCol : Int) (whole : Bool) (ℓ : ℕ) : Prop :=
  (ℓ : Int) ≤ maxCol ∧ if whole = true then (ℓ : Int) = maxCol else 2 ≤ ℓ

/-- The series that starts at point `s` of series `i` and has `ℓ` points, as a view of the dataset. -/
def subView (maxCol : Int) (i s ℓ : ℕ) : View := { base := i * maxCol, index := i, start := s, stop := s + ℓ }

/-- `y` are the points of the subsequence with `ℓ` points that starts at point `s` of series `i`. -/
def SubOf {α : Type} (rows : List (List α)) (ℓ i s : ℕ) (y : List α) : Prop :=
  ∃ r, rows[i]? = some r ∧ s + ℓ ≤ r.length ∧ y = (r.drop s).take ℓ

/-- Number of subsequences with `ℓ` points. -/
def subsOfLength {α : Type} (rows : List (List α)) (ℓ : ℕ) : ℕ := (rows.map (fun r => r.length + 1 - ℓ)).sum

/-- Subsequences are inserted by starting point, then by series: `(i, s)` comes before `(i', s')`. -/
def Earlier (i s i' s' : ℕ) : Prop := s < s' ∨ (s = s' ∧ i < i')

end Genex.Spec
