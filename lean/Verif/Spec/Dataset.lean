import Verif.Model.Dataset

/-!
# Specification: the contents of a dataset
-/

namespace Genex.Spec

open Genex

variable {K : Type} [Field K]

/-- A well-formed dataset whose series are the given rows: as many series as rows, the recorded lengths are those of the
rows, no row is longer than the row stride `maxCol`, and point `j` of series `i` is stored at `i * maxCol + j`. -/
structure Holds (ds : Dataset K) (rows : List (List (Dbl K))) : Prop where
  count : ds.itemCount = rows.length
  lens : ds.lengths = rows.map (fun r => (r.length : Int))
  fits : ∀ (i : ℕ) r, rows[i]? = some r → (r.length : Int) ≤ ds.maxCol
  cells : ∀ (i : ℕ) r, rows[i]? = some r → ∀ (j : ℕ) x, r[j]? = some x → ds.read ((i : Int) * ds.maxCol + j) = .ok x

/-- What a user sees: the number of series, their lengths, and all points of each series. -/
def Shows (ds : Dataset K) (rows : List (List (Dbl K))) : Prop :=
  ds.itemCount = rows.length ∧ ∀ (i : ℕ) r, rows[i]? = some r →
    ds.getItemLength i = .ok (r.length : Int) ∧ (ds.getTimeSeries i (-1) (-1) >>= ds.points) = .ok r

end Genex.Spec
