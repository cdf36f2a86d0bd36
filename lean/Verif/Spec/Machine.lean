import Verif.Spec.Dataset
import Verif.Spec.Group

/-!
# Specification: sizes that an `int` of 32 bits can count
-/

namespace Genex.Spec

open Genex

variable {K : Type} [Field K]

/-- The data, a row of `maxCol` places for each series, have less than `2 ^ 31` places; the series and the places of a row can be
counted, with one to spare. -/
structure Fits32 (ds : Dataset K) : Prop where
  nonneg : 0 ≤ ds.maxCol
  cols : ds.maxCol + 1 < 2 ^ 31
  rows : (ds.itemCount : Int) < 2 ^ 31
  area : ds.itemCount * ds.maxCol < 2 ^ 31

/-- The number of subsequences of the lengths that are grouped. -/
def groupable {α : Type} (maxCol : Int) (whole : Bool) (rows : List (List α)) : ℕ :=
  (((List.range (maxCol + 1).toNat).filter (fun (ℓ : ℕ) => if whole then (ℓ : Int) = maxCol else 2 ≤ ℓ)).map (subsOfLength rows)).sum

/-- What a distance asks of the lengths: the warped ones need twice the length, the envelope of the cascade three times. -/
def lengthLimit : DistRef → ℕ
  | .pairwise _ => 2 ^ 31
  | .warped _ => 2 ^ 30
  | .cascade => 715827882

end Genex.Spec
