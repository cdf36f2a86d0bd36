import Verif.Model.LowerBounds

/-!
# The arrays of the accumulators (genex/distance/Distance.hpp:82-308)

For `Cosine` and `Sorensen` the accumulator is an array from `init()` (genex/distance/Cosine.hpp:13-18, Sorensen.hpp:13-18) that only
`clean` deletes (Cosine.hpp:38-40, Sorensen.hpp:37-39).  Here the arrays of one call are listed in the order in which they are made and
deleted.  An array is named by the cell of the cost matrix it is stored in.
-/

namespace Genex

variable {K : Type} [Field K] [LinearOrder K] [HasSqrt K]

/-- `init()` for a cell, and `delete[]` of the array in a cell. -/
inductive MemEv where
  | new (c : ℕ × ℕ)
  | del (c : ℕ × ℕ)
deriving DecidableEq, Repr

/-- The number of rows the outer loop of `warpedDistance` enters (genex/distance/Distance.hpp:140-171), with the matrices of `rowsLoop`. -/
def rowsEntered {M : DM K} (a b : List (Dbl K)) (r : Int) (dropout : Dbl K) : List ℕ → Mat M → Res (List ℕ)
  | [], _ => .ok []
  | i :: is, mt =>
    match rowLoop a b r i mt with
    | .error e => .error e
    | .ok (mt', best) =>
      if dropout < best then .ok [i]
      else match rowsEntered a b r dropout is mt' with
        | .error e => .error e
        | .ok l => .ok (i :: l)

/-- The cells that get an array before the outer loop: line 117, lines 122-127 and lines 130-135. -/
def borderCells (r : Int) (m n : ℕ) : List (ℕ × ℕ) :=
  (0, 0) :: ((List.range' 1 ((min (2 * r + 1) m).toNat - 1)).map (·, 0) ++ (List.range' 1 ((min (2 * r + 1) n).toNat - 1)).map (0, ·))

/-- The cells that get an array in row `i`: lines 143-161, not those skipped by line 147. -/
def rowCells (r : Int) (n i : ℕ) : List (ℕ × ℕ) := ((rowRange r n i).filter (· ≠ 0)).map (i, ·)

/-- The loops of lines 212-218 over a matrix in which the cells `filled` are not null; `delete[]` of a null pointer does nothing. -/
def cleanCells (m n : ℕ) (filled : List (ℕ × ℕ)) : List (ℕ × ℕ) :=
  (List.range' 1 (m - 1)).flatMap (fun i => ((List.range' 1 (n - 1)).map (i, ·)).filter (· ∈ filled))

/-- What one call of `warpedDistance` does to the arrays (genex/distance/Distance.hpp:99-107 for two single points, 110-218 else). -/
def warpedEvents (M : DM K) [BandOps] (ratio : ℚ) (a b : List (Dbl K)) (dropout : Dbl K) : Res (List MemEv) :=
  let m := a.length
  let n := b.length
  let r := band ratio (max m n : ℕ)
  if m = 1 ∧ n = 1 then .ok [.new (0, 0), .del (0, 0)]
  else if m = 0 ∨ n = 0 then .error (.ub "write before the cost matrix")
  else
    match matInit M a b with
    | .error e => .error e
    | .ok mt0 =>
    match firstCol a b r mt0 with
    | .error e => .error e
    | .ok mt1 =>
    match firstRow a b r mt1 with
    | .error e => .error e
    | .ok mt2 =>
    match rowsEntered a b r dropout (List.range' 1 (m - 1)) mt2 with
    | .error e => .error e
    | .ok rows =>
    let filled := borderCells r m n ++ rows.flatMap (rowCells r n)
    .ok (filled.map .new ++ (cleanCells m n filled).map .del)

end Genex
