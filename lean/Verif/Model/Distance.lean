import Verif.Model.Dbl
import Verif.Spec.Band
import Mathlib.Algebra.Order.Floor.Defs
import Mathlib.Data.Rat.Floor

/-!
# Distances (genex/distance)

`DM` is the interface that the C++ templates `pairwiseDistance<DM,T>` and `warpedDistance<DM,T>` require of a
metric class.  The five metric classes follow as instances.
-/

namespace Genex

open Dbl

/-- `calculateWarpingBandSize` (genex/distance/Distance.cpp:89-93).  `ratio` is the global `warpingBandRatio`
(line 83), a finite double and hence a rational; the product is taken by the `BandOps` at hand. -/
def band [BandOps] (ratio : ℚ) (len : Int) : Int := min ⌊BandOps.mul ratio len⌋ (len - 1)

/-- The same with the conversion of line 91 from `double` to `int`, which is undefined unless the number fits.  `band` is used in the
rest of the model. -/
def bandInt [BandOps] (ratio : ℚ) (len : Int) : Res Int :=
  if -2 ^ 31 ≤ ⌊BandOps.mul ratio len⌋ ∧ ⌊BandOps.mul ratio len⌋ < 2 ^ 31 then .ok (min ⌊BandOps.mul ratio len⌋ (len - 1))
  else .error (.ub "conversion of the band to int")

/-- The static interface of a metric class.
* `S` is the template argument `T` (`data_t`, or the array behind a `data_t*`).
* `unset` is a value-initialised `T()`: `0` for `data_t`, a null pointer (`none`) for `data_t*`.
* `reduce prev x1 x2` models `reduce(next, prev, x1, x2)`; every implementation ignores the old contents of `next`.
* `norm`, `normDTW` get the two lengths, the only thing the implementations use of the series.
* `inverseNorm`, if present, selects the second `pairwiseDistance` template; the second component reads the accumulator
  as a double (only `Euclidean`, where `T = data_t`). -/
structure DM (K : Type) where
  S : Type
  unset : Option S
  init : S
  reduce : S → Dbl K → Dbl K → S
  norm : S → ℕ → ℕ → Dbl K
  normDTW : S → ℕ → ℕ → Dbl K
  inverseNorm : Option ((Dbl K → ℕ → ℕ → Dbl K) × (S → Dbl K))

section metrics
variable (K : Type) [Field K] [LinearOrder K]

/-- `Euclidean::dist` (genex/distance/Euclidean.hpp:14-17). -/
def eucDist {K : Type} [Field K] [LinearOrder K] (x y : Dbl K) : Dbl K := (x - y) * (x - y)

/-- `Euclidean::normDTW` (genex/distance/Euclidean.hpp:34-37). -/
def eucNormDTW {K : Type} [Field K] [LinearOrder K] [HasSqrt K] (total : Dbl K) (l1 l2 : ℕ) : Dbl K :=
  Dbl.sqrt total / Dbl.ofNat (2 * max l1 l2)

/-- genex/distance/Euclidean.hpp:11-45. -/
def euclidean [HasSqrt K] : DM K where
  S := Dbl K
  unset := some 0
  init := 0
  reduce := fun p x y => p + eucDist x y
  norm := fun t l1 l2 => Dbl.sqrt (t / Dbl.ofNat (max l1 l2))
  normDTW := eucNormDTW
  inverseNorm := some (fun d l1 l2 => d * d * Dbl.ofNat (max l1 l2), id)

/-- genex/distance/Manhattan.hpp:11-41. -/
def manhattan : DM K where
  S := Dbl K
  unset := some 0
  init := 0
  reduce := fun p x y => p + Dbl.abs (x - y)
  norm := fun t l1 l2 => t / Dbl.ofNat (max l1 l2)
  normDTW := fun t l1 l2 => t / Dbl.ofNat (2 * max l1 l2)
  inverseNorm := none

/-- genex/distance/Chebyshev.hpp:11-42. -/
def chebyshev : DM K where
  S := Dbl K
  unset := some 0
  init := .ninf
  reduce := fun p x y => Dbl.stdMax p (Dbl.abs (x - y))
  norm := fun t _ _ => t
  normDTW := fun t _ _ => t
  inverseNorm := none

/-- genex/distance/Cosine.hpp:11-43; the array of three doubles is a triple. -/
def cosine [HasSqrt K] : DM K where
  S := Dbl K × Dbl K × Dbl K
  unset := none
  init := (0, 0, 0)
  reduce := fun p x y => (p.1 + x * x, p.2.1 + y * y, p.2.2 + x * y)
  norm := fun t _ _ => t.2.2 / Dbl.sqrt (t.1 * t.2.1)
  normDTW := fun t _ _ => t.2.2 / Dbl.sqrt (t.1 * t.2.1)
  inverseNorm := none

/-- genex/distance/Sorensen.hpp:11-42; the array of two doubles is a pair. -/
def sorensen : DM K where
  S := Dbl K × Dbl K
  unset := none
  init := (0, 0)
  reduce := fun p x y => (p.1 + Dbl.abs (x - y), p.2 + Dbl.abs (x + y))
  norm := fun t _ _ => t.1 / t.2
  normDTW := fun t _ _ => t.1 / t.2
  inverseNorm := none

end metrics

variable {K : Type} [Field K] [LinearOrder K]

/-! ## Pairwise distance -/

/-- The accumulation loop shared by both `pairwiseDistance` templates (genex/distance/Distance.hpp:246-258, 289-302).
`drop` is the test made after every step; the second result is `dropped`. -/
def pairwiseLoop (M : DM K) (drop : M.S → Bool) : M.S → List (Dbl K) → List (Dbl K) → M.S × Bool
  | total, x :: xs, y :: ys =>
      let total := M.reduce total x y
      if drop total then (total, true) else pairwiseLoop M drop total xs ys
  | total, _, _ => (total, false)

/-- The test made after each step: `norm(total) > dropout` (genex/distance/Distance.hpp:253), or with `inverseNorm`
`total > inverseNorm(dropout)` (lines 283, 297). -/
def dropTest (M : DM K) (dropout : Dbl K) (l1 l2 : ℕ) (t : M.S) : Bool :=
  match M.inverseNorm with
  | none => decide (dropout < M.norm t l1 l2)
  | some iv => decide (iv.1 dropout l1 l2 < iv.2 t)

/-- `pairwiseDistance` (genex/distance/Distance.hpp:227-264 without, 270-308 with `inverseNorm`). -/
def pairwiseDistance (M : DM K) (a b : List (Dbl K)) (dropout : Dbl K) : Res (Dbl K) :=
  if a.length ≠ b.length then
    .error (.genex "Two time series must have the same length for pairwise distance")
  else
    let r := pairwiseLoop M (dropTest M dropout a.length b.length) M.init a b
    .ok (if r.2 then .inf else M.norm r.1 a.length b.length)

/-! ## Warped distance -/

/-- The matrices `cost` and `ncost` (genex/distance/Distance.hpp:110-111) as functions of the indices. -/
structure Mat (M : DM K) where
  cost : ℕ → ℕ → Option M.S
  ncost : ℕ → ℕ → Dbl K

/-- Element access; all loops of `warpedDistance` keep the index below the length, so the exception in
`TimeSeries::operator[]` (genex/TimeSeries.cpp:127-133) cannot occur here. -/
def at' (v : List (Dbl K)) (i : ℕ) : Dbl K := v.getD i .nan

/-- `cost[i][j] = reduce(init(), prev, a[i], b[j]); ncost[i][j] = normDTW(cost[i][j], a, b)`
(genex/distance/Distance.hpp:124-126, 132-134, 161-163).  A null `prev` is dereferenced by `reduce`. -/
def Mat.fill {M : DM K} (a b : List (Dbl K)) (mt : Mat M) (i j : ℕ) (prev : Option M.S) : Res (Mat M) :=
  match prev with
  | none => .error (.ub "reduce dereferences a null accumulator")
  | some p =>
    let s := M.reduce p (at' a i) (at' b j)
    .ok { cost := fun i' j' => if i' = i ∧ j' = j then some s else mt.cost i' j'
          ncost := fun i' j' =>
            if i' = i ∧ j' = j then M.normDTW s a.length b.length else mt.ncost i' j' }

/-- Matrices after lines 110-119: value-initialised, last cell preset to `INF`, first cell computed. -/
def matInit (M : DM K) (a b : List (Dbl K)) : Res (Mat M) :=
  Mat.fill a b
    { cost := fun _ _ => M.unset
      ncost := fun i j => if i = a.length - 1 ∧ j = b.length - 1 then .inf else 0 }
    0 0 (some M.init)

/-- First column, lines 122-127. -/
def firstCol {M : DM K} (a b : List (Dbl K)) (r : Int) (mt : Mat M) : Res (Mat M) :=
  (List.range' 1 ((min (2 * r + 1) a.length).toNat - 1)).foldlM
    (fun mt i => mt.fill a b i 0 (mt.cost (i - 1) 0)) mt

/-- First row, lines 130-135. -/
def firstRow {M : DM K} (a b : List (Dbl K)) (r : Int) (mt : Mat M) : Res (Mat M) :=
  (List.range' 1 ((min (2 * r + 1) b.length).toNat - 1)).foldlM
    (fun mt j => mt.fill a b 0 j (mt.cost 0 (j - 1))) mt

/-- The `j` visited in row `i`: `max(i-r,0) .. min(i+r,n-1)` ascending, line 143. -/
def rowRange (r : Int) (n i : ℕ) : List ℕ :=
  (List.range n).filter (fun j => decide ((i : Int) - r ≤ j ∧ (j : Int) ≤ i + r))

/-- Body of the inner loop, lines 145-164; the state is the matrices and `bestSoFar`. -/
def cellStep {M : DM K} (a b : List (Dbl K)) (r : Int) (i : ℕ) (st : Mat M × Dbl K) (j : ℕ) :
    Res (Mat M × Dbl K) :=
  let mt := st.1
  if j = 0 then .ok (mt, stdMin st.2 (mt.ncost i j))
  else
    let ij1 := if (i : Int) - r ≤ (j : Int) - 1 ∧ (j : Int) - 1 ≤ i + r then mt.ncost i (j - 1) else .inf
    let i1j1 := mt.ncost (i - 1) (j - 1)
    let i1j := if (j : Int) - r ≤ (i : Int) - 1 ∧ (i : Int) - 1 ≤ j + r then mt.ncost (i - 1) j else .inf
    let minPrev :=
      if i1j1 < ij1 ∧ i1j1 < i1j then mt.cost (i - 1) (j - 1)
      else if ij1 < i1j then mt.cost i (j - 1)
      else mt.cost (i - 1) j
    match mt.fill a b i j minPrev with
    | .error e => .error e
    | .ok mt' => .ok (mt', stdMin st.2 (mt'.ncost i j))

/-- One row, lines 142-165. -/
def rowLoop {M : DM K} (a b : List (Dbl K)) (r : Int) (i : ℕ) (mt : Mat M) : Res (Mat M × Dbl K) :=
  (rowRange r b.length i).foldlM (cellStep a b r i) (mt, .inf)

/-- The outer loop with early abandoning, lines 140-171; the flag is `dropped`. -/
def rowsLoop {M : DM K} (a b : List (Dbl K)) (r : Int) (dropout : Dbl K) :
    List ℕ → Mat M → Res (Mat M × Bool)
  | [], mt => .ok (mt, false)
  | i :: is, mt =>
    match rowLoop a b r i mt with
    | .error e => .error e
    | .ok (mt', best) => if dropout < best then .ok (mt', true) else rowsLoop a b r dropout is mt'

/-- One iteration of the trace-back loop, lines 185-208: the new `(i, j)`.  If no branch is taken the indices stay. -/
def backStep (nc : ℕ → ℕ → Dbl K) (c : ℕ × ℕ) : ℕ × ℕ :=
  let (i, j) := c
  if i = 0 then (i, j - 1)
  else if j = 0 then (i - 1, j)
  else
    let minNeighbor := stdMin (nc (i - 1) (j - 1)) (stdMin (nc (i - 1) j) (nc i (j - 1)))
    if eqD (nc (i - 1) (j - 1)) minNeighbor then (i - 1, j - 1)
    else if eqD (nc (i - 1) j) minNeighbor then (i - 1, j)
    else if eqD (nc i (j - 1)) minNeighbor then (i, j - 1)
    else (i, j)

/-- The trace-back loop, lines 183-210, appending to `matching`.  An iteration that leaves `(i, j)` unchanged is repeated
forever because the matrices do not change: outcome `diverge`.  The fuel `i + j` is enough because every other
iteration decreases `i + j` (`traceLoop_fuel` in Lemmas/Trace). -/
def traceLoop (nc : ℕ → ℕ → Dbl K) : ℕ → ℕ × ℕ → List (ℕ × ℕ) → Res (List (ℕ × ℕ))
  | fuel, c, matching =>
    if c = (0, 0) then .ok (matching ++ [(0, 0)])
    else if backStep nc c = c then .error .diverge
    else match fuel with
      | 0 => .error .diverge
      | fuel + 1 => traceLoop nc fuel (backStep nc c) (matching ++ [c])

/-- `warpedDistance` (genex/distance/Distance.hpp:82-221): the value and the final contents of `matching`.
The length of a series is non-negative in the model; an empty series makes line 115 write outside the matrix. -/
def warpedDistance (M : DM K) [BandOps] (ratio : ℚ) (a b : List (Dbl K)) (dropout : Dbl K)
    (matching : List (ℕ × ℕ)) : Res (Dbl K × List (ℕ × ℕ)) :=
  let m := a.length
  let n := b.length
  let r := band ratio (max m n : ℕ)
  if m = 1 ∧ n = 1 then
    .ok (M.normDTW (M.reduce M.init (at' a 0) (at' b 0)) m n, matching)
  else if m = 0 ∨ n = 0 then .error (.ub "write before the cost matrix")
  else
    match matInit M a b with
    | .error e => .error e
    | .ok mt0 =>
    match firstCol a b r mt0 with
    | .error e => .error e
    | .ok mt1 =>
    match firstRow a b r mt1 with
    | .error e => .error e
    | .ok mt2 =>
    match rowsLoop a b r dropout (List.range' 1 (m - 1)) mt2 with
    | .error e => .error e
    | .ok (mt3, dropped) =>
    let result := if dropped then .inf else mt3.ncost (m - 1) (n - 1)
    match traceLoop mt3.ncost (m - 1 + (n - 1)) (m - 1, n - 1) matching with
    | .error e => .error e
    | .ok mat => .ok (result, mat.reverse)

/-- The distance value alone, for callers that pass the global `gNoMatching` (its growth is modelled separately). -/
def warpedValue (M : DM K) [BandOps] (ratio : ℚ) (a b : List (Dbl K)) (dropout : Dbl K) : Res (Dbl K) :=
  (warpedDistance M ratio a b dropout []).map Prod.fst

/-! ## Registry -/

/-- The five metric classes in `gAllDistance` (genex/distance/Distance.cpp:30-37). -/
inductive Metric where
  | euclidean | manhattan | chebyshev | cosine | sorensen
deriving DecidableEq, Repr

/-- The template argument `DM`. -/
def Metric.dm (K : Type) [Field K] [LinearOrder K] [HasSqrt K] : Metric → DM K
  | .euclidean => Genex.euclidean K
  | .manhattan => Genex.manhattan K
  | .chebyshev => Genex.chebyshev K
  | .cosine => Genex.cosine K
  | .sorensen => Genex.sorensen K

/-- An entry of the function table: a template and its metric. -/
inductive DistRef where
  | pairwise (m : Metric)
  | warped (m : Metric)
  | cascade
deriving DecidableEq, Repr

/-- `gAllDistance` (genex/distance/Distance.cpp:30-37, macro NEW_DISTANCE in Distance.hpp:12-14). -/
def gAllDistance : List DistRef :=
  [.pairwise .euclidean, .warped .euclidean, .pairwise .manhattan, .warped .manhattan,
   .pairwise .chebyshev, .warped .chebyshev, .pairwise .cosine, .warped .cosine,
   .pairwise .sorensen, .warped .sorensen]

/-- `gAllDistanceName` (genex/distance/Distance.cpp:42-49, macro NEW_DISTANCE_NAME in Distance.hpp:16). -/
def gAllDistanceName : List String :=
  ["euclidean", "euclidean_dtw", "manhattan", "manhattan_dtw", "chebyshev", "chebyshev_dtw",
   "cosine", "cosine_dtw", "sorensen", "sorensen_dtw"]

/-- `getDistanceFromName` (genex/distance/Distance.cpp:68-76) over the map built by `_initializeAllDistanceMap`. -/
def getDistanceFromName (name : String) : Res DistRef :=
  match (gAllDistanceName.zip gAllDistance).lookup name with
  | some d => .ok d
  | none => .error (.genex ("Cannot find distance with name: " ++ name))

end Genex
