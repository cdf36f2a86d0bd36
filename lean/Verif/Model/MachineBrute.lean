import Verif.Model.BruteForce
import Verif.Model.MachineRun

/-!
# The exhaustive search with integers of 32 bits, and the other two runs

genex/TimeSeriesSet.cpp, lines 295-351, as in `bruteForce`, with the arithmetic of the three loops checked; and the runs from a file to
the answers of `getKBestMatchesBruteForce` and `getKBestMatches` (genex/GenexAPI.cpp:197-217).
-/

namespace Genex

variable {K : Type} [Field K] [LinearOrder K]

/-- The loop over the places of one length (genex/TimeSeriesSet.cpp:315-344), `start <= getItemLength(idx) - intervalLength` and
`start++` included.  The difference is the same at every turn and is computed once here. -/
def startsI [Arith K] (A : Algos (Cand K)) (ratio : ℚ) (ds : Dataset K) (dist : DistRef) (query : List (Dbl K)) (idx ℓ : ℕ) (len : Int)
    (st : Int × List (Cand K)) : Res (Int × List (Cand K)) := do
  let last ← int32 (len - ℓ)
  (List.range (last + 1).toNat).foldlM (fun st (s : ℕ) => do
    let stop ← int32 (s + ℓ)
    let v ← ds.getTimeSeriesI idx s stop
    let st' ← topKStep A (fun bound => do let pts ← ds.pointsI v; Arith.eval ratio dist query pts bound) v st
    let _ ← int32 (s + 1)
    .ok st') st

/-- The loop over the lengths (genex/TimeSeriesSet.cpp:311-345), `intervalLength++` included. -/
def lengthsI [Arith K] (A : Algos (Cand K)) (ratio : ℚ) (ds : Dataset K) (dist : DistRef) (query : List (Dbl K)) (idx : ℕ)
    (st : Int × List (Cand K)) : Res (Int × List (Cand K)) := do
  let len ← ds.getItemLength idx
  (List.range (len.toNat - 1)).foldlM (fun st (i : ℕ) => do
    let st' ← startsI A ratio ds dist query idx (i + 2) len st
    let _ ← int32 ((i + 2 : ℕ) + 1)
    .ok st') st

/-- `getKBestMatchesBruteForce` (genex/TimeSeriesSet.cpp:295-351).  `k--` happens for positive `k` only. -/
def bruteForceI [Arith K] (A : Algos (Cand K)) (ratio : ℚ) (ds : Dataset K) (query : List (Dbl K)) (k : Int) (name : String) :
    Res (List (Cand K)) := do
  if k ≤ 0 then .error (.genex "K must be positive")
  else do
    let dist ← getDistanceFromName (name ++ "_dtw")
    let st ← (List.range ds.itemCount).foldlM (fun st (idx : ℕ) => do
      let st' ← lengthsI A ratio ds dist query idx st
      let _ ← int32 (idx + 1)
      .ok st') (k, [])
    .ok (A.sort st.2)

namespace Job

variable [HasSqrt K] (r : Dbl K → Dbl K) (parse : Text → Parsed K) (j : Job K)

/-- `loadDataset`, `normalizeDataset` or not, `getKBestMatchesBruteForce` (genex/GenexAPI.cpp:22-50, 143-147, 208-217). -/
def bruteI [BandOps] (A : Algos (Cand K)) (ratio : ℚ) (k : Int) : Res (List (Cand K)) := do
  let ds ← j.dataI r parse
  let v ← ds.getTimeSeriesI j.index j.start j.stop
  let q ← ds.pointsI v
  @bruteForceI K _ (machineArith r) A ratio ds q k j.distance

/-- `loadDataset`, `normalizeDataset` or not, `groupDataset` with one thread, `getKBestMatches` (genex/GenexAPI.cpp:22-50, 143-155,
197-206), with the value of the counter of members left out (C92) before and after. -/
def kbestI [BandOps] (A : Algos (Cand K)) (B : Algos (GIdx K)) (ratio : ℚ) (log : ℕ → Bool) (k h extra : Int) :
    Res (List (GSet.Entry K) × Int) := do
  let ds ← j.dataI r parse
  let z ← j.groupI r ratio log ds
  let v ← z.ds.getTimeSeriesI j.index j.start j.stop
  let q ← z.ds.pointsI v
  @GSet.getKBestMatchesI K _ (machineArith r) A B _ ratio z q k h extra

end Job

end Genex
