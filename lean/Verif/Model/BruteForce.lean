import Verif.Model.Dataset
import Verif.Model.LowerBounds
import Verif.Model.StdAlgo

/-!
# Candidates and exhaustive search (genex/TimeSeries.hpp, genex/TimeSeriesSet.cpp)
-/

namespace Genex

variable {K : Type}

/-- `EPS` (genex/TimeSeries.hpp:13). -/
def eps [Field K] : K := 1 / 1000000000

/-- `candidate_time_series_t` (genex/TimeSeries.hpp:207-235) for a subsequence of a dataset. -/
structure Cand (K : Type) where
  view : View
  dist : Dbl K
deriving DecidableEq, Repr

/-- `candidate_time_series_t::operator<` (genex/TimeSeries.hpp:212-227). -/
def Cand.lt [Field K] [LinearOrder K] (a b : Cand K) : Prop :=
  if Dbl.abs (a.dist - b.dist) < .fin eps then
    if a.view.index = b.view.index then
      if a.view.start = b.view.start then a.view.length < b.view.length
      else a.view.start < b.view.start
    else a.view.index < b.view.index
  else a.dist < b.dist

instance [Field K] [LinearOrder K] : DecidableRel (Cand.lt (K := K)) := fun a b => by
  unfold Cand.lt; infer_instance

section

variable [Field K] [LinearOrder K] [HasSqrt K]

/-- One candidate of a search that keeps the `k` best: genex/TimeSeriesSet.cpp:318-344 and, word for word,
genex/group/Group.cpp:88-112.  `eval` computes the distance for a given dropout.  The state is the remaining `k` and the
vector `bestSoFar`. -/
def topKStep (A : Algos (Cand K)) (eval : Dbl K → Res (Dbl K)) (v : View) (st : Int × List (Cand K)) :
    Res (Int × List (Cand K)) :=
  if 0 < st.1 then do
    let d ← eval .inf
    let best := st.2 ++ [⟨v, d⟩]
    .ok (st.1 - 1, if st.1 - 1 = 0 then A.makeHeap best else best)
  else
    match st.2 with
    | [] => .error (.ub "front() of an empty vector")
    | top :: _ => do
      let d ← eval top.dist
      if d < top.dist then .ok (st.1, (A.popHeap (A.pushHeap (st.2 ++ [⟨v, d⟩]))).dropLast)
      else .ok st

/-- The subsequences of one series in the order of the loops genex/TimeSeriesSet.cpp:311-317: lengths from 2, then starts. -/
def subCoords (len : ℕ) : List (ℕ × ℕ) :=
  (List.range (len - 1)).flatMap (fun i => (List.range (len - (i + 2) + 1)).map (fun s => (s, s + (i + 2))))

/-- All `(index, start, end)` visited by the loops genex/TimeSeriesSet.cpp:307-317. -/
def Dataset.bruteCoords (ds : Dataset K) : Res (List (ℕ × ℕ × ℕ)) := do
  let rows ← (List.range ds.itemCount).mapM (fun (i : ℕ) => do
    let len ← ds.getItemLength i
    .ok ((subCoords len.toNat).map (fun p => (i, p))))
  .ok rows.flatten

/-- `getKBestMatchesBruteForce` (genex/TimeSeriesSet.cpp:295-351).  `query` is the contents of the query series. -/
def bruteForce [Arith K] (A : Algos (Cand K)) (ratio : ℚ) (ds : Dataset K) (query : List (Dbl K)) (k : Int) (name : String) :
    Res (List (Cand K)) := do
  if k ≤ 0 then .error (.genex "K must be positive")
  else do
    let dist ← getDistanceFromName (name ++ "_dtw")
    let coords ← ds.bruteCoords
    let st ← coords.foldlM (fun st c => do
      let v ← ds.getTimeSeries c.1 c.2.1 c.2.2
      topKStep A (fun bound => do let pts ← ds.points v; Arith.eval ratio dist query pts bound) v st) (k, [])
    .ok (A.sort st.2)

end

end Genex
