import Verif.Model.Overflow
import Verif.Model.MachineBrute

/-!
# Piecewise aggregate approximation on the machine (genex/PAAWrapper.cpp, genex/TimeSeries.cpp)

The code of Model/Paa once more, with `r` applied to the result of every operation on `data_t` and with every `int` expression that can
leave the range of `int`.  Counters that stay below another `int` they are compared with are not repeated.
-/

namespace Genex

variable {K : Type} [Field K] [LinearOrder K] (r : Dbl K → Dbl K)

/-- The loop of `tsPAA`, genex/PAAWrapper.cpp:33-42, with `count++` and `i++`. -/
def paaLoopI (b n : Int) : List (Dbl K) → ℕ → Dbl K → ℕ → List (Dbl K) → Res (List (Dbl K))
  | [], _, _, _, dest => .ok dest
  | x :: xs, i, sum, count, dest => do
    let c ← int32 ((count : Int) + 1)
    let last ← int32 (n - 1)
    let next ← int32 ((i : Int) + 1)
    if c = b ∨ (i : Int) = last then do
      let dest ← setPoint dest ((i : Int).tdiv b) (r (r (sum + x) / Dbl.ofNat (count + 1)))
      paaLoopI b n xs next.toNat 0 0 dest
    else paaLoopI b n xs next.toNat (r (sum + x)) c.toNat dest

/-- `tsPAA` (genex/PAAWrapper.cpp:26-44) on a series with the given points. -/
def tsPAAI (source : List (Dbl K)) (b : Int) : Res (List (Dbl K)) := do
  let n ← int32 source.length
  let m ← int32 (n - 1)
  if b = 0 then .error (.ub "division by zero")
  else do
    let q ← int32 (m.tdiv b)
    let destLength ← int32 (q + 1)
    if destLength < 0 then .error (.std "bad_array_new_length")
    else paaLoopI r b n source 0 0 0 (List.replicate destLength.toNat 0)

/-- `TimeSeries::average` (genex/TimeSeries.cpp:168-174); `sum0` as in `average`. -/
def averageI (sum0 : Option (Dbl K)) (pts : List (Dbl K)) : Res (Dbl K) :=
  match sum0 with
  | none => .error (.ub "read of the uninitialised variable sum")
  | some g => .ok (r (pts.foldl (fun s x => r (s + x)) g / Dbl.ofNat pts.length))

namespace Paa

/-- Constructor (genex/PAAWrapper.cpp:15-21). -/
def createI (ds : Dataset K) : Res (Paa K) := do
  let mat ← (List.range ds.itemCount).mapM (fun (i : ℕ) => do
    let v ← ds.getTimeSeriesI i (-1) (-1)
    .ok [PaaTs.view v])
  .ok { blockSize := none, mat := mat }

/-- The loop over the offsets, genex/PAAWrapper.cpp:56-59: the row afterwards and the outcome. -/
def genRowI (ds : Dataset K) (itemLength b : Int) (i : ℕ) : List ℕ → List (PaaTs K) → List (PaaTs K) × Res Unit
  | [], row => (row, .ok ())
  | off :: offs, row =>
    match (do let v ← ds.getTimeSeriesI i off itemLength; let pts ← ds.pointsI v; tsPAAI r pts b) with
    | .error e => (row, .error e)
    | .ok p => genRowI ds itemLength b i offs (row ++ [.own p])

/-- The loop over the series, genex/PAAWrapper.cpp:54-60. -/
def genRowsI (ds : Dataset K) (itemLength b : Int) : List ℕ → List (List (PaaTs K)) → List (List (PaaTs K)) × Res Unit
  | [], mat => (mat, .ok ())
  | i :: is, mat =>
    if mat.length ≤ i then (mat, .error (.ub "paaMat index out of bounds"))
    else
      let row := genRowI r ds itemLength b i (List.range b.toNat) []
      match row.2 with
      | .error e => (mat.set i row.1, .error e)
      | .ok _ => genRowsI ds itemLength b is (mat.set i row.1)

/-- `generatePAAMatrix` (genex/PAAWrapper.cpp:46-62): the wrapper afterwards and the outcome. -/
def generateI (w : Paa K) (ds : Dataset K) (b : Int) : Paa K × Res Unit :=
  if b < 1 then (w, .error (.genex "Block size for PAA must be positive"))
  else match ds.getItemLength ds.maxCol with
    | .error e => (w, .error e)
    | .ok itemLength =>
      let b := min b itemLength
      let rows := genRowsI r ds itemLength b (List.range ds.itemCount) w.mat
      match rows.2 with
      | .error e => ({ w with mat := rows.1 }, .error e)
      | .ok _ => ({ blockSize := some b, mat := rows.1 }, .ok ())

/-- `wholePAA[i]` (genex/TimeSeries.cpp:127-133). -/
def pointI (ds : Dataset K) (i : Int) : PaaTs K → Res (Dbl K)
  | .view v => ds.pointAtI v i
  | .own pts => (PaaTs.own pts).point ds i

/-- The part of `getPAA` after the checks, genex/PAAWrapper.cpp:78-95. -/
def assembleI (w : Paa K) (sum0 : Option (Dbl K)) (ds : Dataset K) (index start stop : Int) : Res (List (Dbl K)) :=
  match w.blockSize with
  | none => .error (.ub "blockSize not initialised")
  | some b =>
    if b = 0 then .error (.ub "division by zero")
    else
      let offset := start.tmod b
      match w.mat[index.toNat]? >>= (fun row => row[offset.toNat]?) with
      | none => .error (.ub "paaMat index out of bounds")
      | some whole => do
        let d ← int32 (stop - start)
        let m ← int32 (d - 1)
        let q ← int32 (m.tdiv b)
        let paaLength ← int32 (q + 1)
        if paaLength < 0 then .error (.std "bad_array_new_length")
        else do
          let a ← int32 (start - offset)
          let e ← int32 (stop - offset)
          let paaStart ← int32 (a.tdiv b)
          let paaEnd ← int32 (e.tdiv b)
          let paa ← (List.range (paaEnd - paaStart).toNat).foldlM (fun (p : List (Dbl K)) (j : ℕ) => do
            let x ← pointI ds (paaStart + j) whole
            setPoint p j x) (List.replicate paaLength.toNat 0)
          if e.tmod b ≠ 0 then do
            let f ← int32 (d.tdiv b)
            let g ← int32 (f * b)
            let leftOverStart ← int32 (start + g)
            let v ← ds.getTimeSeriesI index leftOverStart stop
            let pts ← ds.pointsI v
            let x ← averageI r sum0 pts
            let l ← int32 (paaLength - 1)
            setPoint paa l x
          else .ok paa

/-- `getPAA` (genex/PAAWrapper.cpp:64-96). -/
def getPAAI (w : Paa K) (sum0 : Option (Dbl K)) (ds : Dataset K) (index start stop : Int) : Res (List (Dbl K)) := do
  if index < 0 ∨ (ds.itemCount : Int) ≤ index then .error (.genex "Invalid time series index")
  else do
    let len ← ds.getItemLength index
    let range := if start < 0 ∧ stop < 0 then ((0 : Int), len) else (start, stop)
    if range.1 < 0 ∨ range.2 ≤ range.1 ∨ len < range.2 then
      .error (.genex "Invalid starting or ending position of a time series")
    else w.assembleI r sum0 ds index range.1 range.2

/-- The loops over the lengths and places of one series (genex/PAAWrapper.cpp:118-149), `intervalLength++` and `start++` included. -/
def placesI [Arith K] (w : Paa K) (sum0 : Option (Dbl K)) (A : Algos (Cand K)) (ratio : ℚ) (ds : Dataset K) (dist : DistRef)
    (paaQuery : List (Dbl K)) (len : Int) (idx : ℕ) (st : Int × List (Cand K)) : Res (Int × List (Cand K)) :=
  (List.range (len.toNat - 1)).foldlM (fun st (i : ℕ) => do
    let last ← int32 (len - (i + 2 : ℕ))
    let st' ← (List.range (last + 1).toNat).foldlM (fun st (s : ℕ) => do
      let stop ← int32 (s + (i + 2 : ℕ))
      let v ← ds.getTimeSeriesI idx s stop
      let paa ← w.getPAAI r sum0 ds idx s stop
      let st' ← topKStep A (fun bound => Arith.eval ratio dist paaQuery paa bound) v st
      let _ ← int32 (s + 1)
      .ok st') st
    let _ ← int32 ((i + 2 : ℕ) + 1)
    .ok st') st

/-- `getKBestMatchesPAA` (genex/PAAWrapper.cpp:98-156).  `query` is the contents of the query series. -/
def searchI [Arith K] (w : Paa K) (sum0 : Option (Dbl K)) (A : Algos (Cand K)) (ratio : ℚ) (ds : Dataset K)
    (query : List (Dbl K)) (k : Int) (name : String) : Res (List (Cand K)) := do
  if k ≤ 0 then .error (.genex "K must be positive")
  else do
    let dist ← getDistanceFromName (name ++ "_dtw")
    let len ← ds.getItemLength ds.maxCol
    match w.blockSize with
    | none => .error (.ub "blockSize not initialised")
    | some b => do
      let paaQuery ← tsPAAI r query b
      let st ← (List.range ds.itemCount).foldlM (fun st (idx : ℕ) => do
        let st' ← w.placesI r sum0 A ratio ds dist paaQuery len idx st
        let _ ← int32 (idx + 1)
        .ok st') (k, [])
      .ok (A.sort st.2)

end Paa

end Genex
