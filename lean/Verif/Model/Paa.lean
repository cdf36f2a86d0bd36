import Verif.Model.BruteForce

/-!
# Piecewise aggregate approximation (genex/PAAWrapper.hpp, genex/PAAWrapper.cpp)

The wrapper keeps a reference to a dataset; here the dataset is an argument of every function.  `int` does not overflow.
-/

namespace Genex

variable {K : Type}

/-- A series in the matrix of the wrapper: it refers to the dataset or owns its points. -/
inductive PaaTs (K : Type) where
  | view (v : View)
  | own (pts : List (Dbl K))
deriving DecidableEq

/-- `PAAWrapper` (genex/PAAWrapper.hpp:54-57).  `blockSize = none`: not initialised. -/
structure Paa (K : Type) where
  blockSize : Option Int
  mat : List (List (PaaTs K))
deriving DecidableEq

/-- `ts[i] = x` on a series that owns its points (genex/TimeSeries.cpp:127-133). -/
def setPoint (ts : List (Dbl K)) (i : Int) (x : Dbl K) : Res (List (Dbl K)) :=
  if i < 0 ∨ (ts.length : Int) ≤ i then .error (.genex "Data point index is out of range")
  else .ok (ts.set i.toNat x)

section

variable [Field K] [LinearOrder K]

/-- `ts[i]` (genex/TimeSeries.cpp:127-133). -/
def PaaTs.point (ds : Dataset K) (i : Int) : PaaTs K → Res (Dbl K)
  | .view v => ds.pointAt v i
  | .own pts =>
    if i < 0 then .error (.genex "Data point index is out of range")
    else match pts[i.toNat]? with
      | some x => .ok x
      | none => .error (.genex "Data point index is out of range")

/-- The loop of `tsPAA`, genex/PAAWrapper.cpp:33-42, from point `i` on; `n` is the length of the source. -/
def paaLoop (b : Int) (n : ℕ) : List (Dbl K) → ℕ → Dbl K → ℕ → List (Dbl K) → Res (List (Dbl K))
  | [], _, _, _, dest => .ok dest
  | x :: xs, i, sum, count, dest =>
    if (count : Int) + 1 = b ∨ (i : Int) = (n : Int) - 1 then do
      let dest ← setPoint dest ((i : Int).tdiv b) ((sum + x) / Dbl.ofNat (count + 1))
      paaLoop b n xs (i + 1) 0 0 dest
    else paaLoop b n xs (i + 1) (sum + x) (count + 1) dest

/-- `tsPAA` (genex/PAAWrapper.cpp:26-44) on a series with the given points. -/
def tsPAA (source : List (Dbl K)) (b : Int) : Res (List (Dbl K)) :=
  if b = 0 then .error (.ub "division by zero")
  else
    let destLength := ((source.length : Int) - 1).tdiv b + 1
    if destLength < 0 then .error (.std "bad_array_new_length")
    else paaLoop b source.length source 0 0 0 (List.replicate destLength.toNat 0)

/-- `TimeSeries::average` (genex/TimeSeries.cpp:168-174).  The variable `sum` is not initialised: `sum0 = none` is the language,
where reading it is undefined; `sum0 = some g` a compiler that leaves `g` in it. -/
def average (sum0 : Option (Dbl K)) (pts : List (Dbl K)) : Res (Dbl K) :=
  match sum0 with
  | none => .error (.ub "read of the uninitialised variable sum")
  | some g => .ok (pts.foldl (· + ·) g / Dbl.ofNat pts.length)

namespace Paa

/-- Constructor (genex/PAAWrapper.cpp:15-21). -/
def create (ds : Dataset K) : Res (Paa K) := do
  let mat ← (List.range ds.itemCount).mapM (fun (i : ℕ) => do
    let v ← ds.getTimeSeries i (-1) (-1)
    .ok [PaaTs.view v])
  .ok { blockSize := none, mat := mat }

/-- The loop over the offsets, genex/PAAWrapper.cpp:56-59: the row afterwards and the outcome. -/
def genRow (ds : Dataset K) (itemLength b : Int) (i : ℕ) : List ℕ → List (PaaTs K) → List (PaaTs K) × Res Unit
  | [], row => (row, .ok ())
  | off :: offs, row =>
    match (do let v ← ds.getTimeSeries i off itemLength; let pts ← ds.points v; tsPAA pts b) with
    | .error e => (row, .error e)
    | .ok p => genRow ds itemLength b i offs (row ++ [.own p])

/-- The loop over the series, genex/PAAWrapper.cpp:54-60. -/
def genRows (ds : Dataset K) (itemLength b : Int) : List ℕ → List (List (PaaTs K)) → List (List (PaaTs K)) × Res Unit
  | [], mat => (mat, .ok ())
  | i :: is, mat =>
    if mat.length ≤ i then (mat, .error (.ub "paaMat index out of bounds"))
    else
      let r := genRow ds itemLength b i (List.range b.toNat) []
      match r.2 with
      | .error e => (mat.set i r.1, .error e)
      | .ok _ => genRows ds itemLength b is (mat.set i r.1)

/-- `generatePAAMatrix` (genex/PAAWrapper.cpp:46-62): the wrapper afterwards and the outcome. -/
def generate (w : Paa K) (ds : Dataset K) (b : Int) : Paa K × Res Unit :=
  if b < 1 then (w, .error (.genex "Block size for PAA must be positive"))
  else match ds.getItemLength ds.maxCol with
    | .error e => (w, .error e)
    | .ok itemLength =>
      let b := min b itemLength
      let r := genRows ds itemLength b (List.range ds.itemCount) w.mat
      match r.2 with
      | .error e => ({ w with mat := r.1 }, .error e)
      | .ok _ => ({ blockSize := some b, mat := r.1 }, .ok ())

/-- The part of `getPAA` after the checks, genex/PAAWrapper.cpp:78-95. -/
def assemble (w : Paa K) (sum0 : Option (Dbl K)) (ds : Dataset K) (index start stop : Int) : Res (List (Dbl K)) :=
  match w.blockSize with
  | none => .error (.ub "blockSize not initialised")
  | some b =>
    if b = 0 then .error (.ub "division by zero")
    else
      let offset := start.tmod b
      match w.mat[index.toNat]? >>= (fun row => row[offset.toNat]?) with
      | none => .error (.ub "paaMat index out of bounds")
      | some whole =>
        let paaLength := (stop - start - 1).tdiv b + 1
        if paaLength < 0 then .error (.std "bad_array_new_length")
        else do
          let paaStart := (start - offset).tdiv b
          let paaEnd := (stop - offset).tdiv b
          let paa ← (List.range (paaEnd - paaStart).toNat).foldlM (fun (p : List (Dbl K)) (j : ℕ) => do
            let x ← whole.point ds (paaStart + j)
            setPoint p j x) (List.replicate paaLength.toNat 0)
          if (stop - offset).tmod b ≠ 0 then do
            let v ← ds.getTimeSeries index (start + (stop - start).tdiv b * b) stop
            let pts ← ds.points v
            let a ← average sum0 pts
            setPoint paa (paaLength - 1) a
          else .ok paa

/-- `getPAA` (genex/PAAWrapper.cpp:64-96). -/
def getPAA (w : Paa K) (sum0 : Option (Dbl K)) (ds : Dataset K) (index start stop : Int) : Res (List (Dbl K)) := do
  if index < 0 ∨ (ds.itemCount : Int) ≤ index then .error (.genex "Invalid time series index")
  else do
    let len ← ds.getItemLength index
    let range := if start < 0 ∧ stop < 0 then ((0 : Int), len) else (start, stop)
    if range.1 < 0 ∨ range.2 ≤ range.1 ∨ len < range.2 then
      .error (.genex "Invalid starting or ending position of a time series")
    else w.assemble sum0 ds index range.1 range.2

/-- `getKBestMatchesPAA` (genex/PAAWrapper.cpp:98-156).  `query` is the contents of the query series. -/
def search [HasSqrt K] (w : Paa K) (sum0 : Option (Dbl K)) (A : Algos (Cand K)) [BandOps] (ratio : ℚ) (ds : Dataset K)
    (query : List (Dbl K)) (k : Int) (name : String) : Res (List (Cand K)) := do
  if k ≤ 0 then .error (.genex "K must be positive")
  else do
    let dist ← getDistanceFromName (name ++ "_dtw")
    let len ← ds.getItemLength ds.maxCol
    match w.blockSize with
    | none => .error (.ub "blockSize not initialised")
    | some b => do
      let paaQuery ← tsPAA query b
      let coords := (List.range ds.itemCount).flatMap (fun i => (subCoords len.toNat).map (fun p => (i, p)))
      let st ← coords.foldlM (fun st c => do
        let v ← ds.getTimeSeries c.1 c.2.1 c.2.2
        let paa ← w.getPAA sum0 ds c.1 c.2.1 c.2.2
        topKStep A (fun bound => dist.eval ratio paaQuery paa bound) v st) (k, [])
      .ok (A.sort st.2)

end Paa

end

end Genex
