import Verif.Model.Dbl

/-!
# Datasets (genex/TimeSeriesSet.hpp, genex/TimeSeriesSet.cpp)

Text is a list of characters.  A file is its contents, `none` when it cannot be opened; I/O errors while reading an open
file are not modelled.  `std::stod` is a parameter `parse`, `operator<<(double)` a parameter `print`.
-/

namespace Genex

/-- `std::string`. -/
abbrev Text := List Char

/-- What `std::stod` does with a token: a value, `std::invalid_argument` or `std::out_of_range`. -/
inductive Parsed (K : Type) where
  | val (x : Dbl K)
  | invalid
  | range
deriving DecidableEq, Repr

/-- `TimeSeriesSet`: protected and private members (genex/TimeSeriesSet.hpp:155-163).  `data = none` is the null pointer;
otherwise the allocated array. -/
structure Dataset (K : Type) where
  data : Option (List (Dbl K))
  names : List Text
  lengths : List Int
  itemCount : ℕ
  maxCol : Int
  filePath : Text
  normalized : Bool
deriving DecidableEq

/-! ## Reading files -/

/-- The lines that repeated `std::getline(f, line)` yields: text between newlines; a newline at the end of the file does
not start another line. -/
def fileLines : Text → List Text
  | [] => []
  | c :: cs =>
    if c = '\n' then [] :: fileLines cs
    else match fileLines cs with
      | [] => [[c]]
      | l :: ls => (c :: l) :: ls

/-- `boost::tokenizer` with `boost::char_separator(separators)`: skip separators, then take characters up to the next
separator, until the line is used up; empty tokens are dropped.  Each round uses at least one character. -/
def tokenLoop (sep : List Char) : ℕ → Text → List Text
  | 0, _ => []
  | fuel + 1, l =>
    match l.dropWhile (fun c => decide (c ∈ sep)) with
    | [] => []
    | c :: cs =>
      (c :: cs.takeWhile (fun c => decide (c ∉ sep))) :: tokenLoop sep fuel (cs.dropWhile (fun c => decide (c ∉ sep)))

/-- The tokens of a line. -/
def tokens (sep : List Char) (line : Text) : List Text := tokenLoop sep line.length line

/-- `hasNameCol` in an arithmetic expression. -/
def b2i (b : Bool) : Int := if b then 1 else 0

namespace Dataset

variable {K : Type} [Field K]

/-- Constructor (genex/TimeSeriesSet.cpp:20-23). -/
def fresh : Dataset K :=
  { data := none, names := [], lengths := [], itemCount := 0, maxCol := 0, filePath := [], normalized := false }

/-- `clearData` (genex/TimeSeriesSet.cpp:172-179). -/
def clearData (ds : Dataset K) : Dataset K :=
  { ds with data := none, itemCount := 0, maxCol := 0, names := [] }

/-- `data[index] = x`; outside the array or through a null pointer: undefined. -/
def write (ds : Dataset K) (index : Int) (x : Dbl K) : Res (Dataset K) :=
  match ds.data with
  | none => .error (.ub "write through null data pointer")
  | some buf =>
    if 0 ≤ index ∧ index < buf.length then .ok { ds with data := some (buf.set index.toNat x) }
    else .error (.ub "write outside the data array")

/-- The loop over the tokens of one line, genex/TimeSeriesSet.cpp:102-132; `col` is the column of the first one. -/
def loadToks (parse : Text → Parsed K) (rawMaxCol startCol : Int) (hasName : Bool) (row : ℕ) :
    List Text → ℕ → Dataset K → Dataset K × Res Unit
  | [], _, ds => (ds, .ok ())
  | t :: ts, col, ds =>
    if startCol ≤ col then
      if (col : Int) = startCol ∧ hasName = true then
        loadToks parse rawMaxCol startCol hasName row ts (col + 1) { ds with names := ds.names ++ [t] }
      else
        match parse t with
        | .invalid => (ds.clearData, .error (.genex "Dataset file contains unparsable text"))
        | .range => (ds.clearData, .error (.genex "Values are out of range"))
        | .val x =>
          match ds.write (row * (rawMaxCol - startCol - b2i hasName) + (col - startCol - b2i hasName)) x with
          | .error e => (ds, .error e)
          | .ok ds => loadToks parse rawMaxCol startCol hasName row ts (col + 1) ds
    else loadToks parse rawMaxCol startCol hasName row ts (col + 1) ds

/-- The loop over the lines, genex/TimeSeriesSet.cpp:95-137. -/
def loadRows (parse : Text → Parsed K) (sep : List Char) (rawMaxCol startCol : Int) (hasName : Bool) :
    List Text → ℕ → Dataset K → Dataset K × Res Unit
  | [], _, ds => (ds, .ok ())
  | l :: ls, row, ds =>
    let toks := tokens sep l
    let r := loadToks parse rawMaxCol startCol hasName row toks 0
      { ds with lengths := ds.lengths ++ [(toks.length : Int) - startCol - b2i hasName] }
    match r.2 with
    | .error e => (r.1, .error e)
    | .ok _ => loadRows parse sep rawMaxCol startCol hasName ls (row + 1) { r.1 with itemCount := r.1.itemCount + 1 }

/-- `_getMaxRowsMaxColumns` (genex/TimeSeriesSet.cpp:43-62), second component. -/
def maxColumns (sep : List Char) (lines : List Text) : ℕ := lines.foldl (fun m l => max m (tokens sep l).length) 0

/-- `loadData` (genex/TimeSeriesSet.cpp:64-150): the object afterwards and the outcome. -/
def loadData (parse : Text → Parsed K) (file : Option Text) (path : Text) (maxNumRow startCol : Int) (sep : List Char)
    (hasName : Bool) (ds : Dataset K) : Dataset K × Res Unit :=
  let ds := ds.clearData
  match file with
  | none => (ds, .error (.genex "Cannot open"))
  | some content =>
    let lines := fileLines content
    let rawMaxCol := maxColumns sep lines
    let n := if maxNumRow ≤ 0 then lines.length else min maxNumRow.toNat lines.length
    let r := loadRows parse sep rawMaxCol startCol hasName (lines.take n) 0
      { ds with itemCount := 0, data := some (List.replicate (n * rawMaxCol) 0) }
    match r.2 with
    | .error e => (r.1, .error e)
    | .ok _ => ({ r.1 with filePath := path, maxCol := (rawMaxCol : Int) - startCol - b2i hasName }, .ok ())

/-! ## Access -/

/-- `getTimeSeriesName` (genex/TimeSeriesSet.cpp:30-41). -/
def getTimeSeriesName (ds : Dataset K) (index : Int) : Res Text :=
  if index < 0 ∨ (ds.itemCount : Int) ≤ index then .error (.genex "Invalid time series index")
  else match ds.names[index.toNat]? with
    | some n => .ok n
    | none => .ok (toString index).toList

/-- `getItemLength` (genex/TimeSeriesSet.hpp:82): `lengths[index]` without a check. -/
def getItemLength (ds : Dataset K) (index : Int) : Res Int :=
  if index < 0 then .error (.ub "lengths index out of bounds")
  else match ds.lengths[index.toNat]? with
    | some n => .ok n
    | none => .error (.ub "lengths index out of bounds")

end Dataset

/-- A `TimeSeries` that refers to the data of a dataset (constructor genex/TimeSeries.cpp:19-28): `base` is the offset of
the pointer `data` in the array of the dataset. -/
structure View where
  base : Int
  index : Int
  start : Int
  stop : Int
deriving DecidableEq, Repr

/-- `getLength`. -/
def View.length (v : View) : Int := v.stop - v.start

namespace Dataset

variable {K : Type} [Field K]

/-- `getTimeSeries` (genex/TimeSeriesSet.cpp:181-196). -/
def getTimeSeries (ds : Dataset K) (index start stop : Int) : Res View := do
  if index < 0 ∨ (ds.itemCount : Int) ≤ index then .error (.genex "Invalid time series index")
  else if start < 0 ∧ stop < 0 then do
    let len ← ds.getItemLength index
    .ok { base := index * ds.maxCol, index := index, start := 0, stop := len }
  else do
    let len ← ds.getItemLength index
    if start < 0 ∨ stop ≤ start ∨ len < stop then
      .error (.genex "Invalid starting or ending position of a time series")
    else .ok { base := index * ds.maxCol, index := index, start := start, stop := stop }

/-- `data[i]`, undefined outside the array. -/
def read (ds : Dataset K) (i : Int) : Res (Dbl K) :=
  match ds.data with
  | none => .error (.ub "read through null data pointer")
  | some buf =>
    if i < 0 then .error (.ub "read outside the data array")
    else match buf[i.toNat]? with
      | some x => .ok x
      | none => .error (.ub "read outside the data array")

/-- `TimeSeries::operator[]` (genex/TimeSeries.cpp:127-133) on a series that refers to the dataset. -/
def pointAt (ds : Dataset K) (v : View) (i : Int) : Res (Dbl K) :=
  if i < 0 ∨ v.length ≤ i then .error (.genex "Data point index is out of range")
  else ds.read (v.base + v.start + i)

/-- All points of a series, read one by one. -/
def points (ds : Dataset K) (v : View) : Res (List (Dbl K)) :=
  (List.range v.length.toNat).mapM (fun (i : ℕ) => ds.pointAt v i)

/-! ## Saving -/

/-- One line of `saveData`, genex/TimeSeriesSet.cpp:160-168: each value followed by the separator. -/
def saveRow (print : Dbl K → Text) (sep : Char) (ds : Dataset K) (i : ℕ) : Res Text := do
  let name ←
    if ds.names.isEmpty then .ok []
    else match ds.names[i]? with
      | some n => .ok (n ++ [sep])
      | none => .error (.ub "names index out of bounds")
  let len ← ds.getItemLength i
  let cells ← (List.range len.toNat).mapM (fun (j : ℕ) => ds.read ((i : Int) * ds.maxCol + j))
  .ok (name ++ (cells.map (fun x => print x ++ [sep])).flatten ++ ['\n'])

/-- `saveData` (genex/TimeSeriesSet.cpp:152-170): the contents written. -/
def saveData (print : Dbl K → Text) (sep : Char) (ds : Dataset K) : Res Text := do
  let rows ← (List.range ds.itemCount).mapM (ds.saveRow print sep)
  .ok rows.flatten

/-! ## Normalisation -/

variable [LinearOrder K]

/-- The cells visited by the loops of `normalize`: `unsigned i` runs to `lengths[ts]`, so a negative length is huge. -/
def cells (ds : Dataset K) : Res (List Int) := do
  let rows ← (List.range ds.itemCount).mapM (fun (ts : ℕ) => do
    let len ← ds.getItemLength ts
    if len < 0 then .error (.ub "loop bound wraps around")
    else .ok ((List.range len.toNat).map (fun (i : ℕ) => (ts : Int) * ds.maxCol + i)))
  .ok rows.flatten

/-- One step of the search for the extremes, genex/TimeSeriesSet.cpp:253-259; the state is `(MIN, MAX)`. -/
def minMaxStep (ds : Dataset K) (m : Dbl K × Dbl K) (c : Int) : Res (Dbl K × Dbl K) := do
  let x ← ds.read c
  .ok (if x < m.1 then x else m.1, if m.2 < x then x else m.2)

/-- `normalize` (genex/TimeSeriesSet.cpp:198-293): the new dataset and `(MIN, MAX)`. -/
def normalize (ds : Dataset K) : Res (Dataset K × (Dbl K × Dbl K)) := do
  if ds.itemCount = 0 then .error (.genex "No data to normalize")
  else do
    let cs ← ds.cells
    let m ← cs.foldlM ds.minMaxStep (.inf, .ninf)
    let diff := m.2 - m.1
    let ds' ←
      if Dbl.eqD diff 0 then
        if Dbl.eqD m.2 0 then .ok ds
        else cs.foldlM (fun (d : Dataset K) (c : Int) => d.write c 0) ds
      else cs.foldlM (fun (d : Dataset K) (c : Int) => do let x ← d.read c; d.write c ((x - m.1) / diff)) ds
    .ok ({ ds' with normalized := true }, m)

end Dataset

end Genex
