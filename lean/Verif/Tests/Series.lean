import Verif.Tests.Harness
import Verif.Model.SeriesArchive

/-!
# The tests of `TimeSeries` (/repo/test/TimeSeriesTest.cpp)
-/

namespace Genex.Tests.Series

open Genex Dbl

def dat : List (Dbl ℚ) := ser [1, 2, 3, 4, 5, 6, 7]
def dat2 : List (Dbl ℚ) := ser [-1, 4, 5, 3, 3 / 2, 6, -5]
def dat3 : List (Dbl ℚ) := ser [0, 2, 3, 5, 8, 6, 3, 2, 3, 5]

/-- Two arrays of data and a view on the start of each. -/
def two (n m : Int) : World ℚ :=
  ((⟨[some (dat.map some), some (dat2.map some)], []⟩ : World ℚ).newView ⟨0, 0⟩ 0 0 n).newView ⟨1, 0⟩ 0 0 m

/-- `ts[k]` on object `i`, with the check of the index. -/
def pointOf (w : World ℚ) (i : ℕ) (k : Int) : Res (Dbl ℚ) := do
  let x ← w.obj i
  if k < 0 ∨ x.length ≤ k then .error (.genex "Data point index is out of range") else w.read x.data (x.start + k)

-- `time_series_length`, `time_series_out_of_range`
#guard ((two 5 5).obj 0).map (·.length) = .ok 5
#guard throws ((two 5 5).setAt 0 10 (.fin 0))

-- `time_series_modify_data`
#guard pointOf (two 2 2) 0 0 = .ok (.fin 1)
#guard (do let w ← (two 2 2).setAt 0 0 (.fin 99); pointOf w 0 0) = .ok (.fin 99)

-- `time_series_addition`
#guard (do let w ← (two 7 7).addAssign 0 1; w.points (← w.obj 0)) = .ok (ser [0, 6, 8, 7, 13 / 2, 12, 2])

/-- `getKeoghLower(band)` and `getKeoghUpper(band)`, all elements. -/
def envelope (t : List (Dbl ℚ)) (band : Int) : Res (List (Option (Dbl ℚ)) × List (Option (Dbl ℚ))) :=
  (keoghLU t band).map (fun lu => ((List.range t.length).map lu.1, (List.range t.length).map lu.2))

def known (l : List ℚ) : List (Option (Dbl ℚ)) := (ser l).map some

-- `time_series_keogh_upper_lower`
#guard envelope dat2 1 = .ok (known [-1, -1, 3, 3 / 2, 3 / 2, -5, -5], known [4, 5, 5, 5, 6, 6, 6])
#guard envelope dat2 2 = .ok (known [-1, -1, -1, 3 / 2, -5, -5, -5], known [5, 5, 5, 6, 6, 6, 6])
#guard envelope dat2 3 = .ok (known [-1, -1, -1, -5, -5, -5, -5], known [5, 5, 6, 6, 6, 6, 6])
#guard envelope dat2 4 = .ok (known [-1, -1, -5, -5, -5, -5, -5], known [5, 6, 6, 6, 6, 6, 6])
#guard envelope dat2 6 = .ok (known [-5, -5, -5, -5, -5, -5, -5], known [6, 6, 6, 6, 6, 6, 6])
#guard envelope dat3 2 = .ok (known [0, 0, 0, 2, 3, 2, 2, 2, 2, 2], known [3, 5, 8, 8, 8, 8, 8, 6, 5, 5])

-- `time_series_save_and_load`
#guard (do
  let w ← (two 7 7).newOwned 7
  let ts ← w.saveSeries 0
  let r := w.loadSeries 2 ts
  let rest ← r.2
  let y ← r.1.obj 2
  Except.ok (rest, y.length, ← r.1.points y)) = Except.ok ([], 7, dat)

end Genex.Tests.Series
