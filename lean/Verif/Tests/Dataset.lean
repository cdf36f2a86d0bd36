import Verif.Tests.Harness

/-!
# The tests of `TimeSeriesSet` (/repo/test/TimeSeriesSetTest.cpp) and of the PAA wrapper (/repo/test/PAAWrapperTest.cpp)
-/

namespace Genex.Tests.Sets

open Genex Dbl Genex.Tests

/-- First and last point of a series. -/
def ends (ds : Dataset ℚ) (index : Int) : Option (Dbl ℚ × Dbl ℚ) :=
  match series ds index with
  | .ok l => match l.head?, l.getLast? with
    | some a, some b => some (a, b)
    | _, _ => none
  | _ => none

/-- `ts[i]` of `getTimeSeries(index, start, end)`. -/
def point (ds : Dataset ℚ) (index start stop i : Int) : Res (Dbl ℚ) := do
  ds.pointAt (← ds.getTimeSeries index start stop) i

def spaces20 : Dataset ℚ := (loaded (some test1020Space) 20 0 " ").1
def comma20 : Dataset ℚ := (loaded (some test1520Comma) 20 0 ",").1
def uneven : Dataset ℚ := (loaded (some test3UnevenSpace) 20 0 " ").1

-- `time_series_set_load_space`
#guard spaces20.itemCount = 10
#guard spaces20.filePath = "path".toList
#guard ends spaces20 0 = some (.fin (3029296875 / 1000000000), .fin (2537109375 / 1000000000))
#guard ends spaces20 9 = some (.fin (1089843750 / 1000000000), .fin (2822876 / 1000000000))

-- `time_series_set_load_comma`
#guard comma20.itemCount = 15
#guard ends comma20 0 = some (.fin (4122284712 / 1000000000), .fin (2684802835 / 1000000000))

-- `time_series_set_load_file_not_exist`
#guard throws (loaded none 0 0 " ").2

-- `time_series_set_load_uneven_rows`
#guard uneven.itemCount = 3
#guard ends uneven 0 = some (.fin 1, .fin 8)
#guard ends uneven 2 = some (.fin 11, .fin 10)

-- `time_series_set_load_text_only`, `time_series_set_load_very_big_value`
#guard throws (loaded (some testTextOnly) 10 0 " ").2
#guard throws (loaded (some veryBigValue) 0 0 " ").2

-- `timeseries_set_load_all`
#guard (loaded (some test1520Comma) (-1) 0 ",").1.itemCount = 15

-- `time_series_set_get_sub_time_series`
#guard (spaces20.getTimeSeries 0 5 10).map View.length = .ok 5
#guard point spaces20 0 5 10 0 = .ok (.fin (2656250000 / 1000000000))
#guard point spaces20 0 5 10 4 = .ok (.fin (3822265625 / 1000000000))
#guard throws (point spaces20 0 5 10 5)

-- `time_series_set_uneven_get_sub_time_series`
#guard (uneven.getTimeSeries 0 3 7).map View.length = .ok 4
#guard point uneven 0 3 7 0 = .ok (.fin 4)
#guard point uneven 0 3 7 3 = .ok (.fin 7)
#guard throws (point uneven 0 3 7 4)

-- `time_series_set_get_invalid_sub_time_series`
#guard throws (spaces20.getTimeSeries 100 (-1) (-1))
#guard throws (spaces20.getTimeSeries (-2) (-1) (-1))
#guard throws (spaces20.getTimeSeries 0 (-1) 10)
#guard throws (spaces20.getTimeSeries 0 0 100)
#guard throws (spaces20.getTimeSeries 0 11 10)
#guard throws (spaces20.getTimeSeries 0 10 10)

-- `time_series_set_load_omit_rows_and_columns`
#guard (loaded (some test1020Space) 5 5 " ").1.itemCount = 5
#guard ends (loaded (some test1020Space) 5 5 " ").1 0 = some (.fin (2656250000 / 1000000000), .fin (2537109375 / 1000000000))
#guard ends (loaded (some test1020Space) 5 5 " ").1 1 = some (.fin (2267578125 / 1000000000), .fin (352783203 / 1000000000))

-- `normalize`
#guard (loaded (some test510Space) 10 0 " ").1.normalize.map Prod.snd = .ok (.fin 1, .fin 11)
#guard (do let r ← (loaded (some test510Space) 10 0 " ").1.normalize; series r.1 0) =
  .ok (ser ((List.range 10).map (fun (i : ℕ) => (i : ℚ) / 10)))

-- `normalize_2`
#guard (loaded (some test311Space) 11 0 " ").1.normalize.map Prod.snd = .ok (.fin 1, .fin 21)
#guard (do let r ← (loaded (some test311Space) 11 0 " ").1.normalize; series r.1 0) =
  .ok (ser ((List.range 11).map (fun (i : ℕ) => (i : ℚ) / 20)))
#guard (do let r ← (loaded (some test311Space) 11 0 " ").1.normalize; series r.1 2) =
  .ok (ser ((List.range 11).map (fun (i : ℕ) => ((i : ℚ) + 10) / 20)))

-- `normalize_exception`
#guard throws (Dataset.fresh : Dataset ℚ).normalize

-- `basic_k_exhaustive`
#guard (do
  let ds := (loaded (some test310Space) 20 0 " ").1
  let l ← bruteForce algA (1 / 10) ds (← series ds 0) 1 "euclidean"
  .ok (l.map Cand.dist)) = .ok [.fin 0]

/-- The first five names. -/
def names (ds : Dataset ℚ) : Res (List String) :=
  ([0, 1, 2, 3, 4] : List Int).mapM (fun i => (ds.getTimeSeriesName i).map String.ofList)

-- `read_time_series_name`: three loads into the same object
def named1 : Dataset ℚ := (loaded (some test510Space) (-1) 0 " ").1
def named2 : Dataset ℚ :=
  (Dataset.loadData stod (some test510SpaceWithNames.toList) [] (-1) 1 " ".toList true named1).1
def named3 : Dataset ℚ :=
  (Dataset.loadData stod (some test510CommaWithNames.toList) [] (-1) 0 ",".toList true named2).1

#guard names named1 = .ok ["0", "1", "2", "3", "4"]
#guard names named2 = .ok ["alice", "bob", "charles", "david", "emma"]
#guard names named3 = .ok ["alice alice", "bob bob", "charles charles", "david david", "emma emma"]
#guard point named3 2 (-1) (-1) 0 = .ok (.fin 2)
#guard point named3 2 (-1) (-1) 1 = .ok (.fin 3)
#guard point named3 2 (-1) (-1) 2 = .ok (.fin 4)

/-! ## PAAWrapperTest.cpp

All its assertions are commented out, because the wrapper does not work; the averages that they state are those of the blocks. -/

-- `generate_paa_matrix_2`, first row, offset 0 (3.858398438 is rounded to nine places)
#guard match series spaces20 0 with
  | .ok l => match tsPAA l 2 with
    | .ok r => r.head? = some (.fin (38583984375 / 10000000000))
    | _ => false
  | _ => false

end Genex.Tests.Sets
