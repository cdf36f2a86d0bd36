import Verif.Tests.Harness

/-!
# The tests of the interface (/repo/test/GenexAPITest.cpp)

`save_load_groups` is left out: it groups all 99 rows of ItalyPowerDemand_DATA, and C19, C28 cover what it tests.
-/

namespace Genex.Tests.Interface

open Genex Dbl Genex.Tests

/-- `loadDataset`. -/
def load (name : String) (file : Option String) (sep : String := " ") (maxNumRow startCol : Int := 0) : Call ℚ :=
  .load name (file.map String.toList) [] sep.toList maxNumRow startCol false

/-- `groupDataset` with one thread. -/
def group (s : Api ℚ) (name : String) (t : ℚ) (distance : String) : Api ℚ × Reply ℚ :=
  s.withSet name (fun id g =>
    let r := grouped s.ratio g distance t
    (s.store id r.1, .ret (r.2.map .int)))

/-- Several calls. -/
def run (s : Api ℚ) (l : List (Call ℚ)) : Api ℚ := l.foldl (fun s c => (s.exec env c).1) s

/-- The outcome of a call. -/
def out (s : Api ℚ) (c : Call ℚ) : Reply ℚ := (s.exec env c).2

/-- `BOOST_CHECK_THROW(_, GenexException)`. -/
def fails : Reply ℚ → Bool
  | .ret r => throws r
  | .dangling => false

def int? : Reply ℚ → Option Int
  | .ret (.ok (.int z)) => some z
  | _ => none

def info? : Reply ℚ → Option (Meta ℚ)
  | .ret (.ok (.info m)) => some m
  | _ => none

def cand? : Reply ℚ → Option (Cand ℚ)
  | .ret (.ok (.cand c)) => some c
  | _ => none

/-- The candidates in a result with padding, or without. -/
def cands? : Reply ℚ → Option (List (Cand ℚ))
  | .ret (.ok (.cands l)) => some l
  | .ret (.ok (.entries l)) => some (l.filterMap (fun e => match e with | .cand c => some c | .pad => none))
  | _ => none

/-- `best.size()`. -/
def size? : Reply ℚ → Option ℕ
  | .ret (.ok (.cands l)) => some l.length
  | .ret (.ok (.entries l)) => some l.length
  | _ => none

/-! ## `api_load_dataset` -/

def first : Api ℚ := run Api.fresh [load "test0" (some test1020Space), load "test1" (some test1520Comma) "," 10]

#guard (info? (out Api.fresh (load "test0" (some test1020Space)))).map Meta.name = some "test0"
#guard (info? (out first (load "test2" (some test3UnevenSpace)))).map Meta.name = some "test2"
#guard int? (out (run first [load "test2" (some test3UnevenSpace)]) .count) = some 3
#guard fails (out first (load "test0" (some test1020Space)))
#guard fails (out first (load "not_exist" none " " 10))

/-! ## `api_unload_dataset`, `api_unload_all_dataset` -/

def loaded3 : Api ℚ := run Api.fresh [load "test0" (some test1020Space) " " 5, load "test1" (some test1520Comma) "," 10,
  load "test2" (some test1020Space) " " 6]

#guard int? (out loaded3 .count) = some 3
#guard fails (out (run loaded3 [.unload "test1"]) (.unload "test1"))
#guard int? (out (run loaded3 [.unload "test1", .unload "test1"]) .count) = some 2
#guard fails (out (run loaded3 [.unloadAll]) (.unload "test0"))
#guard int? (out (run loaded3 [.unloadAll, .unload "test0"]) .count) = some 0

/-! ## `api_get_dataset_info` -/

def loaded2 : Api ℚ := run Api.fresh [load "test0" (some test1020Space) " " 5, load "test1" (some test1520Comma) "," 10 4]

#guard (info? (out loaded2 (.info "test1"))).map (fun m => (m.name, m.itemCount, m.itemLength)) = some ("test1", 10, 16)
#guard fails (out (run loaded2 [load "test2" (some test1520Comma) "," 10, .unload "test2"]) (.info "test2"))

/-! ## `api_group` -/

def one : Api ℚ := run Api.fresh [load "test" (some test1020Space) " " 5]

#guard (int? (group one "test" (1 / 2) "euclidean").2).any (fun n => decide (20 < n))
#guard (int? (group one "test" (1 / 2) "chebyshev").2).any (fun n => decide (20 < n))
#guard fails (group one "test1" (1 / 2) "euclidean").2
#guard fails (group one "test" (1 / 2) "oracle").2

/-! ## `api_match`, `api_knn_k_*`, `api_kx_k_*` -/

/-- Two datasets from the same file, the first one grouped. -/
def pair : Api ℚ :=
  (group (run Api.fresh [load "test0" (some test1020Space) " " 5, load "test1" (some test1020Space) " " 5])
    "test0" (1 / 2) "euclidean").1

/-- The query of the tests. -/
def queries : List (String × Int × Int × Int) :=
  [("test0", 0, -1, -1), ("test1", 0, -1, -1), ("test1", 1, -1, -1), ("test1", 0, 5, 10)]

def best (s : Api ℚ) (q : String × Int × Int × Int) : Reply ℚ := out s (.bestMatch "test0" q.1 q.2.1 q.2.2.1 q.2.2.2)

#guard queries.all (fun q => (cand? (best pair q)).map Cand.dist = some (.fin 0))
#guard fails (out pair (.bestMatch "test1" "test0" 0 (-1) (-1)))
#guard fails (out pair (.bestMatch "test1" "test0" 35 (-1) (-1)))
#guard fails (out pair (.bestMatch "test1" "test0" 1 100 125))

/-- The ratio set to 1. -/
def wide : Api ℚ := run pair [.setRatio 1]

def kBest (s : Api ℚ) (k : Int) (q : String × Int × Int × Int) : Reply ℚ := out s (.kBest k k "test0" q.1 q.2.1 q.2.2.1 q.2.2.2)

def brute (s : Api ℚ) (k : Int) (q : String × Int × Int × Int) : Reply ℚ :=
  out s (.bruteForce k "test0" q.1 q.2.1 q.2.2.1 q.2.2.2 "euclidean")

/-- `k` results, and the best match among them. -/
def contains (k : ℕ) (r : Reply ℚ) (b : Reply ℚ) : Bool :=
  size? r = some k &&
    match cands? r, cand? b with
    | some l, some c => l.any (fun x => decide (x.view = c.view))
    | _, _ => false

-- `api_knn_k_1`, `api_knn_k_2`, `api_knn_k_4`; the last test asks for the subsequence 4..10
#guard queries.all (fun q => contains 1 (kBest wide 1 q) (best wide q))
#guard fails (out wide (.kBest 1 1 "test1" "test0" 0 (-1) (-1)))
#guard fails (out wide (.kBest 1 1 "test1" "test0" 35 (-1) (-1)))
#guard fails (out wide (.kBest 1 1 "test1" "test0" 1 100 125))
#guard queries.all (fun q => contains 2 (kBest wide 2 q) (best wide q))
#guard (queries.take 3).all (fun q => contains 4 (kBest wide 4 q) (best wide q))
#guard contains 4 (kBest wide 4 ("test1", 0, 4, 10)) (best wide ("test1", 0, 5, 10))

-- `api_kx_k_1`, `api_kx_k_4`: the ratio is a global variable and keeps the value that the tests before have set
#guard queries.all (fun q => contains 1 (brute wide 1 q) (best wide q))
#guard queries.all (fun q => contains 4 (brute wide 4 q) (best wide q))

end Genex.Tests.Interface
