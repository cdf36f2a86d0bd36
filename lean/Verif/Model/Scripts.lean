import Verif.Model.Dbl
import Mathlib.Data.List.Sort

/-!
# The experiment scripts (scripts/common.py, 1_extract_info.py, 3_brute_force.py, 4_paa.py, 5_genex.py)

Python 2.  Files, e-mail, logging and timings are left out; a file of results is the list it holds.
-/

namespace Genex.Scripts

/-- One row of the table of queries: the columns `index`, `start`, `end`, `outside` (scripts/common.py:63-64). -/
structure Query where
  index : ℕ
  start : ℕ
  stop : ℕ
  outside : ℕ
deriving DecidableEq, Repr

/-- One draw: an entry of `indices` and a row of `subindices` (scripts/common.py:37-38). -/
structure Draw where
  index : ℕ
  sub : ℕ × ℕ
deriving DecidableEq, Repr

/-- Lines 39-42 of scripts/common.py: the two numbers in order, and only those more than one apart.  The column `outside` (61-62) is added here. -/
def keep (outside : ℕ) (ds : List Draw) : List Query :=
  (ds.map fun d => (⟨d.index, min d.sub.1 d.sub.2, max d.sub.1 d.sub.2, outside⟩ : Query)).filter fun q => decide ((q.stop : Int) - q.start > 1)

/-- The loop of `generate_random_queries` (scripts/common.py:35-47).  `draws r` is what the generator of random numbers gives in round `r`; `diverge` for a loop that has not ended
after that many rounds. -/
def drawLoop (n outside : ℕ) (draws : ℕ → List Draw) : ℕ → ℕ → Option (List Query) → Res (List Query)
  | 0, _, _ => .error .diverge
  | fuel + 1, r, queries =>
    match queries with
    | none => drawLoop n outside draws fuel (r + 1) (some (keep outside (draws r)))
    | some qs =>
      if qs.length < n then drawLoop n outside draws fuel (r + 1) (some (qs ++ keep outside (draws r)))
      else .ok (qs.take n)

/-- `generate_random_queries` (scripts/common.py:34-47); `randint` of nothing raises `ValueError`. -/
def generate (fuel n count length outside : ℕ) (draws : ℕ → List Draw) : Res (List Query) :=
  if count = 0 ∨ length = 0 then .error (.std "ValueError: low >= high") else drawLoop n outside draws fuel 0 none

/-- `get_queries` without the file (scripts/common.py:56-67); `nquery / 2` is the integer quotient. -/
def getQueries (fuel nquery incount inlength outcount outlength : ℕ) (din dout : ℕ → List Draw) : Res (List Query) := do
  let nin := nquery / 2
  let nout := nquery - nin
  let inq ← generate fuel nin incount inlength 0 din
  let outq ← generate fuel nout outcount outlength 1 dout
  .ok (inq ++ outq)

/-- `check_subseq_range` (scripts/common.py:88-92; the same condition in scripts/2_generate_groups.py:143-146). -/
def checkSubseqRange (subseq lo hi : Int) : Bool :=
  (decide (hi < 0) && decide (lo < 0)) || (decide (lo ≤ subseq) && decide (subseq ≤ hi)) ||
    (decide (lo < 0) && decide (hi ≥ 0) && decide (subseq ≤ hi)) || (decide (hi < 0) && decide (lo ≥ 0) && decide (subseq ≥ lo))

/-- `df['count'] * df['length'] * (df['length'] - 1) / 2` (scripts/1_extract_info.py:31), as integers. -/
def subseqCount (count length : ℕ) : ℕ := count * length * (length - 1) / 2

/-- A data set in the file of records: its name and its entry `subsequence`. -/
structure Info where
  name : List Char
  subseq : ℕ
deriving DecidableEq, Repr

/-- `ds.endswith('_out')` (scripts/common.py:97). -/
def isOut (ds : List Char) : Bool := "_out".toList.isSuffixOf ds

/-- The order of strings. -/
def strLe : List Char → List Char → Bool
  | [], _ => true
  | _ :: _, [] => false
  | a :: as, b :: bs => if a.toNat < b.toNat then true else if b.toNat < a.toNat then false else strLe as bs

/-- The order of the pairs that are sorted (scripts/common.py:96). -/
def infoLe (a b : Info) : Bool := if a.subseq < b.subseq then true else if b.subseq < a.subseq then false else strLe a.name b.name

/-- `get_dataset_order` (scripts/common.py:95-98): `zip` of no pairs is the empty list, which has no entry 1. -/
def getDatasetOrder (info : List Info) : Res (List (List Char)) :=
  let order := (info.filter fun ds => !isOut ds.name).insertionSort (infoLe · ·)
  if order = [] then .error (.std "IndexError: list index out of range") else .ok (order.map Info.name)

/-! ## Running the queries -/

/-- An entry of `results[d]`: a query, and the result under the key `result_` with the name of the method. -/
structure Rec (R : Type) where
  query : Query
  method : String
  result : R
deriving DecidableEq, Repr

variable {R : Type}

/-- `len(find_query) != 0` (scripts/3_brute_force.py:50-52, 4_paa.py:53-55, 5_genex.py:99-101). -/
def known (m : String) (rs : List (Rec R)) (q : Query) : Bool := rs.any fun o => decide (o.method = m) && decide (o.query = q)

/-- The loop over the queries for one distance (scripts/3_brute_force.py:42-83, the same in 4_paa.py:45-83 and, for one nearest neighbour, in 5_genex.py:86-130).  The second
component is the exception that ends the script, if any; what is recorded then has been written to the file. -/
def runMethod (m : String) (dry : Bool) (ans : Query → Res R) : List Query → List (Rec R) → List (Rec R) × Res Unit
  | [], rs => (rs, .ok ())
  | q :: qs, rs =>
    if known m rs q then runMethod m dry ans qs rs
    else if dry then runMethod m dry ans qs rs
    else match ans q with
      | .error f => (rs, .error f)
      | .ok r => runMethod m dry ans qs (rs ++ [⟨q, m, r⟩])

section
variable {K : Type} [Field K] [LinearOrder K]

/-- `a - b` of two one-dimensional arrays (scripts/common.py:145): an array of one number is repeated. -/
def npSub (a b : List K) : Res (List K) :=
  if a.length = b.length then .ok (List.zipWith (· - ·) a b)
  else match a, b with
    | [x], _ => .ok (b.map (x - ·))
    | _, [y] => .ok (a.map (· - y))
    | _, _ => .error (.std "ValueError: operands could not be broadcast together")

/-- `compute_rel_error` (scripts/common.py:142-145); `np.mean` of nothing is NaN. -/
def computeRelError (a b : List K) : Res (Dbl K) := do
  let d ← npSub a b
  .ok (Dbl.fin d.sum / Dbl.fin (d.length : K))

/-- `abs(err) < 1e-9` (scripts/5_genex.py:166). -/
def small (e : Dbl K) : Prop := Dbl.abs e < .fin (1 / 10 ^ 9)

instance (e : Dbl K) : Decidable (small e) := by unfold small; infer_instance

/-- The loop over the extents of the search (scripts/5_genex.py:150-167): `err i` is the error with the `i`-th extent; the errors are collected until one is small. -/
def sweep (err : ℕ → Res (Dbl K)) : ℕ → ℕ → List (Dbl K) → Res (List (Dbl K))
  | 0, _, acc => .ok acc
  | n + 1, i, acc =>
    match err i with
    | .error f => .error f
    | .ok e => if small e then .ok (acc ++ [e]) else sweep err n (i + 1) (acc ++ [e])

end

end Genex.Scripts
