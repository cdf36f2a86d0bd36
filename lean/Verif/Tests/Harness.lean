import Verif.Tests.Data
import Verif.Model.Api
import Verif.Model.TimeSeriesObj

/-!
# Running the model on the unit tests of the project

The tests under /repo/test are replayed on the model: each assertion becomes a `#guard`, which evaluates the model.  These are
tests of the model, not proofs; they show that the model computes what the authors of the code expect of the code.

Values are rationals.  The square root is cut off after 64 binary places, so the comparisons that the tests make with a
tolerance are made with a tolerance here.
-/

namespace Genex.Tests

open Genex

/-- Square root, cut off after 64 binary places. -/
scoped instance (priority := high) testSqrt : HasSqrt ℚ :=
  ⟨fun q => if q ≤ 0 then 0 else mkRat (Nat.sqrt (q.num.toNat * 2 ^ 128 / q.den)) (2 ^ 64)⟩

/-- Digits to a number; `none` if another character occurs or there is none. -/
def digits (t : Text) : Option ℕ :=
  if t.isEmpty then none
  else t.foldl (fun a c => a.bind (fun n => if c.isDigit then some (10 * n + (c.toNat - 48)) else none)) (some 0)

/-- `std::stod` on the tokens that occur in the files: spaces, a sign, digits, a point and digits, an exponent. -/
def stod (t : Text) : Parsed ℚ :=
  let t := t.dropWhile (· == ' ')
  let neg := t.head? = some '-'
  let t := if neg then t.drop 1 else t
  let mant := t.takeWhile (fun c => c != 'e')
  let ex := (t.dropWhile (fun c => c != 'e')).drop 1
  let whole := mant.takeWhile (· != '.')
  let frac := (mant.dropWhile (· != '.')).drop 1
  let e : Option Int :=
    if ex.isEmpty then some 0
    else if ex.head? = some '-' then (digits (ex.drop 1)).map (fun n => -(n : Int))
    else (digits (if ex.head? = some '+' then ex.drop 1 else ex)).map (fun n => (n : Int))
  match digits (whole ++ frac), e with
  | some n, some e =>
    let v : ℚ := (n : ℚ) * (10 : ℚ) ^ (e - frac.length)
    if (2 : ℚ) ^ (1024 : ℕ) ≤ v then .range else .val (.fin (if neg then -v else v))
  | _, _ => .invalid

/-- Equality up to a relative error of 1e-9, like `BOOST_TEST` with `tolerance(1e-9)`. -/
def close (x y : ℚ) : Bool :=
  let d := |x - y| * 1000000000
  decide (d ≤ |x|) && decide (d ≤ |y|)

/-- The same for the outcome of a function. -/
def gives (r : Res (Dbl ℚ)) (y : ℚ) : Bool :=
  match r with
  | .ok (.fin x) => close x y
  | _ => false

/-- `BOOST_CHECK_THROW(_, GenexException)`. -/
def throws {α : Type} (r : Res α) : Bool :=
  match r with
  | .error (.genex _) => true
  | _ => false

/-- `isinf`. -/
def infinite (r : Res (Dbl ℚ)) : Bool :=
  match r with
  | .ok .inf => true
  | .ok .ninf => true
  | _ => false

/-- A series with the given points. -/
def ser (l : List ℚ) : List (Dbl ℚ) := l.map .fin

/-- An approximation of a square root to compare with. -/
def root (q : ℚ) : ℚ := HasSqrt.sqrt q

/-- `loadData` on a new object. -/
def loaded (file : Option String) (maxNumRow startCol : Int) (sep : String) (hasName : Bool := false) :
    Dataset ℚ × Res Unit :=
  Dataset.loadData stod (file.map String.toList) "path".toList maxNumRow startCol sep.toList hasName Dataset.fresh

/-- `getTimeSeries(index, start, end)` and reading all points. -/
def series (ds : Dataset ℚ) (index : Int) (start stop : Int := -1) : Res (List (Dbl ℚ)) := do
  ds.points (← ds.getTimeSeries index start stop)

/-- `groupAllLengths` with one thread and no progress output. -/
def grouped (ratio : ℚ) (s : GSet ℚ) (name : String) (t : ℚ) (whole : Bool := false) : GSet ℚ × Res Int :=
  GSet.groupAllLengths (fun gs => gs.group s.ds ratio (fun _ => false) name (.fin t) whole)
    (fun gs => (gs, .error .diverge)) 1 s

/-- The library algorithms. -/
def algA : Algos (Cand ℚ) := refAlgos Cand.lt

def algB : Algos (GIdx ℚ) := refAlgos GIdx.lt

/-- What the interface needs from outside. -/
def env : Env ℚ := ⟨stod, fun _ => [], algA, algB, none, ⟨.num "x", .num "x"⟩⟩

end Genex.Tests
