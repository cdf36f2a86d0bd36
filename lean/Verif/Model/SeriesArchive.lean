import Verif.Model.TimeSeriesObj
import Verif.Model.Serialize

/-!
# A single series in an archive (genex/TimeSeries.hpp:184-198)

`saveToFile(ts, fname)` and `loadFromFile(ts, fname)` of genex/IO.hpp with a `TimeSeries`, as /repo/test/TimeSeriesTest.cpp uses them.
An archive is the list of the values written, as in Model/Serialize.
-/

namespace Genex.World

variable {K : Type}

/-- `TimeSeries::serialize` on an output archive (genex/TimeSeries.hpp:187-192): only the values are written. -/
def saveSeries (w : World K) (i : ℕ) : Res (List (Tok K)) := do
  let x ← w.obj i
  (List.range x.length.toNat).mapM (fun (k : ℕ) => (w.read x.data (x.start + k)).map Tok.dbl)

/-- The loop of `TimeSeries::serialize` on an input archive: `ar & data[start + k]`.  An exception leaves what has been stored. -/
def loadLoop (x : TsObj K) : List ℕ → World K → List (Tok K) → World K × Res (List (Tok K))
  | [], w, ts => (w, .ok ts)
  | k :: ks, w, ts =>
    match rdDbl ts with
    | .error e => (w, .error e)
    | .ok (v, ts) =>
      match w.write x.data (x.start + k) v with
      | .error e => (w, .error e)
      | .ok w => loadLoop x ks w ts

/-- `TimeSeries::serialize` on an input archive (genex/TimeSeries.hpp:187-192), for object number `i`: as many values as the object is
long; the kept envelopes stay. -/
def loadSeries (w : World K) (i : ℕ) (ts : List (Tok K)) : World K × Res (List (Tok K)) :=
  match w.obj i with
  | .error e => (w, .error e)
  | .ok x => loadLoop x (List.range x.length.toNat) w ts

end Genex.World
