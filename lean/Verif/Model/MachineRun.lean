import Verif.Model.MachineDist
import Verif.Model.MachineSearch
import Verif.Model.MachineThreads

/-!
# One run of the program on the machine

Loading a file, normalising it or not, grouping all lengths with one thread and asking for the best match of a part of a series: the calls
`loadDataset`, `normalizeDataset`, `groupDataset` and `getBestMatch` of genex/GenexAPI.cpp, lines 22-50, 143-155 and 187-195, on one
dataset, with every `int` of 32 bits and the numbers rounded by `r`.  The registry of names around them has no integers besides the counts
of groups and series (C40), and is left out.
-/

namespace Genex

variable {K : Type} [Field K] [LinearOrder K]

/-- The arguments of the calls. -/
structure Job (K : Type) where
  /-- the text of the file -/
  content : Text
  path : Text
  maxNumRow : Int
  startCol : Int
  sep : List Char
  hasName : Bool
  /-- whether `normalizeDataset` is called -/
  norm : Bool
  distance : String
  threshold : Dbl K
  whole : Bool
  /-- the query: series, first point and first point after it -/
  index : Int
  start : Int
  stop : Int

namespace Job

variable [HasSqrt K] (r : Dbl K → Dbl K) (parse : Text → Parsed K) (j : Job K)

/-- `loadDataset` (genex/GenexAPI.cpp:22-50, genex/TimeSeriesSet.cpp:64-150) and `normalizeDataset` (genex/GenexAPI.cpp:143-147,
genex/TimeSeriesSet.cpp:198-293). -/
def dataI : Res (Dataset K) := do
  let l := Dataset.loadDataI parse (some j.content) j.path j.maxNumRow j.startCol j.sep j.hasName Dataset.fresh
  let _ ← l.2
  if j.norm then do
    let n ← l.1.normalizeI r
    .ok n.1
  else .ok l.1

/-- `groupDataset` with one thread (genex/GenexAPI.cpp:149-155, genex/GroupableTimeSeriesSet.cpp:22-47). -/
def groupI [BandOps] (ratio : ℚ) (log : ℕ → Bool) (ds : Dataset K) : Res (GSet K) :=
  let g := GSet.groupAllLengths (@GSpace.groupI K _ _ (machineArith r) ds ratio log j.distance j.threshold j.whole)
    (fun _ => (GSpace.fresh, .ok 0)) 1 ⟨ds, none⟩
  g.2.map (fun _ => g.1)

/-- `getBestMatch` (genex/GenexAPI.cpp:187-195): the query is a part of a series of the dataset. -/
def answerI [BandOps] (ratio : ℚ) (z : GSet K) : Res (Cand K) := do
  let v ← z.ds.getTimeSeriesI j.index j.start j.stop
  let q ← z.ds.pointsI v
  @GSet.getBestMatchI K _ (machineArith r) _ ratio z q

/-- All of it. -/
def runI [BandOps] (ratio : ℚ) (log : ℕ → Bool) : Res (Cand K) := do
  let ds ← j.dataI r parse
  let z ← j.groupI r ratio log ds
  j.answerI r ratio z

/-- A possible answer with the given number of threads. -/
def Outcome [BandOps] (ratio : ℚ) (log : ℕ → Bool) (numThreads : Int) (res : Res (Cand K)) : Prop :=
  match j.dataI r parse with
  | .error e => res = .error e
  | .ok ds => ∃ out, @GSet.GroupAllI K _ _ (machineArith r) ratio log j.distance j.threshold j.whole numThreads ⟨ds, none⟩ out ∧
    res = do let _ ← out.2; j.answerI r ratio out.1

end Job

end Genex
