import Verif.Model.Machine
import Verif.Model.Traverse

/-!
# `int` of 32 bits in the searches

As `Model/Machine.lean`, for the searches in groups.  `getKBestMatches` adds to a global counter, `extraTimeSeries` (genex/TimeSeries.cpp:14), that
is never reset; the functions take its value and return the new one.  Where they end with an exception or undefined, the counter is not
followed.  The loops inside the distances are not repeated, nor are the
conversions of sizes to `int`.
-/

namespace Genex

variable {K : Type}

/-- genex/group/GlobalGroupSpace.cpp:262-272: `low + r`, `low--`. -/
def Trav.goLowI [BandOps] (ratio : ℚ) (q : Int) (s : Trav) : Res Trav :=
  if s.lowStop then .ok s
  else do
    let r ← bandInt ratio q
    let x ← int32 (s.low + r)
    if q ≤ x then do
      let low ← int32 (s.low - 1)
      .ok { s with order := s.order ++ [s.low], low := low }
    else .ok { s with lowStop := true }

/-- Lines 274-284: `queryLength + r`, `high++`. -/
def Trav.goHighI [BandOps] (ratio : ℚ) (q : Int) (s : Trav) : Res Trav :=
  if s.highStop then .ok s
  else do
    let r ← bandInt ratio s.high
    let x ← int32 (q + r)
    if s.high ≤ x then do
      let high ← int32 (s.high + 1)
      .ok { s with order := s.order ++ [s.high], high := high }
    else .ok { s with highStop := true }

/-- The loop, lines 258-285. -/
def Trav.loopI [BandOps] (ratio : ℚ) (q total : Int) : ℕ → Trav → Res (List Int)
  | fuel, s =>
    if s.lowStop && s.highStop then .ok s.order
    else match fuel with
      | 0 => .error .diverge
      | fuel + 1 => do
        let s ← (s.tests total).goLowI ratio q
        let s ← s.goHighI ratio q
        loopI ratio q total fuel s

/-- `generateTraverseOrder` (genex/group/GlobalGroupSpace.cpp:249-287). -/
def generateTraverseOrderI [BandOps] (ratio : ℚ) (q total : Int) : Res (List Int) := do
  let low ← int32 (q - 1)
  let high ← int32 (q + 1)
  Trav.loopI ratio q total (q.toNat + total.toNat + 2) { low := low, high := high, lowStop := false, highStop := false, order := [q] }

section

variable [Field K] [LinearOrder K] [HasSqrt K]

/-- The loop that removes the farthest groups, genex/group/LocalLengthGroupSpace.cpp:197-201 and 213-217. -/
def shrinkI (B : Algos (GIdx K)) : ℕ → Int × List (GIdx K) → Res (Int × List (GIdx K))
  | fuel, st =>
    match st.2 with
    | [] => .error (.ub "front() of an empty vector")
    | top :: _ => do
      let k ← int32 (st.1 + top.members)
      if k ≤ 0 then
        match fuel with
        | 0 => .error .diverge
        | fuel + 1 => shrinkI B fuel (k, (B.popHeap st.2).dropLast)
      else .ok st

/-- One round of `interLevelKSim`, genex/group/LocalLengthGroupSpace.cpp:186-219. -/
def kSimStepI (B : Algos (GIdx K)) (length : Int) (dist : Dbl K → Res (Dbl K)) (i : ℕ) (members : Int)
    (st : Int × List (GIdx K)) : Res (Int × List (GIdx K)) :=
  if st.1 ≤ 0 then
    match st.2 with
    | [] => .error (.ub "front() of an empty vector")
    | top :: _ => do
      let d ← dist top.dist
      if d < top.dist then do
        let best := B.pushHeap (st.2 ++ [⟨length, i, members, d⟩])
        let k ← int32 (st.1 - members)
        shrinkI B best.length (k, best)
      else .ok st
  else do
    let d ← dist .inf
    let best := st.2 ++ [⟨length, i, members, d⟩]
    let k ← int32 (st.1 - members)
    if k ≤ 0 then
      let best := B.makeHeap best
      shrinkI B best.length (k, best)
    else .ok (k, best)

namespace LocalSpace

/-- `getBestGroup` (genex/group/LocalLengthGroupSpace.cpp:163-178). -/
def getBestGroupI [Arith K] (ds : Dataset K) (ratio : ℚ) (ref : DistRef) (query : List (Dbl K)) (dropout : Dbl K)
    (sp : LocalSpace K) : Res (Dbl K × Option ℕ) :=
  bestLoop (Group.distanceI ds ratio ref query) sp.groups 0 (dropout, none)

/-- `interLevelKSim` (genex/group/LocalLengthGroupSpace.cpp:180-222). -/
def interLevelKSimI [Arith K] (B : Algos (GIdx K)) (ds : Dataset K) (ratio : ℚ) (ref : DistRef) (query : List (Dbl K))
    (st : Int × List (GIdx K)) (sp : LocalSpace K) : Res (Int × List (GIdx K)) :=
  sp.groups.zipIdx.foldlM (fun st g =>
    kSimStepI B sp.length (Group.distanceI ds ratio ref query g.1) g.2 g.1.count st) st

end LocalSpace

namespace GSpace

/-- One round of the loop of `getBestMatch`, genex/group/GlobalGroupSpace.cpp:147-158. -/
def bestStepI [Arith K] (ds : Dataset K) (ratio : ℚ) (w : DistRef) (query : List (Dbl K)) (gs : GSpace K)
    (st : Dbl K × Option (LocalSpace K × ℕ)) (i : Int) : Res (Dbl K × Option (LocalSpace K × ℕ)) := do
  let s ← gs.spaceAt i
  match s with
  | none => .ok st
  | some sp => do
    let c ← sp.getBestGroupI ds ratio w query st.1
    .ok (if c.1 < st.1 then (c.1, c.2.map (fun g => (sp, g))) else st)

/-- `getBestMatch` (genex/group/GlobalGroupSpace.cpp:135-161). -/
def getBestMatchI [Arith K] (ds : Dataset K) [BandOps] (ratio : ℚ) (gs : GSpace K) (query : List (Dbl K)) : Res (Cand K) := do
  if query.length ≤ 1 then .error (.genex "Length of query must be larger than 1")
  else match gs.warped with
    | none => .error (.ub "call through an uninitialised function pointer")
    | some w => do
      let order ← generateTraverseOrderI ratio query.length ((gs.spaces.length : Int) - 1)
      let st ← order.foldlM (bestStepI ds ratio w query gs) (.inf, none)
      match st.2 with
      | none => .error (.ub "null pointer dereference")
      | some (sp, g) =>
        match sp.groups[g]? with
        | none => .error (.ub "dangling group")
        | some g => sp.getBestMatchI ds ratio w query g

/-- One round of the loop genex/group/GlobalGroupSpace.cpp:173-180. -/
def kStepI [Arith K] (B : Algos (GIdx K)) (ds : Dataset K) (ratio : ℚ) (w : DistRef) (query : List (Dbl K)) (gs : GSpace K)
    (st : Int × List (GIdx K)) (i : Int) : Res (Int × List (GIdx K)) := do
  let s ← gs.spaceAt i
  match s with
  | none => .ok st
  | some sp => sp.interLevelKSimI B ds ratio w query st

/-- The members of a group that is taken as a whole (genex/group/GlobalGroupSpace.cpp:199-206). -/
def takeAllI (ds : Dataset K) (gs : GSpace K) (r : GIdx K) : Res (List View) := do
  let g ← gs.groupAt r
  let members ← g.1.getMembersI ds g.2
  if gs.threshold.isNone && !members.isEmpty then .error (.ub "threshold not initialised") else .ok members

/-- The farthest of the groups (genex/group/GlobalGroupSpace.cpp:183-196), `kPrime + g.members` of whose members are wanted; the counter. -/
def takeTopI [Arith K] (A : Algos (Cand K)) (ds : Dataset K) (ratio : ℚ) (w : DistRef) (query : List (Dbl K)) (gs : GSpace K) (k : Int)
    (top : GIdx K) (extra : Int) : Res (List (Cand K) × Int) := do
  let g ← gs.groupAt top
  let k ← int32 (k + top.members)
  g.1.intraGroupKSimI A ds ratio w query k g.2 extra

/-- `getKBestMatches` (genex/group/GlobalGroupSpace.cpp:163-214) with the counter before and after. -/
def getKBestMatchesI [Arith K] (A : Algos (Cand K)) (B : Algos (GIdx K)) (ds : Dataset K) [BandOps] (ratio : ℚ) (gs : GSpace K)
    (query : List (Dbl K)) (k : Int) (extra : Int) : Res (List (Cand K) × Int) := do
  match gs.warped with
  | none => .error (.ub "call through an uninitialised function pointer")
  | some w => do
    let order ← generateTraverseOrderI ratio query.length ((gs.spaces.length : Int) - 1)
    let st ← order.foldlM (kStepI B ds ratio w query gs) (k, [])
    let best ← match st.2 with
      | [] => .ok ([], extra)
      | top :: rest => do
        let intra ← gs.takeTopI A ds ratio w query st.1 top extra
        let others ← rest.mapM (gs.takeAllI ds)
        .ok (intra.1.map Cand.view ++ others.flatten, intra.2)
    let res ← best.1.mapM (fun v => do
      let pts ← ds.pointsI v
      let d ← Arith.eval ratio w query pts .inf
      .ok ⟨v, d⟩)
    .ok (res, best.2)

end GSpace

namespace GSet

/-- `getBestMatch` (genex/GroupableTimeSeriesSet.cpp:144-151). -/
def getBestMatchI [Arith K] [BandOps] (ratio : ℚ) (s : GSet K) (query : List (Dbl K)) : Res (Cand K) :=
  match s.groups with
  | none => .error (.genex "Dataset is not grouped")
  | some gs => gs.getBestMatchI s.ds ratio query

/-- `getKBestMatches` (genex/GroupableTimeSeriesSet.cpp:153-168) with the counter before and after. -/
def getKBestMatchesI [Arith K] (A : Algos (Cand K)) (B : Algos (GIdx K)) [BandOps] (ratio : ℚ) (s : GSet K) (query : List (Dbl K))
    (k h : Int) (extra : Int) : Res (List (Entry K) × Int) :=
  match s.groups with
  | none => .error (.genex "Dataset is not grouped")
  | some gs =>
    if h < k then .error (.genex "Number of examined time series must be larger than or equal to the number of time series to look for")
    else do
      let res ← gs.getKBestMatchesI A B s.ds ratio query h extra
      if k < 0 then .error (.std "length_error")
      else
        let sorted := (A.sort res.1).map Entry.cand
        .ok (sorted.take k.toNat ++ List.replicate (k.toNat - sorted.length) .pad, res.2)

/-- Calls of `getKBestMatches` with queries and numbers, one after another: the answers and the counter. -/
def sessionI [Arith K] (A : Algos (Cand K)) (B : Algos (GIdx K)) [BandOps] (ratio : ℚ) (s : GSet K) :
    List (List (Dbl K) × Int × Int) → Int → Res (List (List (Entry K)) × Int)
  | [], extra => .ok ([], extra)
  | c :: cs, extra => do
    let r ← s.getKBestMatchesI A B ratio c.1 c.2.1 c.2.2 extra
    let rs ← sessionI A B ratio s cs r.2
    .ok (r.1 :: rs.1, rs.2)

end GSet

end

end Genex
