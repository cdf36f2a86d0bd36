import Verif.Model.BruteForce
import Verif.Model.Traverse

/-!
# Groups (genex/group/Group.*, LocalLengthGroupSpace.*, GlobalGroupSpace.*, genex/GroupableTimeSeriesSet.*)

`int` is the unbounded integers.  The query of a search is the list of its points.
-/

namespace Genex

variable {K : Type}

/-- The member `centroid` of a group: a series that refers to the dataset, or one that owns its points
(genex/group/Group.cpp:28 and 160, genex/group/Group.hpp:77). -/
inductive Centroid (K : Type) where
  | view (v : View)
  | own (pts : List (Dbl K))
deriving DecidableEq, Repr

/-- `centroid.getIndex()`. -/
def Centroid.index : Centroid K → Int
  | .view v => v.index
  | .own _ => 0

/-- `centroid.getStart()`. -/
def Centroid.start : Centroid K → Int
  | .view v => v.start
  | .own _ => 0

/-- `Group` (genex/group/Group.hpp:161-173) without the members it shares with its `LocalLengthGroupSpace`. -/
structure Group (K : Type) where
  groupIndex : ℕ
  centroid : Centroid K
  last : Int × Int
  count : Int
deriving DecidableEq, Repr

/-- `group_membership_t` (genex/group/Group.hpp:25-33); `groupIndex = none`: not initialised. -/
structure Membership where
  prev : Int × Int
  groupIndex : Option ℕ
deriving DecidableEq, Repr

/-- `group_membership_t()`: the pair `prev` is zeroed, `groupIndex` is not (genex/group/Group.hpp:30). -/
def Membership.default : Membership := ⟨(0, 0), none⟩

/-- `LocalLengthGroupSpace` (genex/group/LocalLengthGroupSpace.hpp:80-84). -/
structure LocalSpace (K : Type) where
  length : Int
  subCount : Int
  groups : List (Group K)
  memberMap : List Membership
deriving DecidableEq, Repr

/-- A loop that changes an object: the object afterwards, also when an exception leaves the loop. -/
def loopS {σ α : Type} (f : σ → α → Res σ) : List α → σ → σ × Res Unit
  | [], s => (s, .ok ())
  | x :: xs, s =>
    match f s x with
    | .error e => (s, .error e)
    | .ok s' => loopS f xs s'

section

variable [Field K] [LinearOrder K] [HasSqrt K]

/-- Constructor of `Group` (genex/group/Group.hpp:70-79). -/
def Group.fresh (groupIndex : ℕ) (memberLength : Int) : Group K :=
  { groupIndex := groupIndex, centroid := .own (List.replicate memberLength.toNat 0), last := (-1, -1), count := 0 }

/-- The points of the centroid. -/
def Group.centroidPts (ds : Dataset K) (g : Group K) : Res (List (Dbl K)) :=
  match g.centroid with
  | .view v => ds.points v
  | .own pts => .ok pts

/-- `Group::distanceFromCentroid` (genex/group/Group.cpp:31-34). -/
def Group.distance [Arith K] (ds : Dataset K) (ratio : ℚ) (ref : DistRef) (query : List (Dbl K)) (g : Group K) (dropout : Dbl K) :
    Res (Dbl K) := do
  let pts ← g.centroidPts ds
  Arith.eval ratio ref pts query dropout

/-- The search for the nearest group, genex/group/LocalLengthGroupSpace.cpp:80-91 and 167-175: best distance and index so
far, `none` where the index is not initialised or the pointer is null. -/
def bestLoop (dist : Group K → Dbl K → Res (Dbl K)) : List (Group K) → ℕ → Dbl K × Option ℕ → Res (Dbl K × Option ℕ)
  | [], _, best => .ok best
  | g :: gs, i, best => do
    let d ← dist g best.1
    bestLoop dist gs (i + 1) (if d < best.1 then (d, some i) else best)

namespace LocalSpace

/-- Constructor (genex/group/LocalLengthGroupSpace.cpp:26-31). -/
def new (ds : Dataset K) (length : Int) : Res (LocalSpace K) :=
  let subCount := ds.maxCol - length + 1
  let n := (ds.itemCount : Int) * subCount
  if n < 0 then .error (.std "length_error")
  else .ok { length := length, subCount := subCount, groups := [],
             memberMap := List.replicate n.toNat Membership.default }

/-- `memberMap[index * subTimeSeriesCount + start]`. -/
def cell (sp : LocalSpace K) (c : Int × Int) : Res Membership :=
  let i := c.1 * sp.subCount + c.2
  if i < 0 then .error (.ub "memberMap index out of bounds")
  else match sp.memberMap[i.toNat]? with
    | some m => .ok m
    | none => .error (.ub "memberMap index out of bounds")

/-- `groups[gi]->addMember(index, start)` (genex/group/Group.cpp:18-24). -/
def addMember (sp : LocalSpace K) (gi : ℕ) (c : Int × Int) : Res (LocalSpace K) :=
  match sp.groups[gi]? with
  | none => .error (.ub "groups index out of bounds")
  | some g => do
    let _ ← sp.cell c
    .ok { sp with
      memberMap := sp.memberMap.set (c.1 * sp.subCount + c.2).toNat ⟨g.last, some g.groupIndex⟩
      groups := sp.groups.set gi { g with last := c, count := g.count + 1 } }

/-- `groups.push_back(new Group(...)); groups[gi]->setCentroid(index, start)`
(genex/group/LocalLengthGroupSpace.cpp:97-102, genex/group/Group.cpp:26-29). -/
def pushGroup (ds : Dataset K) (sp : LocalSpace K) (c : Int × Int) : Res (LocalSpace K) := do
  let v ← ds.getTimeSeries c.1 c.2 (c.2 + sp.length)
  .ok { sp with groups := sp.groups ++ [{ (Group.fresh sp.groups.length sp.length : Group K) with centroid := .view v }] }

/-- The body of the loops of `generateGroups` for one subsequence, genex/group/LocalLengthGroupSpace.cpp:78-105. -/
def insert [Arith K] (ds : Dataset K) (ratio : ℚ) (ref : DistRef) (threshold : Dbl K) (sp : LocalSpace K) (c : Int × Int) :
    Res (LocalSpace K) := do
  let v ← ds.getTimeSeries c.1 c.2 (c.2 + sp.length)
  let query ← ds.points v
  let best ← bestLoop (Group.distance ds ratio ref query) sp.groups 0 (.inf, none)
  if threshold / .fin 2 < best.1 ∨ sp.groups.length = 0 then do
    let sp' ← pushGroup ds sp c
    sp'.addMember sp.groups.length c
  else match best.2 with
    | none => .error (.ub "bestSoFarIndex not initialised")
    | some i => sp.addMember i c

/-- One round of the loops, genex/group/LocalLengthGroupSpace.cpp:68-106.  `log`: whether progress is logged. -/
def groupStep [Arith K] (ds : Dataset K) (ratio : ℚ) (ref : DistRef) (threshold : Dbl K) (log : Bool) (sp : LocalSpace K)
    (c : ℕ × ℕ) : Res (LocalSpace K) := do
  if log = true ∧ sp.subCount * ds.itemCount / 5 = 0 then .error (.ub "division by zero")
  else do
    let len ← ds.getItemLength c.1
    if len < c.2 + sp.length then .ok sp
    else sp.insert ds ratio ref threshold (c.1, c.2)

/-- The pairs `(index, start)` in the order of the loops, genex/group/LocalLengthGroupSpace.cpp:64-66. -/
def coords (ds : Dataset K) (sp : LocalSpace K) : List (ℕ × ℕ) :=
  (List.range sp.subCount.toNat).flatMap (fun s => (List.range ds.itemCount).map (fun i => (i, s)))

/-- `generateGroups` (genex/group/LocalLengthGroupSpace.cpp:50-110). -/
def generateGroups [Arith K] (ds : Dataset K) (ratio : ℚ) (ref : DistRef) (threshold : Dbl K) (log : Bool) (sp : LocalSpace K) :
    LocalSpace K × Res ℕ :=
  let r := loopS (groupStep ds ratio ref threshold log) (sp.coords ds) sp
  (r.1, r.2.map (fun _ => r.1.groups.length))

/-- A loop over the members of a group from the last to the first, following `memberMap[...].prev`
(genex/group/Group.cpp:43-61, 80-116, 126-135, genex/group/Group.hpp:185-191).  A walk over more members than the map has
cells has come back to a cell it visited, and never ends. -/
def chainLoop {σ : Type} (sp : LocalSpace K) (body : σ → Int × Int → Res σ) : ℕ → Int × Int → σ → Res σ
  | fuel, c, s =>
    if c.1 = -1 then .ok s
    else match fuel with
      | 0 => .error .diverge
      | fuel + 1 => do
        let s' ← body s c
        let m ← sp.cell c
        chainLoop sp body fuel m.prev s'

/-- The loop started at the last member of a group. -/
def walk {σ : Type} (sp : LocalSpace K) (g : Group K) (body : σ → Int × Int → Res σ) (s : σ) : Res σ :=
  sp.chainLoop body (sp.memberMap.length + 1) g.last s

/-- The series of a member. -/
def member (ds : Dataset K) (sp : LocalSpace K) (c : Int × Int) : Res View := ds.getTimeSeries c.1 c.2 (c.2 + sp.length)

/-- `Group::getMembers` (genex/group/Group.cpp:122-137). -/
def getMembers (ds : Dataset K) (sp : LocalSpace K) (g : Group K) : Res (List View) :=
  sp.walk g (fun l c => do let v ← sp.member ds c; .ok (l ++ [v])) []

/-- `Group::getBestMatch` (genex/group/Group.cpp:36-69). -/
def getBestMatch [Arith K] (ds : Dataset K) (ratio : ℚ) (ref : DistRef) (query : List (Dbl K)) (sp : LocalSpace K) (g : Group K) :
    Res (Cand K) := do
  let best ← sp.walk g (fun (st : Dbl K × (Int × Int)) c => do
    let v ← sp.member ds c
    let pts ← ds.points v
    let d ← Arith.eval ratio ref query pts st.1
    .ok (if d < st.1 then (d, c) else st)) (.inf, (0, 0))
  let v ← sp.member ds best.2
  .ok ⟨v, best.1⟩

/-- `Group::intraGroupKSim` (genex/group/Group.cpp:71-120). -/
def intraGroupKSim [Arith K] (A : Algos (Cand K)) (ds : Dataset K) (ratio : ℚ) (ref : DistRef) (query : List (Dbl K)) (k : Int)
    (sp : LocalSpace K) (g : Group K) : Res (List (Cand K)) := do
  let st ← sp.walk g (fun (st : Int × List (Cand K)) c => do
    let v ← sp.member ds c
    topKStep A (fun bound => do let pts ← ds.points v; Arith.eval ratio ref query pts bound) v st) (k, [])
  .ok st.2

/-- `getGroup` (genex/group/LocalLengthGroupSpace.cpp:117-123). -/
def getGroup (sp : LocalSpace K) (idx : Int) : Res (Group K) :=
  if idx < 0 then .error (.genex "Group index is out of range")
  else match sp.groups[idx.toNat]? with
    | some g => .ok g
    | none => .error (.genex "Group index is out of range")

/-- `getBestGroup` (genex/group/LocalLengthGroupSpace.cpp:163-178): distance and index of the group. -/
def getBestGroup [Arith K] (ds : Dataset K) (ratio : ℚ) (ref : DistRef) (query : List (Dbl K)) (dropout : Dbl K)
    (sp : LocalSpace K) : Res (Dbl K × Option ℕ) :=
  bestLoop (Group.distance ds ratio ref query) sp.groups 0 (dropout, none)

end LocalSpace

/-- `group_index_t` (genex/group/Group.hpp:42-56). -/
structure GIdx (K : Type) where
  length : Int
  index : ℕ
  members : Int
  dist : Dbl K
deriving DecidableEq, Repr

/-- `group_index_t::operator<` (genex/group/Group.hpp:52-55). -/
def GIdx.lt (a b : GIdx K) : Prop := a.dist < b.dist

instance : DecidableRel (GIdx.lt (K := K)) := fun a b => by unfold GIdx.lt; infer_instance

/-- The loop that removes the farthest groups, genex/group/LocalLengthGroupSpace.cpp:197-201 and 213-217.  Every round
shortens the vector. -/
def shrink (B : Algos (GIdx K)) : ℕ → Int × List (GIdx K) → Res (Int × List (GIdx K))
  | fuel, st =>
    match st.2 with
    | [] => .error (.ub "front() of an empty vector")
    | top :: _ =>
      if st.1 + top.members ≤ 0 then
        match fuel with
        | 0 => .error .diverge
        | fuel + 1 => shrink B fuel (st.1 + top.members, (B.popHeap st.2).dropLast)
      else .ok st

/-- One round of `interLevelKSim`, genex/group/LocalLengthGroupSpace.cpp:186-219. -/
def kSimStep (B : Algos (GIdx K)) (length : Int) (dist : Dbl K → Res (Dbl K)) (i : ℕ) (members : Int)
    (st : Int × List (GIdx K)) : Res (Int × List (GIdx K)) :=
  if st.1 ≤ 0 then
    match st.2 with
    | [] => .error (.ub "front() of an empty vector")
    | top :: _ => do
      let d ← dist top.dist
      if d < top.dist then
        let best := B.pushHeap (st.2 ++ [⟨length, i, members, d⟩])
        shrink B best.length (st.1 - members, best)
      else .ok st
  else do
    let d ← dist .inf
    let best := st.2 ++ [⟨length, i, members, d⟩]
    if st.1 - members ≤ 0 then
      let best := B.makeHeap best
      shrink B best.length (st.1 - members, best)
    else .ok (st.1 - members, best)

/-- `interLevelKSim` (genex/group/LocalLengthGroupSpace.cpp:180-222). -/
def LocalSpace.interLevelKSim [Arith K] (B : Algos (GIdx K)) (ds : Dataset K) (ratio : ℚ) (ref : DistRef) (query : List (Dbl K))
    (st : Int × List (GIdx K)) (sp : LocalSpace K) : Res (Int × List (GIdx K)) :=
  sp.groups.zipIdx.foldlM (fun st g =>
    kSimStep B sp.length (Group.distance ds ratio ref query g.1) g.2 g.1.count st) st

/-- `GlobalGroupSpace` (genex/group/GlobalGroupSpace.hpp:84-92).  `none` in `pairwise`, `warped`, `threshold`: not
initialised. -/
structure GSpace (K : Type) where
  distanceName : String
  spaces : List (Option (LocalSpace K))
  pairwise : Option DistRef
  warped : Option DistRef
  threshold : Option (Dbl K)
  total : Int
  whole : Bool
deriving DecidableEq

namespace GSpace

/-- Constructor (genex/group/GlobalGroupSpace.cpp:29-30, initialisers in the class). -/
def fresh : GSpace K :=
  { distanceName := "", spaces := [], pairwise := none, warped := none, threshold := none, total := 0, whole := false }

/-- `_loadDistance` (genex/group/GlobalGroupSpace.cpp:46-56). -/
def loadDistance (gs : GSpace K) (name : String) : GSpace K × Res Unit :=
  let gs := { gs with distanceName := name }
  match getDistanceFromName name with
  | .error e => (gs, .error e)
  | .ok p =>
    let gs := { gs with pairwise := some p }
    if name = "euclidean" then ({ gs with warped := some .cascade }, .ok ())
    else match getDistanceFromName (name ++ "_dtw") with
      | .error e => (gs, .error e)
      | .ok w => ({ gs with warped := some w }, .ok ())

/-- `_getMinLength` (genex/group/GlobalGroupSpace.cpp:66-69). -/
def minLength (gs : GSpace K) : Int := if gs.whole then (gs.spaces.length : Int) - 1 else 2

/-- The lengths of the loops `for (auto i = minLength; i < maxLength; i++)`, where `maxLength` is the size of the vector
and `-1` counts as larger than any size (genex/group/GlobalGroupSpace.cpp:82, 103). -/
def lengths (gs : GSpace K) : List ℕ :=
  if gs.minLength < 0 then []
  else (List.range gs.spaces.length).filter (fun i => decide (gs.minLength ≤ i))

/-- `_group` (genex/group/GlobalGroupSpace.cpp:58-64); `p`, `t` are the values of `pairwiseDistance`, `threshold`. -/
def groupLength [Arith K] (ds : Dataset K) (ratio : ℚ) (log : ℕ → Bool) (p : DistRef) (t : Dbl K) (i : ℕ) :
    Option (LocalSpace K) × Res ℕ :=
  match LocalSpace.new ds i with
  | .error e => (none, .error e)
  | .ok sp =>
    let r := sp.generateGroups ds ratio p t (log i)
    (some r.1, r.2)

/-- The start of `group` and `groupMultiThreaded` (genex/group/GlobalGroupSpace.cpp:74-81, 93-102). -/
def prepare (ds : Dataset K) (name : String) (t : Dbl K) (whole : Bool) (gs : GSpace K) : GSpace K × Res DistRef :=
  let gs := { gs with spaces := [] }
  let r := gs.loadDistance name
  match r.2 with
  | .error e => (r.1, .error e)
  | .ok _ =>
    if ds.maxCol + 1 < 0 then (r.1, .error (.std "length_error"))
    else
      let gs := { r.1 with spaces := List.replicate (ds.maxCol + 1).toNat none, threshold := some t, total := 0,
                           whole := whole }
      match gs.pairwise with
      | none => (gs, .error (.ub "call through an uninitialised function pointer"))
      | some p => (gs, .ok p)

/-- The loop of `group`, genex/group/GlobalGroupSpace.cpp:82-85. -/
def groupLoop (f : ℕ → Option (LocalSpace K) × Res ℕ) : List ℕ → GSpace K → GSpace K × Res Unit
  | [], gs => (gs, .ok ())
  | i :: is, gs =>
    let gs := { gs with spaces := gs.spaces.set i (f i).1 }
    match (f i).2 with
    | .error e => (gs, .error e)
    | .ok n => groupLoop f is { gs with total := gs.total + n }

/-- `group` (genex/group/GlobalGroupSpace.cpp:71-88).  `log i`: whether the clock makes length `i` log its progress. -/
def group [Arith K] (ds : Dataset K) (ratio : ℚ) (log : ℕ → Bool) (name : String) (t : Dbl K) (whole : Bool) (gs : GSpace K) :
    GSpace K × Res Int :=
  let r := gs.prepare ds name t whole
  match r.2 with
  | .error e => (r.1, .error e)
  | .ok p =>
    let r := groupLoop (groupLength ds ratio log p t) r.1.lengths r.1
    (r.1, r.2.map (fun _ => r.1.total))

/-- `localLengthGroupSpace[i]`. -/
def spaceAt (gs : GSpace K) (i : Int) : Res (Option (LocalSpace K)) :=
  if i < 0 then .error (.ub "localLengthGroupSpace index out of bounds")
  else match gs.spaces[i.toNat]? with
    | some s => .ok s
    | none => .error (.ub "localLengthGroupSpace index out of bounds")

/-- One round of the loop of `getBestMatch`, genex/group/GlobalGroupSpace.cpp:147-158; the state is `bestSoFarDist` and
length and index of `bestSoFarGroup`. -/
def bestStep [Arith K] (ds : Dataset K) (ratio : ℚ) (w : DistRef) (query : List (Dbl K)) (gs : GSpace K)
    (st : Dbl K × Option (LocalSpace K × ℕ)) (i : Int) : Res (Dbl K × Option (LocalSpace K × ℕ)) := do
  let s ← gs.spaceAt i
  match s with
  | none => .ok st
  | some sp => do
    let c ← sp.getBestGroup ds ratio w query st.1
    .ok (if c.1 < st.1 then (c.1, c.2.map (fun g => (sp, g))) else st)

/-- `getBestMatch` (genex/group/GlobalGroupSpace.cpp:135-161). -/
def getBestMatch [Arith K] (ds : Dataset K) [BandOps] (ratio : ℚ) (gs : GSpace K) (query : List (Dbl K)) : Res (Cand K) := do
  if query.length ≤ 1 then .error (.genex "Length of query must be larger than 1")
  else match gs.warped with
    | none => .error (.ub "call through an uninitialised function pointer")
    | some w => do
      let order ← generateTraverseOrder ratio query.length ((gs.spaces.length : Int) - 1)
      let st ← order.foldlM (bestStep ds ratio w query gs) (.inf, none)
      match st.2 with
      | none => .error (.ub "null pointer dereference")
      | some (sp, g) =>
        match sp.groups[g]? with
        | none => .error (.ub "dangling group")
        | some g => sp.getBestMatch ds ratio w query g

/-- `this->localLengthGroupSpace[g.length]->getGroup(g.index)` (genex/group/GlobalGroupSpace.cpp:188, 201). -/
def groupAt (gs : GSpace K) (g : GIdx K) : Res (LocalSpace K × Group K) := do
  let s ← gs.spaceAt g.length
  match s with
  | none => .error (.ub "null pointer dereference")
  | some sp => do
    let grp ← sp.getGroup g.index
    .ok (sp, grp)

/-- One round of the loop genex/group/GlobalGroupSpace.cpp:173-180. -/
def kStep [Arith K] (B : Algos (GIdx K)) (ds : Dataset K) (ratio : ℚ) (w : DistRef) (query : List (Dbl K)) (gs : GSpace K)
    (st : Int × List (GIdx K)) (i : Int) : Res (Int × List (GIdx K)) := do
  let s ← gs.spaceAt i
  match s with
  | none => .ok st
  | some sp => sp.interLevelKSim B ds ratio w query st

/-- The members of a group that is taken as a whole (genex/group/GlobalGroupSpace.cpp:199-206).  For each `g.dist + threshold` is
computed, which reads `threshold`; lines 209-211 overwrite the sums. -/
def takeAll (ds : Dataset K) (gs : GSpace K) (r : GIdx K) : Res (List View) := do
  let g ← gs.groupAt r
  let members ← g.1.getMembers ds g.2
  if gs.threshold.isNone && !members.isEmpty then .error (.ub "threshold not initialised") else .ok members

/-- `getKBestMatches` (genex/group/GlobalGroupSpace.cpp:163-214). -/
def getKBestMatches [Arith K] (A : Algos (Cand K)) (B : Algos (GIdx K)) (ds : Dataset K) [BandOps] (ratio : ℚ) (gs : GSpace K)
    (query : List (Dbl K)) (k : Int) : Res (List (Cand K)) := do
  match gs.warped with
  | none => .error (.ub "call through an uninitialised function pointer")
  | some w => do
    let order ← generateTraverseOrder ratio query.length ((gs.spaces.length : Int) - 1)
    let st ← order.foldlM (kStep B ds ratio w query gs) (k, [])
    let best ← match st.2 with
      | [] => .ok []
      | top :: rest => do
        let g ← gs.groupAt top
        let intra ← g.1.intraGroupKSim A ds ratio w query (st.1 + top.members) g.2
        let others ← rest.mapM (gs.takeAll ds)
        .ok (intra.map Cand.view ++ others.flatten)
    best.mapM (fun v => do
      let pts ← ds.points v
      let d ← Arith.eval ratio w query pts .inf
      .ok ⟨v, d⟩)

end GSpace

/-- `GroupableTimeSeriesSet`: a dataset with its groups (genex/GroupableTimeSeriesSet.hpp:89). -/
structure GSet (K : Type) where
  ds : Dataset K
  groups : Option (GSpace K)
deriving DecidableEq

namespace GSet

/-- `groupAllLengths` (genex/GroupableTimeSeriesSet.cpp:22-47) with the single-threaded and multi-threaded variants of
grouping as parameters. -/
def groupAllLengths (single multi : GSpace K → GSpace K × Res Int) (numThreads : Int) (s : GSet K) : GSet K × Res Int :=
  match s.ds.data with
  | none => (s, .error (.genex "No data to group"))
  | some _ =>
    if numThreads = 1 then
      let r := single GSpace.fresh
      ({ s with groups := some r.1 }, r.2)
    else if 1 < numThreads then
      let r := multi GSpace.fresh
      ({ s with groups := some r.1 }, r.2)
    else ({ s with groups := some GSpace.fresh }, .error (.genex "Number of threads must be positive"))

/-- `getBestMatch` (genex/GroupableTimeSeriesSet.cpp:144-151). -/
def getBestMatch [Arith K] [BandOps] (ratio : ℚ) (s : GSet K) (query : List (Dbl K)) : Res (Cand K) :=
  match s.groups with
  | none => .error (.genex "Dataset is not grouped")
  | some gs => gs.getBestMatch s.ds ratio query

/-- An entry of the result vector of `getKBestMatches`; `pad` is a default-constructed one: an empty series owning its
data, distance 0 (genex/TimeSeries.hpp:229). -/
inductive Entry (K : Type) where
  | cand (c : Cand K)
  | pad
deriving DecidableEq, Repr

/-- `getKBestMatches` (genex/GroupableTimeSeriesSet.cpp:153-168). -/
def getKBestMatches [Arith K] (A : Algos (Cand K)) (B : Algos (GIdx K)) [BandOps] (ratio : ℚ) (s : GSet K) (query : List (Dbl K))
    (k h : Int) : Res (List (Entry K)) :=
  match s.groups with
  | none => .error (.genex "Dataset is not grouped")
  | some gs =>
    if h < k then .error (.genex "Number of examined time series must be larger than or equal to the number of time series to look for")
    else do
      let res ← gs.getKBestMatches A B s.ds ratio query h
      if k < 0 then .error (.std "length_error")
      else
        let sorted := (A.sort res).map Entry.cand
        .ok (sorted.take k.toNat ++ List.replicate (k.toNat - sorted.length) .pad)

end GSet

end

end Genex
