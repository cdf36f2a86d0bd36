import Verif.Model.Group

/-!
# `int` of 32 bits

The other modules compute positions and counts in the unbounded integers.  Here are the functions of loading, access, saving, grouping
and walking over groups again, with every `int` expression of the code that can leave the range of `int`.  Leaving it is undefined.
Additions to pointers and comparisons of `int` with `size_t` are not repeated.
-/

namespace Genex

variable {K : Type}

/-- The values of `int`. -/
def IsInt (z : Int) : Prop := -2 ^ 31 ≤ z ∧ z < 2 ^ 31

instance (z : Int) : Decidable (IsInt z) := decidable_of_iff (z.natAbs < 2 ^ 31 ∨ z = -2 ^ 31) (by unfold IsInt; omega)

/-- The value of an `int` expression. -/
def int32 (z : Int) : Res Int := if IsInt z then .ok z else .error (.ub "int overflow")

namespace Dataset

variable [Field K]

/-- genex/TimeSeriesSet.cpp:115: `row * (rawMaxCol - startCol - hasNameCol) + (col - startCol - hasNameCol)`. -/
def cellI (rawMaxCol startCol : Int) (hasName : Bool) (row col : ℕ) : Res Int := do
  let a ← int32 (rawMaxCol - startCol)
  let a ← int32 (a - b2i hasName)
  let p ← int32 (row * a)
  let c ← int32 (col - startCol)
  let c ← int32 (c - b2i hasName)
  int32 (p + c)

/-- `loadToks` (genex/TimeSeriesSet.cpp:102-132). -/
def loadToksI (parse : Text → Parsed K) (rawMaxCol startCol : Int) (hasName : Bool) (row : ℕ) :
    List Text → ℕ → Dataset K → Dataset K × Res Unit
  | [], _, ds => (ds, .ok ())
  | t :: ts, col, ds =>
    if startCol ≤ col then
      if (col : Int) = startCol ∧ hasName = true then
        loadToksI parse rawMaxCol startCol hasName row ts (col + 1) { ds with names := ds.names ++ [t] }
      else
        match cellI rawMaxCol startCol hasName row col with
        | .error e => (ds, .error e)
        | .ok index =>
          match parse t with
          | .invalid => (ds.clearData, .error (.genex "Dataset file contains unparsable text"))
          | .range => (ds.clearData, .error (.genex "Values are out of range"))
          | .val x =>
            match ds.write index x with
            | .error e => (ds, .error e)
            | .ok ds => loadToksI parse rawMaxCol startCol hasName row ts (col + 1) ds
    else loadToksI parse rawMaxCol startCol hasName row ts (col + 1) ds

/-- `loadRows` (genex/TimeSeriesSet.cpp:95-137).  The lengths are computed in `ptrdiff_t`. -/
def loadRowsI (parse : Text → Parsed K) (sep : List Char) (rawMaxCol startCol : Int) (hasName : Bool) :
    List Text → ℕ → Dataset K → Dataset K × Res Unit
  | [], _, ds => (ds, .ok ())
  | l :: ls, row, ds =>
    let toks := tokens sep l
    let r := loadToksI parse rawMaxCol startCol hasName row toks 0
      { ds with lengths := ds.lengths ++ [(toks.length : Int) - startCol - b2i hasName] }
    match r.2 with
    | .error e => (r.1, .error e)
    | .ok _ => loadRowsI parse sep rawMaxCol startCol hasName ls (row + 1) { r.1 with itemCount := r.1.itemCount + 1 }

/-- The numbers of lines and columns and the size of the array (genex/TimeSeriesSet.cpp:43-62, 79-94): the rows to read and the columns; more
columns than an `int` holds would not overflow but be converted, and are not told apart. -/
def sizesI (sep : List Char) (lines : List Text) (maxNumRow : Int) : Res (ℕ × ℕ) := do
  let _ ← int32 lines.length
  let _ ← int32 (maxColumns sep lines)
  let n := if maxNumRow ≤ 0 then lines.length else min maxNumRow.toNat lines.length
  let _ ← int32 (n * maxColumns sep lines : ℕ)
  .ok (n, maxColumns sep lines)

/-- `rawMaxCol - startCol - hasNameCol` (genex/TimeSeriesSet.cpp:148). -/
def maxColI (rawMaxCol startCol : Int) (hasName : Bool) : Res Int := do
  let a ← int32 (rawMaxCol - startCol)
  int32 (a - b2i hasName)

/-- `loadData` after the file is open (genex/TimeSeriesSet.cpp:78-149). -/
def loadContentI (parse : Text → Parsed K) (content : Text) (path : Text) (maxNumRow startCol : Int) (sep : List Char)
    (hasName : Bool) (ds : Dataset K) : Dataset K × Res Unit :=
  match sizesI sep (fileLines content) maxNumRow with
  | .error e => (ds, .error e)
  | .ok (n, rawMaxCol) =>
    let r := loadRowsI parse sep rawMaxCol startCol hasName ((fileLines content).take n) 0
      { ds with itemCount := 0, data := some (List.replicate (n * rawMaxCol) 0) }
    match r.2 with
    | .error e => (r.1, .error e)
    | .ok _ =>
      match maxColI rawMaxCol startCol hasName with
      | .error e => (r.1, .error e)
      | .ok maxCol => ({ r.1 with filePath := path, maxCol := maxCol }, .ok ())

/-- `loadData` (genex/TimeSeriesSet.cpp:64-150). -/
def loadDataI (parse : Text → Parsed K) (file : Option Text) (path : Text) (maxNumRow startCol : Int) (sep : List Char)
    (hasName : Bool) (ds : Dataset K) : Dataset K × Res Unit :=
  match file with
  | none => (ds.clearData, .error (.genex "Cannot open"))
  | some content => loadContentI parse content path maxNumRow startCol sep hasName ds.clearData

/-- `getTimeSeries` (genex/TimeSeriesSet.cpp:181-196, genex/TimeSeries.cpp:19-28). -/
def getTimeSeriesI (ds : Dataset K) (index start stop : Int) : Res View := do
  if index < 0 ∨ (ds.itemCount : Int) ≤ index then .error (.genex "Invalid time series index")
  else if start < 0 ∧ stop < 0 then do
    let base ← int32 (index * ds.maxCol)
    let len ← ds.getItemLength index
    .ok { base := base, index := index, start := 0, stop := len }
  else do
    let len ← ds.getItemLength index
    if start < 0 ∨ stop ≤ start ∨ len < stop then
      .error (.genex "Invalid starting or ending position of a time series")
    else do
      let base ← int32 (index * ds.maxCol)
      let _ ← int32 (stop - start)
      .ok { base := base, index := index, start := start, stop := stop }

/-- `operator[]` (genex/TimeSeries.cpp:127-133). -/
def pointAtI (ds : Dataset K) (v : View) (i : Int) : Res (Dbl K) :=
  if i < 0 ∨ v.length ≤ i then .error (.genex "Data point index is out of range")
  else do
    let p ← int32 (v.start + i)
    ds.read (v.base + p)

/-- All points of a series. -/
def pointsI (ds : Dataset K) (v : View) : Res (List (Dbl K)) :=
  (List.range v.length.toNat).mapM (fun (i : ℕ) => ds.pointAtI v i)

/-- `i * maxCol + j` (genex/TimeSeriesSet.cpp:165). -/
def addressI (ds : Dataset K) (i j : ℕ) : Res Int := do
  let a ← int32 ((i : Int) * ds.maxCol)
  int32 (a + j)

/-- One line of `saveData` (genex/TimeSeriesSet.cpp:160-168). -/
def saveRowI (print : Dbl K → Text) (sep : Char) (ds : Dataset K) (i : ℕ) : Res Text := do
  let name ←
    if ds.names.isEmpty then .ok []
    else match ds.names[i]? with
      | some n => .ok (n ++ [sep])
      | none => .error (.ub "names index out of bounds")
  let len ← ds.getItemLength i
  let cells ← (List.range len.toNat).mapM (fun (j : ℕ) => do
    let a ← ds.addressI i j
    ds.read a)
  .ok (name ++ (cells.map (fun x => print x ++ [sep])).flatten ++ ['\n'])

/-- `saveData` (genex/TimeSeriesSet.cpp:152-170). -/
def saveDataI (print : Dbl K → Text) (sep : Char) (ds : Dataset K) : Res Text := do
  let rows ← (List.range ds.itemCount).mapM (ds.saveRowI print sep)
  .ok rows.flatten

/-- The cells visited by `normalize` (genex/TimeSeriesSet.cpp:251-289): `ts * maxCol` is an `int`, `i` and so the sum are unsigned. -/
def cellsI (ds : Dataset K) : Res (List Int) := do
  let rows ← (List.range ds.itemCount).mapM (fun (ts : ℕ) => do
    let len ← ds.getItemLength ts
    if len < 0 then .error (.ub "loop bound wraps around")
    else (List.range len.toNat).mapM (fun (i : ℕ) => do
      let a ← int32 ((ts : Int) * ds.maxCol)
      .ok ((a + i) % 2 ^ 32)))
  .ok rows.flatten

end Dataset

section

variable [Field K] [LinearOrder K] [HasSqrt K]

/-- The points of the centroid. -/
def Group.centroidPtsI (ds : Dataset K) (g : Group K) : Res (List (Dbl K)) :=
  match g.centroid with
  | .view v => ds.pointsI v
  | .own pts => .ok pts

/-- `Group::distanceFromCentroid` (genex/group/Group.cpp:31-34). -/
def Group.distanceI [Arith K] (ds : Dataset K) (ratio : ℚ) (ref : DistRef) (query : List (Dbl K)) (g : Group K) (dropout : Dbl K) :
    Res (Dbl K) := do
  let pts ← g.centroidPtsI ds
  Arith.eval ratio ref pts query dropout

namespace LocalSpace

/-- Constructor (genex/group/LocalLengthGroupSpace.cpp:26-31). -/
def newI (ds : Dataset K) (length : Int) : Res (LocalSpace K) := do
  let a ← int32 (ds.maxCol - length)
  let subCount ← int32 (a + 1)
  let n ← int32 ((ds.itemCount : Int) * subCount)
  if n < 0 then .error (.std "length_error")
  else .ok { length := length, subCount := subCount, groups := [],
             memberMap := List.replicate n.toNat Membership.default }

/-- `index * subTimeSeriesCount + start`. -/
def indexI (sp : LocalSpace K) (c : Int × Int) : Res Int := do
  let a ← int32 (c.1 * sp.subCount)
  int32 (a + c.2)

/-- `memberMap[index * subTimeSeriesCount + start]`. -/
def cellI (sp : LocalSpace K) (c : Int × Int) : Res Membership := do
  let i ← sp.indexI c
  if i < 0 then .error (.ub "memberMap index out of bounds")
  else match sp.memberMap[i.toNat]? with
    | some m => .ok m
    | none => .error (.ub "memberMap index out of bounds")

/-- `addMember` (genex/group/Group.cpp:18-24). -/
def addMemberI (sp : LocalSpace K) (gi : ℕ) (c : Int × Int) : Res (LocalSpace K) :=
  match sp.groups[gi]? with
  | none => .error (.ub "groups index out of bounds")
  | some g => do
    let count ← int32 (g.count + 1)
    let i ← sp.indexI c
    let _ ← sp.cellI c
    .ok { sp with
      memberMap := sp.memberMap.set i.toNat ⟨g.last, some g.groupIndex⟩
      groups := sp.groups.set gi { g with last := c, count := count } }

/-- The series of a member: `getTimeSeries(index, start, start + memberLength)`. -/
def memberI (ds : Dataset K) (sp : LocalSpace K) (c : Int × Int) : Res View := do
  let stop ← int32 (c.2 + sp.length)
  ds.getTimeSeriesI c.1 c.2 stop

/-- `pushGroup` (genex/group/LocalLengthGroupSpace.cpp:97-102, genex/group/Group.cpp:26-29). -/
def pushGroupI (ds : Dataset K) (sp : LocalSpace K) (c : Int × Int) : Res (LocalSpace K) := do
  let v ← sp.memberI ds c
  .ok { sp with groups := sp.groups ++ [{ (Group.fresh sp.groups.length sp.length : Group K) with centroid := .view v }] }

/-- `insert` (genex/group/LocalLengthGroupSpace.cpp:78-105). -/
def insertI [Arith K] (ds : Dataset K) (ratio : ℚ) (ref : DistRef) (threshold : Dbl K) (sp : LocalSpace K) (c : Int × Int) :
    Res (LocalSpace K) := do
  let v ← sp.memberI ds c
  let query ← ds.pointsI v
  let best ← bestLoop (Group.distanceI ds ratio ref query) sp.groups 0 (.inf, none)
  if threshold / .fin 2 < best.1 ∨ sp.groups.length = 0 then do
    let sp' ← pushGroupI ds sp c
    sp'.addMemberI sp.groups.length c
  else match best.2 with
    | none => .error (.ub "bestSoFarIndex not initialised")
    | some i => sp.addMemberI i c

/-- The log of the progress, genex/group/LocalLengthGroupSpace.cpp:69-74. -/
def logI (total counter : Int) : Res Unit :=
  if total.tdiv 5 = 0 then .error (.ub "division by zero")
  else if counter.tmod (total.tdiv 5) = 0 then do
    let _ ← int32 (counter * 100)
    .ok ()
  else .ok ()

/-- One round of the loops, genex/group/LocalLengthGroupSpace.cpp:68-106: `counter` and the space afterwards. -/
def groupBodyI [Arith K] (ds : Dataset K) (ratio : ℚ) (ref : DistRef) (threshold : Dbl K) (log : Bool) (total : Int)
    (counter : Int) (sp : LocalSpace K) (c : ℕ × ℕ) : Res (Int × LocalSpace K) := do
  let counter ← int32 (counter + 1)
  let _ ← (if log = true then logI total counter else .ok ())
  let stop ← int32 (c.2 + sp.length)
  let len ← ds.getItemLength c.1
  if len < stop then .ok (counter, sp)
  else do
    let sp ← sp.insertI ds ratio ref threshold (c.1, c.2)
    .ok (counter, sp)

/-- The same; the state is `counter` and the space. -/
def groupStepI [Arith K] (ds : Dataset K) (ratio : ℚ) (ref : DistRef) (threshold : Dbl K) (log : Bool) (total : Int)
    (st : Int × LocalSpace K) (c : ℕ × ℕ) : Res (Int × LocalSpace K) :=
  groupBodyI ds ratio ref threshold log total st.1 st.2 c

/-- `generateGroups` (genex/group/LocalLengthGroupSpace.cpp:50-110). -/
def generateGroupsI [Arith K] (ds : Dataset K) (ratio : ℚ) (ref : DistRef) (threshold : Dbl K) (log : Bool) (sp : LocalSpace K) :
    LocalSpace K × Res ℕ :=
  match int32 (sp.subCount * ds.itemCount) with
  | .error e => (sp, .error e)
  | .ok total =>
    let r := loopS (groupStepI ds ratio ref threshold log total) (sp.coords ds) (0, sp)
    (r.1.2, r.2.map (fun _ => r.1.2.groups.length))

/-- The loop over the members of a group (genex/group/Group.cpp:43-61, 80-116, 126-135). -/
def chainLoopI {σ : Type} (sp : LocalSpace K) (body : σ → Int × Int → Res σ) : ℕ → Int × Int → σ → Res σ
  | fuel, c, s =>
    if c.1 = -1 then .ok s
    else match fuel with
      | 0 => .error .diverge
      | fuel + 1 => do
        let s' ← body s c
        let m ← sp.cellI c
        chainLoopI sp body fuel m.prev s'

/-- The loop started at the last member of a group. -/
def walkI {σ : Type} (sp : LocalSpace K) (g : Group K) (body : σ → Int × Int → Res σ) (s : σ) : Res σ :=
  sp.chainLoopI body (sp.memberMap.length + 1) g.last s

/-- `Group::getMembers` (genex/group/Group.cpp:122-137). -/
def getMembersI (ds : Dataset K) (sp : LocalSpace K) (g : Group K) : Res (List View) :=
  sp.walkI g (fun l c => do let v ← sp.memberI ds c; .ok (l ++ [v])) []

/-- `Group::getBestMatch` (genex/group/Group.cpp:36-69). -/
def getBestMatchI [Arith K] (ds : Dataset K) (ratio : ℚ) (ref : DistRef) (query : List (Dbl K)) (sp : LocalSpace K) (g : Group K) :
    Res (Cand K) := do
  let best ← sp.walkI g (fun (st : Dbl K × (Int × Int)) c => do
    let v ← sp.memberI ds c
    let pts ← ds.pointsI v
    let d ← Arith.eval ratio ref query pts st.1
    .ok (if d < st.1 then (d, c) else st)) (.inf, (0, 0))
  let v ← sp.memberI ds best.2
  .ok ⟨v, best.1⟩

/-- `Group::intraGroupKSim` (genex/group/Group.cpp:71-120) with the global `extraTimeSeries` (genex/TimeSeries.cpp:14), which counts the
members looked at less the places left over (lines 88 and 118): the answer and the counter afterwards. -/
def intraGroupKSimI [Arith K] (A : Algos (Cand K)) (ds : Dataset K) (ratio : ℚ) (ref : DistRef) (query : List (Dbl K)) (k : Int)
    (sp : LocalSpace K) (g : Group K) (extra : Int) : Res (List (Cand K) × Int) := do
  let st ← sp.walkI g (fun (st : Int × (Int × List (Cand K))) c => do
    let v ← sp.memberI ds c
    let extra ← int32 (st.1 + 1)
    let st ← topKStep A (fun bound => do let pts ← ds.pointsI v; Arith.eval ratio ref query pts bound) v st.2
    .ok (extra, st)) (extra, (k, []))
  let extra ← int32 (st.1 - st.2.1)
  .ok (st.2.2, extra)

end LocalSpace

namespace GSpace

/-- `_group` (genex/group/GlobalGroupSpace.cpp:58-64). -/
def groupLengthI [Arith K] (ds : Dataset K) (ratio : ℚ) (log : ℕ → Bool) (p : DistRef) (t : Dbl K) (i : ℕ) :
    Option (LocalSpace K) × Res ℕ :=
  match LocalSpace.newI ds i with
  | .error e => (none, .error e)
  | .ok sp =>
    let r := sp.generateGroupsI ds ratio p t (log i)
    (some r.1, r.2)

/-- The loop of `group` (genex/group/GlobalGroupSpace.cpp:82-85): `totalNumberOfGroups += n`. -/
def groupLoopI (f : ℕ → Option (LocalSpace K) × Res ℕ) : List ℕ → GSpace K → GSpace K × Res Unit
  | [], gs => (gs, .ok ())
  | i :: is, gs =>
    let gs := { gs with spaces := gs.spaces.set i (f i).1 }
    match (f i).2 with
    | .error e => (gs, .error e)
    | .ok n =>
      match int32 (gs.total + n) with
      | .error e => (gs, .error e)
      | .ok total => groupLoopI f is { gs with total := total }

/-- `group` (genex/group/GlobalGroupSpace.cpp:71-88). -/
def groupI [Arith K] (ds : Dataset K) (ratio : ℚ) (log : ℕ → Bool) (name : String) (t : Dbl K) (whole : Bool) (gs : GSpace K) :
    GSpace K × Res Int :=
  let r := gs.prepare ds name t whole
  match r.2 with
  | .error e => (r.1, .error e)
  | .ok p =>
    match int32 (ds.maxCol + 1) with
    | .error e => (r.1, .error e)
    | .ok _ =>
      let r := groupLoopI (groupLengthI ds ratio log p t) r.1.lengths r.1
      (r.1, r.2.map (fun _ => r.1.total))

end GSpace

end

end Genex
