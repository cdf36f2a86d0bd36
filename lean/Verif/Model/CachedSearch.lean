import Verif.Model.Serialize

/-!
# Searches in groups with the envelopes that the objects keep

The searches of `Model/Group.lean` compute every envelope afresh.  In the code each `TimeSeries` keeps its last envelope
(genex/TimeSeries.cpp:177-212): the centroid of a group from one search to the next, the query for one search.  Members are fetched
anew for each distance and copies of series have no envelope (genex/TimeSeries.cpp:48-65), so they start without.
A centroid is named by the position of its `LocalLengthGroupSpace` in the vector and the index of its group.
-/

namespace Genex

open Dbl

variable {K : Type} [Field K] [LinearOrder K] [HasSqrt K]

/-- `cachedWarpingBand`, `keoghLower`, `keoghUpper`; `none`: `keoghCacheValid` is false (genex/TimeSeries.hpp:165-172). -/
abbrev EnvCache (K : Type) := Option (Int × OutArr K × OutArr K)

/-- `getKeoghLower` followed by `getKeoghUpper` (genex/TimeSeries.cpp:177-193): the envelope and what is kept. -/
def getEnv (pts : List (Dbl K)) (wb : Int) (c : EnvCache K) : Res ((OutArr K × OutArr K) × EnvCache K) :=
  match c with
  | none => (keoghLU pts wb).map (fun e => (e, some (wb, e)))
  | some (w, e) => if w = wb then .ok (e, c) else (keoghLU pts wb).map (fun e => (e, some (wb, e)))

/-- `keoghLowerBound` (genex/distance/Distance.cpp:112-133) with the envelope kept by the first series. -/
def keoghLowerBoundC [BandOps] (ratio : ℚ) (a b : List (Dbl K)) (dropout : Dbl K) (ca : EnvCache K) : Res (Dbl K × EnvCache K) := do
  let len := min a.length b.length
  let warpingBand := band ratio (max a.length b.length : ℕ)
  let env ← getEnv a warpingBand ca
  let idropout := dropout * Dbl.ofNat 2 * Dbl.ofNat (max a.length b.length)
  let lb ← keoghLoop env.1.1 env.1.2 b (idropout * idropout) (List.range len) 0
  .ok (eucNormDTW lb a.length b.length, env.2)

/-- `crossKeoghLowerBound` (genex/distance/Distance.cpp:135-144); the envelopes kept by both series. -/
def crossKeoghLowerBoundC [BandOps] (ratio : ℚ) (a b : List (Dbl K)) (dropout : Dbl K) (ca cb : EnvCache K) :
    Res (Dbl K × EnvCache K × EnvCache K) := do
  let lb ← keoghLowerBoundC ratio a b dropout ca
  if dropout < lb.1 then .ok (.inf, lb.2, cb)
  else do
    let lb' ← keoghLowerBoundC ratio b a dropout cb
    .ok (stdMax lb.1 lb'.1, lb.2, lb'.2)

/-- `cascadeDistance` (genex/distance/Distance.cpp:146-163), value and envelopes kept. -/
def cascadeValueC [BandOps] (ratio : ℚ) (a b : List (Dbl K)) (dropout : Dbl K) (ca cb : EnvCache K) :
    Res (Dbl K × EnvCache K × EnvCache K) :=
  if dropout < kimLowerBound a b then .ok (.inf, ca, cb)
  else do
    let lb ← crossKeoghLowerBoundC ratio a b dropout ca cb
    if dropout < lb.1 then .ok (.inf, lb.2)
    else do
      let d ← warpedValue (euclidean K) ratio a b dropout
      .ok (d, lb.2)

/-- A call through a function pointer.  It throws for pairwise distances only; other failures are undefined or do not end, so that
nothing is said about what is kept then. -/
def DistRef.evalC [BandOps] (ratio : ℚ) (ref : DistRef) (a b : List (Dbl K)) (d : Dbl K) (ca cb : EnvCache K) :
    Res (Dbl K × EnvCache K × EnvCache K) :=
  match ref with
  | .cascade => cascadeValueC ratio a b d ca cb
  | ref => (ref.eval ratio a b d).map (fun v => (v, ca, cb))

/-- The envelopes kept by the centroids and by the query. -/
structure Caches (K : Type) where
  cent : Int → ℕ → EnvCache K
  query : EnvCache K

/-- A computation that uses and changes kept envelopes; what is kept stays kept when it throws. -/
abbrev CM (K : Type) := ExceptT Fault (StateM (Caches K))

/-- `Group::distanceFromCentroid` (genex/group/Group.cpp:31-34). -/
def Group.distanceC (ds : Dataset K) [BandOps] (ratio : ℚ) (ref : DistRef) (query : List (Dbl K)) (pos : Int) (idx : ℕ) (g : Group K)
    (dropout : Dbl K) : CM K (Dbl K) := do
  let pts ← liftM (g.centroidPts ds)
  ExceptT.mk (fun σ =>
    match ref.evalC ratio pts query dropout (σ.cent pos idx) σ.query with
    | .error e => (.error e, σ)
    | .ok r => (.ok r.1, { cent := fun p i => if p = pos ∧ i = idx then r.2.1 else σ.cent p i, query := r.2.2 }))

/-- The distance of the query from a series that has just been fetched or copied (genex/group/Group.cpp:48-51, 88-103,
genex/group/GlobalGroupSpace.cpp:209-211). -/
def viewDistC (ds : Dataset K) [BandOps] (ratio : ℚ) (ref : DistRef) (query : List (Dbl K)) (v : View) (dropout : Dbl K) : CM K (Dbl K) := do
  let pts ← liftM (ds.points v)
  ExceptT.mk (fun σ =>
    match ref.evalC ratio query pts dropout σ.query none with
    | .error e => (.error e, σ)
    | .ok r => (.ok r.1, { σ with query := r.2.1 }))

/-- As `bestLoop` (genex/group/LocalLengthGroupSpace.cpp:167-175). -/
def bestLoopC (dist : ℕ → Group K → Dbl K → CM K (Dbl K)) :
    List (Group K) → ℕ → Dbl K × Option ℕ → CM K (Dbl K × Option ℕ)
  | [], _, best => pure best
  | g :: gs, i, best => do
    let d ← dist i g best.1
    bestLoopC dist gs (i + 1) (if d < best.1 then (d, some i) else best)

/-- As `topKStep` (genex/group/Group.cpp:88-112). -/
def topKStepC (A : Algos (Cand K)) (eval : Dbl K → CM K (Dbl K)) (v : View) (st : Int × List (Cand K)) :
    CM K (Int × List (Cand K)) :=
  if 0 < st.1 then do
    let d ← eval .inf
    let best := st.2 ++ [⟨v, d⟩]
    pure (st.1 - 1, if st.1 - 1 = 0 then A.makeHeap best else best)
  else
    match st.2 with
    | [] => throw (.ub "front() of an empty vector")
    | top :: _ => do
      let d ← eval top.dist
      if d < top.dist then pure (st.1, (A.popHeap (A.pushHeap (st.2 ++ [⟨v, d⟩]))).dropLast)
      else pure st

/-- As `kSimStep` (genex/group/LocalLengthGroupSpace.cpp:186-219). -/
def kSimStepC (B : Algos (GIdx K)) (length : Int) (dist : Dbl K → CM K (Dbl K)) (i : ℕ) (members : Int)
    (st : Int × List (GIdx K)) : CM K (Int × List (GIdx K)) :=
  if st.1 ≤ 0 then
    match st.2 with
    | [] => throw (.ub "front() of an empty vector")
    | top :: _ => do
      let d ← dist top.dist
      if d < top.dist then
        let best := B.pushHeap (st.2 ++ [⟨length, i, members, d⟩])
        liftM (shrink B best.length (st.1 - members, best))
      else pure st
  else do
    let d ← dist .inf
    let best := st.2 ++ [⟨length, i, members, d⟩]
    if st.1 - members ≤ 0 then
      let best := B.makeHeap best
      liftM (shrink B best.length (st.1 - members, best))
    else pure (st.1 - members, best)

namespace LocalSpace

/-- As `chainLoop` (genex/group/Group.cpp:43-61, 80-116). -/
def chainLoopC {σ : Type} (sp : LocalSpace K) (body : σ → Int × Int → CM K σ) : ℕ → Int × Int → σ → CM K σ
  | fuel, c, s =>
    if c.1 = -1 then pure s
    else match fuel with
      | 0 => throw .diverge
      | fuel + 1 => do
        let s' ← body s c
        let m ← liftM (sp.cell c)
        chainLoopC sp body fuel m.prev s'

/-- As `walk`. -/
def walkC {σ : Type} (sp : LocalSpace K) (g : Group K) (body : σ → Int × Int → CM K σ) (s : σ) : CM K σ :=
  sp.chainLoopC body (sp.memberMap.length + 1) g.last s

/-- `Group::getBestMatch` (genex/group/Group.cpp:36-69). -/
def getBestMatchC (ds : Dataset K) [BandOps] (ratio : ℚ) (ref : DistRef) (query : List (Dbl K)) (sp : LocalSpace K) (g : Group K) :
    CM K (Cand K) := do
  let best ← sp.walkC g (fun (st : Dbl K × (Int × Int)) c => do
    let v ← liftM (sp.member ds c)
    let d ← viewDistC ds ratio ref query v st.1
    pure (if d < st.1 then (d, c) else st)) (.inf, (0, 0))
  let v ← liftM (sp.member ds best.2)
  pure ⟨v, best.1⟩

/-- `Group::intraGroupKSim` (genex/group/Group.cpp:71-120). -/
def intraGroupKSimC (A : Algos (Cand K)) (ds : Dataset K) [BandOps] (ratio : ℚ) (ref : DistRef) (query : List (Dbl K)) (k : Int)
    (sp : LocalSpace K) (g : Group K) : CM K (List (Cand K)) := do
  let st ← sp.walkC g (fun (st : Int × List (Cand K)) c => do
    let v ← liftM (sp.member ds c)
    topKStepC A (viewDistC ds ratio ref query v) v st) (k, [])
  pure st.2

/-- `getBestGroup` (genex/group/LocalLengthGroupSpace.cpp:163-178). -/
def getBestGroupC (ds : Dataset K) [BandOps] (ratio : ℚ) (ref : DistRef) (query : List (Dbl K)) (dropout : Dbl K) (pos : Int)
    (sp : LocalSpace K) : CM K (Dbl K × Option ℕ) :=
  bestLoopC (fun i g => Group.distanceC ds ratio ref query pos i g) sp.groups 0 (dropout, none)

/-- `interLevelKSim` (genex/group/LocalLengthGroupSpace.cpp:180-222). -/
def interLevelKSimC (B : Algos (GIdx K)) (ds : Dataset K) [BandOps] (ratio : ℚ) (ref : DistRef) (query : List (Dbl K)) (pos : Int)
    (st : Int × List (GIdx K)) (sp : LocalSpace K) : CM K (Int × List (GIdx K)) :=
  sp.groups.zipIdx.foldlM (fun st g =>
    kSimStepC B sp.length (Group.distanceC ds ratio ref query pos g.2 g.1) g.2 g.1.count st) st

end LocalSpace

namespace GSpace

/-- As `bestStep` (genex/group/GlobalGroupSpace.cpp:147-158). -/
def bestStepC (ds : Dataset K) [BandOps] (ratio : ℚ) (w : DistRef) (query : List (Dbl K)) (gs : GSpace K)
    (st : Dbl K × Option (LocalSpace K × ℕ)) (i : Int) : CM K (Dbl K × Option (LocalSpace K × ℕ)) := do
  let s ← liftM (gs.spaceAt i)
  match s with
  | none => pure st
  | some sp => do
    let c ← sp.getBestGroupC ds ratio w query st.1 i
    pure (if c.1 < st.1 then (c.1, c.2.map (fun g => (sp, g))) else st)

/-- `getBestMatch` (genex/group/GlobalGroupSpace.cpp:135-161). -/
def getBestMatchC (ds : Dataset K) [BandOps] (ratio : ℚ) (gs : GSpace K) (query : List (Dbl K)) : CM K (Cand K) := do
  if query.length ≤ 1 then throw (.genex "Length of query must be larger than 1")
  else match gs.warped with
    | none => throw (.ub "call through an uninitialised function pointer")
    | some w => do
      let order ← liftM (generateTraverseOrder ratio query.length ((gs.spaces.length : Int) - 1))
      let st ← order.foldlM (bestStepC ds ratio w query gs) (.inf, none)
      match st.2 with
      | none => throw (.ub "null pointer dereference")
      | some (sp, g) =>
        match sp.groups[g]? with
        | none => throw (.ub "dangling group")
        | some g => sp.getBestMatchC ds ratio w query g

/-- As `kStep` (genex/group/GlobalGroupSpace.cpp:173-180). -/
def kStepC (B : Algos (GIdx K)) (ds : Dataset K) [BandOps] (ratio : ℚ) (w : DistRef) (query : List (Dbl K)) (gs : GSpace K)
    (st : Int × List (GIdx K)) (i : Int) : CM K (Int × List (GIdx K)) := do
  let s ← liftM (gs.spaceAt i)
  match s with
  | none => pure st
  | some sp => sp.interLevelKSimC B ds ratio w query i st

/-- `getKBestMatches` (genex/group/GlobalGroupSpace.cpp:163-214). -/
def getKBestMatchesC (A : Algos (Cand K)) (B : Algos (GIdx K)) (ds : Dataset K) [BandOps] (ratio : ℚ) (gs : GSpace K)
    (query : List (Dbl K)) (k : Int) : CM K (List (Cand K)) := do
  match gs.warped with
  | none => throw (.ub "call through an uninitialised function pointer")
  | some w => do
    let order ← liftM (generateTraverseOrder ratio query.length ((gs.spaces.length : Int) - 1))
    let st ← order.foldlM (kStepC B ds ratio w query gs) (k, [])
    let best ← (match st.2 with
      | [] => pure []
      | top :: rest => do
        let g ← liftM (gs.groupAt top)
        let intra ← g.1.intraGroupKSimC A ds ratio w query (st.1 + top.members) g.2
        let others ← liftM (rest.mapM (gs.takeAll ds))
        pure (intra.map Cand.view ++ others.flatten) : CM K (List View))
    best.mapM (fun v => do
      let d ← viewDistC ds ratio w query v .inf
      pure ⟨v, d⟩)

end GSpace

/-- A grouped dataset with the envelopes its centroids keep. -/
structure CSet (K : Type) where
  set : GSet K
  cent : Int → ℕ → EnvCache K

namespace CSet

/-- A search: the query object is made for the call (genex/GenexAPI.cpp:190-235) and its envelope dies with it; the centroids keep
theirs. -/
def search {α : Type} (c : CSet K) (f : CM K α) : Res α × CSet K :=
  let r := f ⟨c.cent, none⟩
  (r.1, { c with cent := r.2.cent })

/-- `getBestMatch` (genex/GroupableTimeSeriesSet.cpp:144-151). -/
def getBestMatch [BandOps] (ratio : ℚ) (c : CSet K) (query : List (Dbl K)) : Res (Cand K) × CSet K :=
  match c.set.groups with
  | none => (.error (.genex "Dataset is not grouped"), c)
  | some gs => c.search (gs.getBestMatchC c.set.ds ratio query)

/-- `getKBestMatches` (genex/GroupableTimeSeriesSet.cpp:153-168). -/
def getKBestMatches (A : Algos (Cand K)) (B : Algos (GIdx K)) [BandOps] (ratio : ℚ) (c : CSet K) (query : List (Dbl K)) (k h : Int) :
    Res (List (GSet.Entry K)) × CSet K :=
  match c.set.groups with
  | none => (.error (.genex "Dataset is not grouped"), c)
  | some gs =>
    if h < k then
      (.error (.genex "Number of examined time series must be larger than or equal to the number of time series to look for"), c)
    else
      let r := c.search (gs.getKBestMatchesC A B c.set.ds ratio query h)
      (do
        let res ← r.1
        if k < 0 then .error (.std "length_error")
        else
          let sorted := (A.sort res).map GSet.Entry.cand
          .ok (sorted.take k.toNat ++ List.replicate (k.toNat - sorted.length) .pad), r.2)

/-- What happens to a grouped dataset. -/
inductive Ev (K : Type) where
  /-- Grouping or loading groups: the group space is replaced, with new objects as centroids. -/
  | regroup (groups : Option (GSpace K))
  | best (ratio : ℚ) (query : List (Dbl K))
  | kBest (A : Algos (Cand K)) (B : Algos (GIdx K)) (ratio : ℚ) (query : List (Dbl K)) (k h : Int)
  /-- `normalize` changes the numbers in place (genex/TimeSeriesSet.cpp:198-293). -/
  | normalize

/-- The effect of an event.  A normalisation that throws has changed nothing (genex/TimeSeriesSet.cpp:200-203). -/
def after (c : CSet K) : Ev K → CSet K
  | .regroup g => ⟨{ c.set with groups := g }, fun _ _ => none⟩
  | .best ratio query => (c.getBestMatch ratio query).2
  | .kBest A B ratio query k h => (c.getKBestMatches A B ratio query k h).2
  | .normalize =>
    match c.set.ds.normalize with
    | .error _ => c
    | .ok r => { c with set := { c.set with ds := r.1 } }

end CSet

end Genex
