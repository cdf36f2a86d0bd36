import Verif.Model.Paa
import Verif.Model.OldFormat
import Verif.Model.ThreadPool

/-!
# The interface (genex/GenexAPI.hpp, genex/GenexAPI.cpp)

Datasets live on a heap and are known by name.  Files are arguments of the calls; the files and texts written are results.
A query is read completely before a search starts.
-/

namespace Genex

variable {K : Type}

/-! ## `std::map<string, _>` as the list of its entries, in the order of the keys -/

/-- `find`. -/
def mapFind {β : Type} (m : List (String × β)) (k : String) : Option β := m.lookup k

/-- `m[k] = v`. -/
def mapSet {β : Type} (k : String) (v : β) : List (String × β) → List (String × β)
  | [] => [(k, v)]
  | e :: m => if k = e.1 then (k, v) :: m else if k < e.1 then (k, v) :: e :: m else e :: mapSet k v m

/-- `erase`. -/
def mapErase {β : Type} (m : List (String × β)) (k : String) : List (String × β) := m.filter (fun e => !(e.1 == k))

/-- `GenexAPI` (genex/GenexAPI.hpp:63-391: `_loadedDatasets`, `_paaWrappers`, `_datasetCount`) with the objects it allocates and the
global `warpingBandRatio` (genex/distance/Distance.cpp:83).  A dataset pointer is a number on the heap, where `none` is a deleted
object; a wrapper holds the reference to its dataset. -/
structure Api (K : Type) where
  heap : List (Option (GSet K))
  datasets : List (String × ℕ)
  wrappers : List (String × (ℕ × Paa K))
  count : Int
  ratio : ℚ

/-- `dataset_metadata_t` (genex/GenexAPI.hpp:20-46). -/
structure Meta (K : Type) where
  name : String
  itemCount : Int
  itemLength : Int
  isNormalized : Bool
  isGrouped : Bool
  distance : String
  threshold : Dbl K
deriving DecidableEq

/-- What a call returns, or the file that it writes. -/
inductive Out (K : Type) where
  | unit
  | int (z : Int)
  | text (t : Text)
  | info (m : Meta K)
  | infos (l : List (Meta K))
  | names (l : List String)
  | series (pts : List (Dbl K))
  | pair (p : Dbl K × Dbl K)
  | cand (c : Cand K)
  | cands (l : List (Cand K))
  | entries (l : List (GSet.Entry K))
  | dist (d : Dbl K)
  | matching (l : List (ℕ × ℕ))
  | file (f : Option (List (Tok K)))
  | words (f : Option (List (Lex K)))

/-- How a call ends: it uses a deleted object, or returns or fails in another way. -/
inductive Reply (K : Type) where
  | dangling
  | ret (r : Res (Out K))

/-- The calls that are functions of the state; grouping is `Api.GroupCall` below.  `file = none`: it cannot be opened. -/
inductive Call (K : Type) where
  | load (name : String) (file : Option Text) (path : Text) (sep : List Char) (maxNumRow startCol : Int) (hasName : Bool)
  | save (name : String) (sep : Char)
  | unload (name : String)
  | unloadAll
  | count
  | seriesName (name : String) (index : Int)
  | seriesLength (name : String) (index : Int)
  | info (name : String)
  | allInfo
  | allDistances
  | series (name : String) (index start stop : Int)
  | normalize (name : String)
  | saveGroups (name : String) (old : Option (List (Tok K))) (opens : Bool)
  | loadGroups (name : String) (file : Option (List (Tok K)))
  | saveGroupsOld (name : String) (sizeOnly : Bool) (old : Option (List (Lex K))) (opens : Bool)
  | loadGroupsOld (name : String) (file : Option (List (Lex K)))
  | setRatio (ratio : ℚ)
  | bestMatch (target query : String) (index start stop : Int)
  | kBest (k ke : Int) (target query : String) (index start stop : Int)
  | bruteForce (k : Int) (target query : String) (index start stop : Int) (distance : String)
  | preparePAA (name : String) (blockSize : Int)
  | kBestPAA (k : Int) (target query : String) (index start stop : Int) (distance : String)
  | distance (name1 : String) (i1 s1 e1 : Int) (name2 : String) (i2 s2 e2 : Int) (distance : String)
  | matching (name1 : String) (i1 s1 e1 : Int) (name2 : String) (i2 s2 e2 : Int) (distance : String)

/-- What the calls need from outside: the reading and printing of numbers, the algorithms of the C++ library, the value left
in an uninitialised variable (`Model/Paa`, `average`), and the printing of numbers into files of groups. -/
structure Env (K : Type) where
  parse : Text → Parsed K
  print : Dbl K → Text
  A : Algos (Cand K)
  B : Algos (GIdx K)
  sum0 : Option (Dbl K)
  printer : Printer K

namespace Api

/-- A new interface (genex/GenexAPI.hpp:390, genex/distance/Distance.cpp:83). -/
def fresh : Api K := ⟨[], [], [], 0, 1 / 10⟩

/-- The object behind a pointer. -/
def deref (s : Api K) (id : ℕ) : Option (GSet K) := (s.heap[id]?).join

/-- `_checkDatasetName(name)` and then `_loadedDatasets[name]` (genex/GenexAPI.cpp:274-280): `f` is applied to the pointer and the
object. -/
def withSet (s : Api K) (name : String) (f : ℕ → GSet K → Api K × Reply K) : Api K × Reply K :=
  match mapFind s.datasets name with
  | none => (s, .ret (.error (.genex "There is no dataset with the given name")))
  | some id =>
    match s.deref id with
    | none => (s, .dangling)
    | some g => f id g

/-- Change the object behind a pointer. -/
def store (s : Api K) (id : ℕ) (g : GSet K) : Api K := { s with heap := s.heap.set id (some g) }

/-- `delete` of the object behind a pointer; deleting twice is undefined. -/
def delete (s : Api K) (id : ℕ) : Option (Api K) := (s.deref id).map (fun _ => { s with heap := s.heap.set id none })

/-- `getDatasetInfo` (genex/GenexAPI.cpp:101-113) with `getDistanceName` and `getThreshold`
(genex/GroupableTimeSeriesSet.cpp:64-80). -/
def metaOf [Field K] (name : String) (g : GSet K) : Res (Meta K) :=
  match g.groups with
  | none => .ok ⟨name, g.ds.itemCount, g.ds.maxCol, g.ds.normalized, g.isGrouped, "", 0⟩
  | some gs =>
    match gs.threshold with
    | none => .error (.ub "threshold not initialised")
    | some t => .ok ⟨name, g.ds.itemCount, g.ds.maxCol, g.ds.normalized, g.isGrouped, gs.distanceName, t⟩

variable [Field K] [LinearOrder K] [HasSqrt K]

/-- `getTimeSeries` and the reading of its points. -/
def queryOf (g : GSet K) (index start stop : Int) : Res (List (Dbl K)) := do
  let v ← g.ds.getTimeSeries index start stop
  g.ds.points v

/-- `unloadAllDataset`, genex/GenexAPI.cpp:76-79: the objects in the order of the map. -/
def deleteAll : List (String × ℕ) → Api K → Option (Api K)
  | [], s => some s
  | e :: m, s => (s.delete e.2).bind (deleteAll m)

/-- `~GenexAPI` (genex/GenexAPI.cpp:17-20); `none`: an object is deleted twice. -/
def destroy (s : Api K) : Option (Api K) := deleteAll s.datasets s

/-- The objects of the loop of `getAllDatasetInfo`, genex/GenexAPI.cpp:118-121. -/
def allSets (s : Api K) : List (String × ℕ) → Option (List (String × GSet K))
  | [] => some []
  | e :: m => (s.deref e.2).bind (fun g => (s.allSets m).map ((e.1, g) :: ·))

/-- The rest of `getAllDatasetInfo`. -/
def metasOf : List (String × GSet K) → Res (List (Meta K))
  | [] => .ok []
  | e :: l => do
    let m ← metaOf e.1 e.2
    let ms ← metasOf l
    pure (m :: ms)

/-- `distance_name.substr(distance_name.length() - 3) != "dtw"` (genex/GenexAPI.cpp:265). -/
def notDtw (name : String) : Res Bool :=
  if name.length < 3 then .error (.std "out_of_range")
  else .ok (decide (name.toList.drop (name.length - 3) ≠ "dtw".toList))

variable [Arith K] [BandOps]

/-- One call (genex/GenexAPI.cpp:22-272). -/
def exec (E : Env K) (s : Api K) : Call K → Api K × Reply K
  | .load name file path sep maxNumRow startCol hasName =>
    match mapFind s.datasets name with
    | some _ => (s, .ret (.error (.genex "Name has already been used")))
    | none =>
      let r := Dataset.loadData E.parse file path maxNumRow startCol sep hasName Dataset.fresh
      let id := s.heap.length
      match r.2 with
      | .error (.genex msg) => ({ s with heap := s.heap ++ [none] }, .ret (.error (.genex msg)))
      | .error e => ({ s with heap := s.heap ++ [some ⟨r.1, none⟩] }, .ret (.error e))
      | .ok _ =>
        ({ s with heap := s.heap ++ [some ⟨r.1, none⟩], datasets := mapSet name id s.datasets, count := s.count + 1 },
          .ret ((metaOf name ⟨r.1, none⟩).map .info))
  | .save name sep => s.withSet name (fun _ g => (s, .ret ((g.ds.saveData E.print sep).map .text)))
  | .unload name => s.withSet name (fun id _ =>
      match s.delete id with
      | none => (s, .dangling)
      | some s' =>
        -- genex/GenexAPI.cpp:65-70: the wrapper is deleted if there is none
        ({ s' with datasets := mapErase s'.datasets name,
                   wrappers := if (mapFind s'.wrappers name).isNone then mapErase s'.wrappers name else s'.wrappers,
                   count := s'.count - 1 }, .ret (.ok .unit)))
  | .unloadAll =>
    match deleteAll s.datasets s with
    | none => (s, .dangling)
    | some s' => ({ s' with datasets := [], count := 0 }, .ret (.ok .unit))
  | .count => (s, .ret (.ok (.int s.count)))
  | .seriesName name index => s.withSet name (fun _ g => (s, .ret ((g.ds.getTimeSeriesName index).map .text)))
  | .seriesLength name index => s.withSet name (fun _ g => (s, .ret ((g.ds.getItemLength index).map .int)))
  | .info name => s.withSet name (fun _ g => (s, .ret ((metaOf name g).map .info)))
  | .allInfo =>
    match s.allSets s.datasets with
    | none => (s, .dangling)
    | some l => (s, .ret ((metasOf l).map .infos))
  | .allDistances => (s, .ret (.ok (.names gAllDistanceName)))
  | .series name index start stop => s.withSet name (fun _ g => (s, .ret ((queryOf g index start stop).map .series)))
  | .normalize name => s.withSet name (fun id g =>
      match Arith.normalize g.ds with
      | .error e => (s, .ret (.error e))
      | .ok (ds, p) => (s.store id { g with ds := ds }, .ret (.ok (.pair p))))
  | .saveGroups name old opens => s.withSet name (fun _ g =>
      let r := g.saveToFile old opens
      (s, .ret (r.2.map (fun _ => .file r.1))))
  | .loadGroups name file => s.withSet name (fun id g =>
      let r := g.loadFromFile file
      (s.store id r.1, .ret (r.2.map (fun _ => .int r.1.totalGroups))))
  | .saveGroupsOld name sizeOnly old opens => s.withSet name (fun _ g =>
      let r := g.saveOld E.printer sizeOnly old opens
      (s, .ret (r.2.map (fun _ => .words r.1))))
  | .loadGroupsOld name file => s.withSet name (fun id g =>
      let r := g.loadOld file
      (s.store id r.1, .ret (r.2.map .int)))
  | .setRatio ratio => ({ s with ratio := ratio }, .ret (.ok .unit))
  | .bestMatch target query index start stop => s.withSet target (fun _ t => s.withSet query (fun _ q =>
      (s, .ret (do
        let pts ← queryOf q index start stop
        (t.getBestMatch s.ratio pts).map .cand))))
  | .kBest k ke target query index start stop => s.withSet target (fun _ t => s.withSet query (fun _ q =>
      (s, .ret (do
        let pts ← queryOf q index start stop
        (t.getKBestMatches E.A E.B s.ratio pts k ke).map .entries))))
  | .bruteForce k target query index start stop distance => s.withSet target (fun _ t => s.withSet query (fun _ q =>
      (s, .ret (do
        let pts ← queryOf q index start stop
        (Genex.bruteForce E.A s.ratio t.ds pts k distance).map .cands))))
  | .preparePAA name b => s.withSet name (fun id g =>
      match mapFind s.wrappers name with
      | some (wid, w) =>
        if b < 1 then (s, .ret (.error (.genex "Block size for PAA must be positive")))
        else match s.deref wid with
          | none => (s, .dangling)
          | some g' =>
            let r := w.generate g'.ds b
            ({ s with wrappers := mapSet name (wid, r.1) s.wrappers }, .ret (r.2.map (fun _ => .unit)))
      | none =>
        match Paa.create g.ds with
        | .error e => (s, .ret (.error e))
        | .ok w =>
          let r := w.generate g.ds b
          ({ s with wrappers := mapSet name (id, r.1) s.wrappers }, .ret (r.2.map (fun _ => .unit))))
  | .kBestPAA k target query index start stop distance => s.withSet target (fun _ _ => s.withSet query (fun _ q =>
      match mapFind s.wrappers target with
      | none => (s, .ret (.error (.genex "Dataset is not prepared for PAA")))
      | some (wid, w) =>
        match queryOf q index start stop with
        | .error e => (s, .ret (.error e))
        | .ok pts =>
          if k ≤ 0 then (s, .ret (.error (.genex "K must be positive")))
          else match getDistanceFromName (distance ++ "_dtw") with
            | .error e => (s, .ret (.error e))
            | .ok _ =>
              match s.deref wid with
              | none => (s, .dangling)
              | some g => (s, .ret ((w.search E.sum0 E.A s.ratio g.ds pts k distance).map .cands))))
  | .distance name1 i1 s1 e1 name2 i2 s2 e2 distance => s.withSet name1 (fun _ g1 => s.withSet name2 (fun _ g2 =>
      (s, .ret (do
        let a ← queryOf g1 i1 s1 e1
        let b ← queryOf g2 i2 s2 e2
        let d ← getDistanceFromName distance
        (Arith.eval s.ratio d a b .inf).map .dist))))
  | .matching name1 i1 s1 e1 name2 i2 s2 e2 distance => s.withSet name1 (fun _ g1 => s.withSet name2 (fun _ g2 =>
      (s, .ret (do
        let a ← queryOf g1 i1 s1 e1
        let b ← queryOf g2 i2 s2 e2
        let bad ← notDtw distance
        if bad = true then .error (.genex "Can only compute matchings using _dtw distances")
        else do
          let d ← getDistanceFromName distance
          (Arith.matching s.ratio d a b).map .matching))))

/-- `groupDataset` (genex/GenexAPI.cpp:149-155), for some schedule of the threads and some clock. -/
def GroupCall (s : Api K) (name : String) (t : Dbl K) (distance : String) (numThreads : Int) (whole : Bool) (s' : Api K)
    (r : Reply K) : Prop :=
  match mapFind s.datasets name with
  | none => s' = s ∧ r = .ret (.error (.genex "There is no dataset with the given name"))
  | some id =>
    match s.deref id with
    | none => s' = s ∧ r = .dangling
    | some g => ∃ log out, g.GroupAll s.ratio log distance t whole numThreads out ∧
        s' = s.store id out.1 ∧ r = .ret (out.2.map .int)

/-- A call and its arguments. -/
inductive AnyCall (K : Type) where
  | call (c : Call K)
  | group (name : String) (t : Dbl K) (distance : String) (numThreads : Int) (whole : Bool)

/-- One call of any kind, with its outcome. -/
def Step (E : Env K) (s : Api K) : AnyCall K → Api K → Reply K → Prop
  | .call c, s', r => s.exec E c = (s', r)
  | .group name t distance numThreads whole, s', r => s.GroupCall name t distance numThreads whole s' r

end Api

end Genex
