import Verif.Model.Api

/-!
# The Python module (pygenex/GENEXBindings.cpp)

What a Python call asks of the interface, and the Python object it returns.  The resolution of arguments and the conversions are
those of Boost.Python: `def` attaches its keywords to the last parameters; a call fails with `ArgumentError` if the arguments
cannot be bound or converted, and with `OverflowError` if an integer does not fit into an `int`.  `GenexException` and the
exceptions of the C++ library become Python exceptions.  Not modelled: integers given for `double` that a `double` does not hold
exactly, and a warping band ratio that is not finite.
-/

namespace Genex.Py

variable {K : Type}

/-- A Python value given as an argument. -/
inductive Val (K : Type) where
  | none
  | int (z : Int)
  | bool (b : Bool)
  | float (x : Dbl K)
  | str (s : String)
deriving DecidableEq

/-- The type of a C++ parameter: `int`, `bool`, `data_t` or `double`, `const string&`. -/
inductive Ty where
  | int
  | bool
  | float
  | str
deriving DecidableEq

/-- Boost.Python has a converter from the value to the type. -/
def convertible : Ty → Val K → Bool
  | .int, .int _ => true
  | .int, .bool _ => true
  | .bool, .bool _ => true
  | .bool, .int _ => true
  | .bool, .none => true
  | .float, .float _ => true
  | .float, .int _ => true
  | .float, .bool _ => true
  | .str, .str _ => true
  | _, _ => false

/-- 0 or 1. -/
def ofBool (b : Bool) : Int := if b then 1 else 0

/-- The conversion; `none` is `OverflowError`. -/
def convert [IntCast K] : Ty → Val K → Option (Val K)
  | .int, .int z => if -2147483648 ≤ z ∧ z ≤ 2147483647 then some (.int z) else none
  | .int, .bool b => some (.int (ofBool b))
  | .bool, .int z => some (.bool (z != 0))
  | .bool, .none => some (.bool false)
  | .float, .int z => some (.float (.fin z))
  | .float, .bool b => some (.float (.fin (ofBool b)))
  | _, v => some v

/-- The names and defaults of the parameters: the keywords belong to the last ones. -/
def params (types : List Ty) (kws : List (String × Val K)) : List (Option (String × Val K)) :=
  List.replicate (types.length - kws.length) none ++ kws.map some

/-- One parameter that has no positional argument: the keyword argument of its name, else the default. -/
def named (kw : List (String × Val K)) : Option (String × Val K) → Option (Val K)
  | none => none
  | some p => (kw.lookup p.1).or (some p.2)

/-- The keyword arguments that are used. -/
def used (kw : List (String × Val K)) (ps : List (Option (String × Val K))) : ℕ :=
  (ps.filter (fun p => match p with | none => false | some p => (kw.lookup p.1).isSome)).length

/-- `function::call` of Boost.Python for a function without overloads. -/
def bindArgs (types : List Ty) (kws : List (String × Val K)) (pos : List (Val K)) (kw : List (String × Val K)) :
    Option (List (Val K)) :=
  if pos.length + kw.length + kws.length < types.length ∨ types.length < pos.length + kw.length then none
  else if kw = [] ∧ pos.length = types.length then some pos
  else if kw ≠ [] ∧ kws = [] then none
  else
    let rest := (params types kws).drop pos.length
    match rest.mapM (named kw) with
    | none => none
    | some vs => if used kw rest < kw.length then none else some (pos ++ vs)

/-- The files, by their paths, and the ratio that a `double` is. -/
structure Files (K : Type) where
  text : String → Option Text
  archive : String → Option (List (Tok K))
  words : String → Option (List (Lex K))
  opens : String → Bool
  ratio : Dbl K → ℚ

/-- A Python object that is returned. -/
inductive Obj (K : Type) where
  | none
  | int (z : Int)
  | float (x : Dbl K)
  | str (t : Text)
  | list (l : List (Obj K))
  | tuple (l : List (Obj K))
  | dict (l : List (String × Obj K))

/-- A function of the module: its name, its parameters, the keywords of its `def`, and the call that it makes. -/
structure Fn (K : Type) where
  name : String
  types : List Ty
  kws : List (String × Val K)
  body : Files K → List (Val K) → Option (Api.AnyCall K)

/-- The functions, pygenex/GENEXBindings.cpp:70-435, and their definition in the module, lines 437-466. -/
def functions : List (Fn K) :=
  [⟨"loadDataset", [.str, .str, .str, .int, .int, .bool],
      [("separators", .str " "), ("maxNumRow", .int 0), ("startCol", .int 0), ("hasNameCol", .bool false)],
      fun F vs => match vs with
        | [.str n, .str p, .str sep, .int rows, .int col, .bool h] =>
          some (.call (.load n (F.text p) p.toList sep.toList rows col h))
        | _ => none⟩,
   ⟨"unloadDataset", [.str], [], fun _ vs => match vs with | [.str n] => some (.call (.unload n)) | _ => none⟩,
   ⟨"saveDataset", [.str, .str, .str], [], fun _ vs => match vs with
      | [.str n, .str _, .str sep] => some (.call (.save n (sep.toList.headD '\x00')))
      | _ => none⟩,
   ⟨"normalize", [.str], [], fun _ vs => match vs with | [.str n] => some (.call (.normalize n)) | _ => none⟩,
   ⟨"getTimeSeriesName", [.str, .int], [], fun _ vs => match vs with
      | [.str n, .int i] => some (.call (.seriesName n i))
      | _ => none⟩,
   ⟨"getTimeSeriesLength", [.str, .int], [], fun _ vs => match vs with
      | [.str n, .int i] => some (.call (.seriesLength n i))
      | _ => none⟩,
   ⟨"group", [.str, .float, .str, .int, .bool],
      [("distanceName", .str "euclidean"), ("numThreads", .int 1), ("wholeSeriesOnly", .bool false)],
      fun _ vs => match vs with
        | [.str n, .float t, .str d, .int th, .bool w] => some (.group n t d th w)
        | _ => none⟩,
   ⟨"preparePAA", [.str, .int], [], fun _ vs => match vs with
      | [.str n, .int b] => some (.call (.preparePAA n b))
      | _ => none⟩,
   ⟨"saveGroups", [.str, .str], [], fun F vs => match vs with
      | [.str n, .str p] => some (.call (.saveGroups n (F.archive p) (F.opens p)))
      | _ => none⟩,
   ⟨"saveGroupsSize", [.str, .str], [], fun F vs => match vs with
      | [.str n, .str p] => some (.call (.saveGroupsOld n true (F.words p) (F.opens p)))
      | _ => none⟩,
   ⟨"loadGroups", [.str, .str], [], fun F vs => match vs with
      | [.str n, .str p] => some (.call (.loadGroups n (F.archive p)))
      | _ => none⟩,
   ⟨"distance", [.str, .int, .int, .int, .str, .int, .int, .int, .str], [], fun _ vs => match vs with
      | [.str n₁, .int i₁, .int s₁, .int e₁, .str n₂, .int i₂, .int s₂, .int e₂, .str d] =>
        some (.call (.distance n₁ i₁ s₁ e₁ n₂ i₂ s₂ e₂ d))
      | _ => none⟩,
   ⟨"getMatching", [.str, .int, .int, .int, .str, .int, .int, .int, .str], [("start2", .int (-1)), ("end2", .int (-1))],
      fun _ vs => match vs with
        | [.str n₁, .int i₁, .int s₁, .int e₁, .str n₂, .int i₂, .int s₂, .int e₂, .str d] =>
          some (.call (.matching n₁ i₁ s₁ e₁ n₂ i₂ s₂ e₂ d))
        | _ => none⟩,
   ⟨"sim", [.str, .str, .int, .int, .int], [("start", .int (-1)), ("end", .int (-1))], fun _ vs => match vs with
      | [.str t, .str q, .int i, .int s, .int e] => some (.call (.bestMatch t q i s e))
      | _ => none⟩,
   ⟨"ksim", [.int, .int, .str, .str, .int, .int, .int], [("start", .int (-1)), ("end", .int (-1))], fun _ vs => match vs with
      | [.int k, .int ke, .str t, .str q, .int i, .int s, .int e] => some (.call (.kBest k ke t q i s e))
      | _ => none⟩,
   ⟨"ksimbf", [.int, .str, .str, .int, .int, .int, .str],
      [("start", .int (-1)), ("end", .int (-1)), ("distance", .str "euclidean")], fun _ vs => match vs with
      | [.int k, .str t, .str q, .int i, .int s, .int e, .str d] => some (.call (.bruteForce k t q i s e d))
      | _ => none⟩,
   ⟨"ksimpaa", [.int, .str, .str, .int, .int, .int, .str],
      [("start", .int (-1)), ("end", .int (-1)), ("distance", .str "euclidean")], fun _ vs => match vs with
      | [.int k, .str t, .str q, .int i, .int s, .int e, .str d] => some (.call (.kBestPAA k t q i s e d))
      | _ => none⟩,
   ⟨"getTimeSeries", [.str, .int, .int, .int], [("start", .int (-1)), ("end", .int (-1))], fun _ vs => match vs with
      | [.str n, .int i, .int s, .int e] => some (.call (.series n i s e))
      | _ => none⟩,
   ⟨"getAllDistances", [], [], fun _ vs => match vs with | [] => some (.call .allDistances) | _ => none⟩,
   ⟨"setWarpingBandRatio", [.float], [], fun F vs => match vs with
      | [.float x] => some (.call (.setRatio (F.ratio x)))
      | _ => none⟩]

/-- What a Python call amounts to. -/
inductive Request (K : Type) where
  /-- `AttributeError` -/
  | unknown
  /-- `Boost.Python.ArgumentError` -/
  | argument
  /-- `OverflowError` -/
  | overflow
  | call (c : Api.AnyCall K)

/-- `pygenex.name(*pos, **kw)` up to the call of the interface. -/
def request [IntCast K] (F : Files K) (name : String) (pos : List (Val K)) (kw : List (String × Val K)) : Request K :=
  match functions.find? (fun f : Fn K => f.name == name) with
  | none => .unknown
  | some f =>
    match bindArgs f.types f.kws pos kw with
    | none => .argument
    | some vs =>
      if (f.types.zip vs).all (fun x => convertible x.1 x.2) = false then .argument
      else match (f.types.zip vs).mapM (fun x => convert x.1 x.2) with
        | none => .overflow
        | some ws => match f.body F ws with
          | none => .argument
          | some c => .call c

/-- `timeSeriesToPythonDict` (pygenex/GENEXBindings.cpp:22-29). -/
def viewDict (index start stop : Int) : Obj K := .dict [("index", .int index), ("start", .int start), ("end", .int stop)]

/-- `candidateTimeSeriesToPythonDict` (pygenex/GENEXBindings.cpp:31-37). -/
def candDict (c : Cand K) : Obj K := .dict [("dist", .float c.dist), ("data", viewDict c.view.index c.view.start c.view.stop)]

/-- The same for an entry of `getKBestMatches`; a default-constructed one has index, start and end 0 and distance 0
(genex/TimeSeries.hpp:229, genex/TimeSeries.cpp:35-43). -/
def entryDict [Zero K] : GSet.Entry K → Obj K
  | .cand c => candDict c
  | .pad => .dict [("dist", .float (.fin 0)), ("data", viewDict 0 0 0)]

/-- The object returned: `loadDataset` shows three of the members (pygenex/GENEXBindings.cpp:83-86), the lists and tuples are
made in lines 12-20, 128-132, 264-268, 327-334, 422-431; functions without a result return `None`, also those that write files. -/
def toObj [Zero K] : Out K → Obj K
  | .unit => .none
  | .int z => .int z
  | .text t => .str t
  | .info m => .dict [("name", .str m.name.toList), ("count", .int m.itemCount), ("length", .int m.itemLength)]
  | .infos _ => .none
  | .names l => .list (l.map (fun n => .str n.toList))
  | .series pts => .list (pts.map .float)
  | .pair p => .tuple [.float p.1, .float p.2]
  | .cand c => candDict c
  | .cands l => .list (l.map candDict)
  | .entries l => .list (l.map entryDict)
  | .dist d => .float d
  | .matching l => .list (l.map (fun p => .tuple [.int p.1, .int p.2]))
  | .file _ => .none
  | .words _ => .none

/-- The text of `saveDataset` goes to a file, and nothing is returned (pygenex/GENEXBindings.cpp:109-114). -/
def result [Zero K] : Api.AnyCall K → Out K → Obj K
  | .call (.save _ _), _ => .none
  | _, o => toObj o

/-- What the user of the module sees. -/
inductive Outcome (K : Type) where
  | value (o : Obj K)
  /-- a Python exception: wrong arguments -/
  | argument
  /-- a Python exception: a number that is too large -/
  | overflow
  /-- a Python exception: no such function -/
  | unknown
  /-- a Python exception: what the interface threw -/
  | raised (e : Fault)
  /-- undefined behaviour, or no end -/
  | lost

/-- The outcome of a reply of the interface. -/
def outcome [Zero K] (c : Api.AnyCall K) : Reply K → Outcome K
  | .dangling => .lost
  | .ret (.ok o) => .value (result c o)
  | .ret (.error (.genex m)) => .raised (.genex m)
  | .ret (.error (.std m)) => .raised (.std m)
  | .ret (.error _) => .lost

variable [Field K] [LinearOrder K] [HasSqrt K] [Arith K] [BandOps]

/-- A call of the module. -/
def Turn (E : Env K) (F : Files K) (s : Api K) (name : String) (pos : List (Val K)) (kw : List (String × Val K)) (s' : Api K)
    (o : Outcome K) : Prop :=
  match request F name pos kw with
  | .unknown => s' = s ∧ o = .unknown
  | .argument => s' = s ∧ o = .argument
  | .overflow => s' = s ∧ o = .overflow
  | .call c => ∃ r, Api.Step E s c s' r ∧ o = outcome c r

end Genex.Py
