import Verif.Model.Cli

/-!
# What the command line program prints (cli/GenexCLI.cpp)

`cout` is a list of pieces: a number keeps the count of digits that `cout` had when it was printed.  Left out of the pieces: the prompt and
the echo of the terminal, which belong to `readline`.
-/

namespace Genex

variable {K : Type}

/-- What is put to `cout`: a text, an `int`, a `double` with the precision of the moment, a text filled up to a width (`setw`, after
`cout << left`, cli/GenexCLI.cpp:812), the seconds of the clock, the lines on the progress of grouping
(genex/group/LocalLengthGroupSpace.cpp:59-74), and the help of a command. -/
inductive Piece (K : Type) where
  | str (s : String)
  | int (z : Int)
  | num (digits : ℕ) (x : Dbl K)
  | pad (width : ℕ) (parts : List (Piece K))
  | seconds (digits : ℕ)
  | progress
  | help (command : String)
  | summary (command : String)
  | endl

/-- What the texts need from outside: the printing of a `double` with so many digits, the seconds, the progress, the texts of `help`. -/
structure Screen (K : Type) where
  num : ℕ → Dbl K → Text
  seconds : Text
  progress : Text
  help : String → Text
  summary : String → Text

/-- The text of an `int`. -/
def intText (z : Int) : Text := (toString z).toList

mutual
/-- The text of a piece. -/
def Piece.text (S : Screen K) : Piece K → Text
  | .str s => s.toList
  | .int z => intText z
  | .num d x => S.num d x
  | .pad w ps => let t := Piece.texts S ps; t ++ List.replicate (w - t.length) ' '
  | .seconds _ => S.seconds
  | .progress => S.progress
  | .help c => S.help c
  | .summary c => S.summary c
  | .endl => ['\n']

/-- The text of pieces. -/
def Piece.texts (S : Screen K) : List (Piece K) → Text
  | [] => []
  | p :: ps => p.text S ++ Piece.texts S ps
end

/-- The program: the interface, `gTimerEnabled` (cli/GenexCLI.cpp:35) and the precision of `cout`. -/
structure Console (K : Type) where
  api : Api K
  timer : Bool
  digits : ℕ

namespace Console

/-- The program at its start. -/
def fresh : Console K := ⟨Api.fresh, true, 6⟩

end Console

namespace Cli

/-- What is left after a command: the pieces, and the precision of `cout` after them. -/
abbrev Shown (K : Type) := List (Piece K) × ℕ

/-- `TIME_COMMAND` after the call (cli/GenexCLI.cpp:25-30): `setprecision(4)` stays. -/
def timed (timer : Bool) (digits : ℕ) : Shown K :=
  if timer then ([.str "Command executed in ", .seconds 4, .str "s", .endl], 4) else ([], digits)

/-- `i [a, b]`, with a blank after it. -/
def place (i a b : Int) : List (Piece K) := [.int i, .str " [", .int a, .str ", ", .int b, .str "] "]

/-- The line of one answer (cli/GenexCLI.cpp:505-508, 560-565). -/
def answer (digits : ℕ) (i a b : Int) (x : Dbl K) : List (Piece K) :=
  [.str "Timeseries "] ++ place i a b ++ [.str "- distance = ", .num digits x, .endl]

/-- The entry of a result vector; a default-constructed one has the index, start and end of `TimeSeries(0)`
(genex/TimeSeries.cpp:37-46, genex/TimeSeries.hpp:229). -/
def entryLine [Zero K] (digits : ℕ) : GSet.Entry K → List (Piece K)
  | .cand c => answer digits c.view.index c.view.start c.view.stop c.dist
  | .pad => answer digits 0 0 0 (.fin 0)

/-- One line of `list dataset` (cli/GenexCLI.cpp:186-196); the `ostringstream` has the precision 6. -/
def datasetLine (m : Meta K) : List (Piece K) :=
  [.str "  ", .pad 10 [.str m.name], .str "\t",
    .pad 35 (if m.isGrouped then [.str "Grouped (", .str m.distance, .str ", TS = ", .num 6 m.threshold, .str ")"]
      else [.str "Not grouped"]),
    .str "\t", .pad 10 [.str (if m.isNormalized then "Normalized" else "Not normalized")], .endl]

/-- `printData` (genex/TimeSeries.cpp:226-233). -/
def pointPieces (pts : List (Dbl K)) : List (Piece K) := (pts.map fun x => [Piece.num 16 x, .str " "]).flatten

/-- What is printed after a call that has returned: cli/GenexCLI.cpp:96-99 (`load`), 138 (`save`), 162 (`unload`), 182-205 (`list`),
280-283 (`distance`), 321-322 (`group`), 353 (`saveGroups`), 379 (`loadGroups`), 405 (`normalize`), 443-448 (`sim`), 499-509 (`ksim`),
554-566 (`ksimBF`), 596 (`print`). -/
def report [Zero K] (timer : Bool) (digits : ℕ) (args : List String) : Api.AnyCall K → Out K → Shown K
  | .call (.load ..), .info m =>
    ([.str "Dataset loaded                         ", .endl, .str "  Name:        ", .str m.name, .endl,
      .str "  Item count:  ", .int m.itemCount, .endl, .str "  Item length: ", .int m.itemLength, .endl], digits)
  | .call (.save name _), .text _ => ([.str "Saved dataset ", .str name, .str " to ", .str (arg args 2), .endl], digits)
  | .call (.unload name), .unit => ([.str "Dataset ", .str name, .str " is unloaded", .endl], digits)
  | .call .allInfo, .infos l =>
    ([.int l.length, .str " datasets loaded", .endl, .endl] ++ (l.map datasetLine).flatten, digits)
  | .call .allDistances, .names l =>
    ((l.map fun n => [Piece.str " ", .pad 10 [.str n], .str "\t", .str "", .endl]).flatten, digits)
  | .call (.distance n1 i1 s1 e1 n2 i2 s2 e2 dist), .dist x =>
    ([.str dist, .str " distance between ", .endl] ++ place i1 s1 e1 ++ [.str "from dataset ", .str n1, .endl] ++
      place i2 s2 e2 ++ [.str "from dataset ", .str n2, .endl, .str "is ", .num digits x, .endl], digits)
  | .group name _ _ _ _, .int z =>
    let t := timed (K := K) timer digits
    (t.1 ++ [.str "Dataset ", .str name, .str " is now grouped", .endl, .str "Number of Groups: ", .int z, .endl], t.2)
  | .call (.saveGroups name ..), .file _ =>
    ([.str "Saved groups of dataset ", .str name, .str " to ", .str (arg args 2), .endl], digits)
  | .call (.saveGroupsOld name ..), .words _ =>
    ([.str "Saved groups of dataset ", .str name, .str " to ", .str (arg args 2), .endl], digits)
  | .call (.loadGroups name _), .int z => ([.int z, .str " groups loaded for dataset ", .str name], digits)
  | .call (.normalize name), .pair _ => ([.str "Dataset ", .str name, .str " is now normalized", .endl], digits)
  | .call (.bestMatch t q i a b), .cand c =>
    let h := timed (K := K) timer digits
    (h.1 ++ [.str "Target dataset: ", .str t, .endl, .str "Query dataset: ", .str q, .endl, .str "Query time series: "] ++ place i a b ++
      [.endl, .str "Best match is time series "] ++ place c.view.index c.view.start c.view.stop ++
      [.endl, .str "Distance = ", .num h.2 c.dist, .endl], h.2)
  | .call (.kBest k ke t q i a b), .entries l =>
    let h := timed (K := K) timer digits
    (h.1 ++ [.str "Target dataset: ", .str t, .endl, .str "Query dataset: ", .str q, .endl,
        .str "k = ", .int k, .str ". ke = ", .int ke, .endl, .str "Query time series: "] ++ place i a b ++ [.endl] ++
      (l.map (entryLine h.2)).flatten, h.2)
  | .call (.bruteForce k t q i a b _), .cands l =>
    let h := timed (K := K) timer digits
    (h.1 ++ [.str "Target dataset: ", .str t, .endl, .str "Query dataset: ", .str q, .endl,
        .str "k = ", .int k, .endl, .str "Query time series: "] ++ place i a b ++ [.endl] ++
      (l.map fun c => answer h.2 c.view.index c.view.start c.view.stop c.dist).flatten, h.2)
  | .call (.series ..), .series pts => (pointPieces pts, if pts = [] then digits else 16)
  | _, _ => ([], digits)

/-- What is printed before the call is made: cli/GenexCLI.cpp:315, and the progress during the grouping. -/
def before : Api.AnyCall K → List (Piece K)
  | .group _ _ _ n _ => [.str "Grouping using ", .int n, .str " threads.", .endl, .progress]
  | _ => []

/-- The message for a `logic_error` (cli/GenexCLI.cpp:843). -/
def notNumeric : List (Piece K) := [.str "Error! Cannot convert some value to numeric", .endl]

/-- The exceptions of the library that are `logic_error`s, cli/GenexCLI.cpp:841. -/
def isLogicError (msg : String) : Bool := decide (msg ∈ ["length_error", "out_of_range"])

/-- What is printed for an exception of a call (cli/GenexCLI.cpp:837-848); nothing is known after undefined behaviour. -/
def message : Fault → Option (List (Piece K))
  | .genex m => some [.str "Error! ", .str m, .endl]
  | .std m =>
    if isLogicError m then some notNumeric
    else some [.str "Error! ", .str m, .endl]
  | .ub _ => none
  | .diverge => none

/-- `tooFewArgs`, `tooManyArgs` (cli/GenexCLI.cpp:38-54). -/
def countMessage (args : List String) (lo hi : ℕ) : Option String :=
  if args.length - 1 < lo then some "Error! Too few arguments"
  else if hi < args.length - 1 then some "Error! Too many arguments"
  else none

/-- The numbers of arguments allowed, in the order of `commands`. -/
def limits : List (String × (ℕ × ℕ)) :=
  [("load", 2, 6), ("save", 2, 3), ("unload", 1, 1), ("list", 1, 1), ("timer", 0, 1), ("distance", 8, 9), ("group", 2, 3),
   ("saveGroups", 2, 3), ("loadGroups", 2, 2), ("normalize", 1, 1), ("sim", 3, 5), ("ksim", 4, 7), ("ksimBF", 4, 7), ("print", 4, 4)]

/-- What a command prints before it returns `false`: the count, or cli/GenexCLI.cpp:208 (`list`), 243 (`timer`), 434 (`sim`, without
`endl`). -/
def refusal (args : List String) : List (Piece K) :=
  let l := (limits.lookup (arg args 0)).getD (0, 0)
  match countMessage args l.1 l.2 with
  | some m => [.str m, .endl]
  | none =>
    if arg args 0 = "list" then [.str "Error! Unknown object: ", .str (arg args 1), .endl]
    else if arg args 0 = "timer" then [.str "Error! Argument for timer must be 'on' or 'off'", .endl]
    else [.str "Both starting and ending positions must be provided."]

/-- `gTimerEnabled` after `timer` (cli/GenexCLI.cpp:225-246). -/
def timerAfter (args : List String) (timer : Bool) : Bool :=
  if args.length = 1 then timer else if arg args 1 = "on" then true else if arg args 1 = "off" then false else timer

/-- `showAllHelps` (cli/GenexCLI.cpp:724-740): the map is in the order of the names. -/
def allHelps : List (Piece K) :=
  [.str "Use 'help <command>' to see help for a command", .endl, .endl, .pad 15 [.str "help"], .summary "help", .endl,
    .pad 15 [.str "exit|quit "], .summary "exit", .endl, .endl] ++
  (["distance", "group", "ksim", "ksimBF", "list", "load", "loadGroups", "normalize", "print", "save", "saveGroups", "sim", "timer",
      "unload"].map fun c => [Piece.pad 15 [.str c], .summary c, .endl]).flatten

/-- `showHelp` (cli/GenexCLI.cpp:703-722). -/
def showHelp (c : String) : List (Piece K) :=
  if c = "help" then [.summary c, .endl, .help c, .endl]
  else if c = "exit" ∨ c = "quit" then [.summary "exit", .endl, .help "exit", .endl]
  else if (limits.lookup c).isSome then [.summary c, .endl, .help c]
  else [.str "Error! Cannot find help for command: ", .str c, .endl]

/-- What `processLine` and the handlers in `main` print (cli/GenexCLI.cpp:742-787, 833-849), from the state before, given how the call
went: the pieces, the timer and the precision afterwards; `none` after undefined behaviour. -/
def output [Zero K] (P : CliEnv K) (c : Console K) (line : String) (o : Outcome K) : Option (List (Piece K) × Bool × ℕ) :=
  let args := splitLine line
  let said := fun (ps : List (Piece K)) => some (ps ++ [Piece.endl], c.timer, c.digits)
  match processLine P line with
  | .quit | .skip => said []
  | .help =>
    if args.length = 1 then said allHelps
    else if args.length = 2 then said (showHelp (arg args 1))
    else said [.str "Error! Too many arguments for 'help'", .endl]
  | .unknown => said [.str "Error! Cannot find command: ", .str (arg args 0), .endl]
  | .run (.ok .usage) => said (refusal args ++ [.endl, .help (arg args 0)])
  | .run (.ok .nothing) =>
    let t := timerAfter args c.timer
    some ([.str "Timer is ", .str (if t then "ON" else "OFF"), .endl, .endl], t, c.digits)
  | .run (.error _) => said notNumeric -- `stoi` and `stod` throw `std::invalid_argument` and `std::out_of_range`
  | .run (.ok (.call a)) =>
    match o with
    | .reply (.ret (.ok out)) =>
      let r := report c.timer c.digits args a out
      some (before a ++ r.1 ++ [.endl], c.timer, r.2)
    | .reply (.ret (.error e)) => (message e).bind fun m => said (before a ++ m)
    | _ => none

variable [Field K] [LinearOrder K] [HasSqrt K] [Arith K] [BandOps]

/-- One turn of the loop in `main` with what is printed. -/
def Says (E : Env K) (P : CliEnv K) (c : Console K) (line : String) (c' : Console K) (ps : List (Piece K)) (o : Outcome K) : Prop :=
  Turn E P c.api line c'.api o ∧ output P c line o = some (ps, c'.timer, c'.digits)

/-- `wantToQuitByEOF` (cli/GenexCLI.cpp:789-804): the lines typed, `none` for the end of input, which after the last line comes again and
again.  Simplified: `delete` of what `readline` has allocated with `malloc` is taken to free it. -/
def asked : List (Option String) → Bool × List (Option String)
  | [] => (true, [])
  | none :: ls => (true, ls)
  | some l :: ls => if l = "y" ∨ l = "" then (true, ls) else if l = "n" then (false, ls) else asked ls

theorem asked_length (ls : List (Option String)) : (asked ls).2.length ≤ ls.length := by
  induction ls with
  | nil => exact le_refl _
  | cons l ls ih =>
    cases l with
    | none => exact Nat.le_succ _
    | some l =>
      simp only [asked]
      split
      · exact Nat.le_succ _
      split
      · exact Nat.le_succ _
      · exact Nat.le_succ_of_le ih

/-- `main` (cli/GenexCLI.cpp:806-858): the lines typed lead from a state to the end of the program, with what is printed on the way; the
files may change between the lines. -/
inductive Main (E : Env K) (P : ℕ → CliEnv K) : ℕ → Console K → List (Option String) → Console K → List (Piece K) → Prop
  | typed {n : ℕ} {c c' d : Console K} {l : String} {ls : List (Option String)} {ps qs : List (Piece K)} {o : Outcome K} :
      Says E (P n) c l c' ps o → o ≠ .ended → Main E P (n + 1) c' ls d qs →
      Main E P n c (some l :: ls) d (ps ++ qs)
  | quit {n : ℕ} {c c' : Console K} {l : String} {ls : List (Option String)} {ps : List (Piece K)} :
      Says E (P n) c l c' ps .ended → Main E P n c (some l :: ls) c' ps
  | stay {n : ℕ} {c d : Console K} {l : List (Option String)} {qs : List (Piece K)} :
      (asked l).1 = false → Main E P (n + 1) c (asked l).2 d qs → Main E P n c (none :: l) d (.endl :: qs)
  | leave {n : ℕ} {c : Console K} {l : List (Option String)} : (asked l).1 = true → Main E P n c (none :: l) c [.endl]
  | eof {n : ℕ} {c : Console K} : Main E P n c [] c [.endl]

end Cli

end Genex
