import Verif.Model.Api

/-!
# The command line program (cli/GenexCLI.cpp)

What a line asks of the interface.  What is printed is in `Model/CliOutput.lean`; the history of the terminal is not modelled.
-/

namespace Genex

variable {K : Type}

/-- What the commands need from outside: the conversions `stoi` and `stod`, which throw, the files, and
`std::thread::hardware_concurrency()`. -/
structure CliEnv (K : Type) where
  stoi : String → Res Int
  stod : String → Res (Dbl K)
  text : String → Option Text
  archive : String → Option (List (Tok K))
  words : String → Option (List (Lex K))
  opens : String → Bool
  threads : Int

/-- What a command does: it prints its usage, does nothing with the interface, or makes a call. -/
inductive Action (K : Type) where
  | usage
  | nothing
  | call (c : Api.AnyCall K)

namespace Cli

/-- `tooFewArgs(args, lo) || tooManyArgs(args, hi)` (cli/GenexCLI.cpp:38-54). -/
def badCount (args : List String) (lo hi : ℕ) : Bool := decide (args.length - 1 < lo) || decide (hi < args.length - 1)

/-- `args[i]`. -/
def arg (args : List String) (i : ℕ) : String := args.getD i ""

/-- `boost::replace_all(separators, "\\s", " ")`. -/
def blanks : List Char → List Char
  | '\\' :: 's' :: cs => ' ' :: blanks cs
  | c :: cs => c :: blanks cs
  | [] => []

/-- `args.size() > i ? stoi(args[i]) : d`. -/
def optInt (P : CliEnv K) (args : List String) (i : ℕ) (d : Int) : Res Int :=
  if i < args.length then P.stoi (arg args i) else .ok d

/-- The separators, cli/GenexCLI.cpp:85, 90, 132-133. -/
def separators (args : List String) : List Char := blanks (if 3 < args.length then (arg args 3).toList else [' '])

/-- `load` (cli/GenexCLI.cpp:76-103). -/
def load (P : CliEnv K) (args : List String) : Res (Action K) :=
  if badCount args 2 6 then .ok .usage
  else do
    let maxNumRow ← optInt P args 4 0
    let startCol ← optInt P args 5 0
    let hasNameCol ← optInt P args 6 0
    .ok (.call (.call (.load (arg args 1) (P.text (arg args 2)) (arg args 2).toList (separators args) maxNumRow startCol
      (decide (hasNameCol ≠ 0)))))

/-- `save` (cli/GenexCLI.cpp:123-140). -/
def save (args : List String) : Res (Action K) :=
  if badCount args 2 3 then .ok .usage
  else .ok (.call (.call (.save (arg args 1) ((separators args).headD '\x00'))))

/-- `unload` (cli/GenexCLI.cpp:151-164). -/
def unload (args : List String) : Res (Action K) :=
  if badCount args 1 1 then .ok .usage else .ok (.call (.call (.unload (arg args 1))))

/-- `list` (cli/GenexCLI.cpp:173-212). -/
def list (args : List String) : Res (Action K) :=
  if badCount args 1 1 then .ok .usage
  else if arg args 1 = "dataset" then .ok (.call (.call .allInfo))
  else if arg args 1 = "distance" then .ok (.call (.call .allDistances))
  else .ok .usage

/-- `timer` (cli/GenexCLI.cpp:219-248). -/
def timer (args : List String) : Res (Action K) :=
  if badCount args 0 1 then .ok .usage
  else if args.length = 1 then .ok .nothing
  else if arg args 1 = "on" then .ok .nothing
  else if arg args 1 = "off" then .ok .nothing
  else .ok .usage

/-- `distance` (cli/GenexCLI.cpp:259-284). -/
def distance (P : CliEnv K) (args : List String) : Res (Action K) :=
  if badCount args 8 9 then .ok .usage
  else do
    let idx1 ← P.stoi (arg args 2)
    let start1 ← P.stoi (arg args 3)
    let end1 ← P.stoi (arg args 4)
    let idx2 ← P.stoi (arg args 6)
    let start2 ← P.stoi (arg args 7)
    let end2 ← P.stoi (arg args 8)
    .ok (.call (.call (.distance (arg args 1) idx1 start1 end1 (arg args 5) idx2 start2 end2
      (if args.length = 10 then arg args 9 else "euclidean_dtw"))))

/-- `group` (cli/GenexCLI.cpp:302-323). -/
def group (P : CliEnv K) (args : List String) : Res (Action K) :=
  if badCount args 2 3 then .ok .usage
  else do
    let threshold ← P.stod (arg args 2)
    .ok (.call (.group (arg args 1) threshold (if args.length = 4 then arg args 3 else "euclidean") P.threads false))

/-- `saveGroups` (cli/GenexCLI.cpp:337-355). -/
def saveGroups (P : CliEnv K) (args : List String) : Res (Action K) :=
  if badCount args 2 3 then .ok .usage
  else do
    let sizeOnly ← optInt P args 3 0
    if sizeOnly ≠ 0 then .ok (.call (.call (.saveGroupsOld (arg args 1) true (P.words (arg args 2)) (P.opens (arg args 2)))))
    else .ok (.call (.call (.saveGroups (arg args 1) (P.archive (arg args 2)) (P.opens (arg args 2)))))

/-- `loadGroups` (cli/GenexCLI.cpp:367-382). -/
def loadGroups (P : CliEnv K) (args : List String) : Res (Action K) :=
  if badCount args 2 2 then .ok .usage
  else .ok (.call (.call (.loadGroups (arg args 1) (P.archive (arg args 2)))))

/-- `normalize` (cli/GenexCLI.cpp:394-407). -/
def normalize (args : List String) : Res (Action K) :=
  if badCount args 1 1 then .ok .usage else .ok (.call (.call (.normalize (arg args 1))))

/-- `sim` (cli/GenexCLI.cpp:415-450). -/
def sim (P : CliEnv K) (args : List String) : Res (Action K) :=
  if badCount args 3 5 then .ok .usage
  else do
    let index ← P.stoi (arg args 3)
    if args.length = 6 then do
      let start ← P.stoi (arg args 4)
      let stop ← P.stoi (arg args 5)
      .ok (.call (.call (.bestMatch (arg args 1) (arg args 2) index start stop)))
    else if args.length = 5 then .ok .usage
    else .ok (.call (.call (.bestMatch (arg args 1) (arg args 2) index (-1) (-1))))

/-- `start`, `end` and `ke` of `ksim`, cli/GenexCLI.cpp:476-492. -/
def ksimRange (P : CliEnv K) (args : List String) (k : Int) : Res (Int × Int × Int) :=
  if args.length = 6 then do
    let ke ← P.stoi (arg args 5)
    .ok (-1, -1, ke)
  else if args.length = 7 then do
    let start ← P.stoi (arg args 5)
    let stop ← P.stoi (arg args 6)
    .ok (start, stop, k)
  else if 7 < args.length then do
    let ke ← P.stoi (arg args 7)
    .ok (-1, -1, ke)
  else .ok (-1, -1, k)

/-- `ksim` (cli/GenexCLI.cpp:465-511). -/
def ksim (P : CliEnv K) (args : List String) : Res (Action K) :=
  if badCount args 4 7 then .ok .usage
  else do
    let k ← P.stoi (arg args 1)
    let index ← P.stoi (arg args 4)
    let r ← ksimRange P args k
    .ok (.call (.call (.kBest k r.2.2 (arg args 2) (arg args 3) index r.1 r.2.1)))

/-- `start` and `end` of `ksimBF`, cli/GenexCLI.cpp:541-548. -/
def bfRange (P : CliEnv K) (args : List String) : Res (Int × Int) :=
  if args.length = 7 then do
    let start ← P.stoi (arg args 5)
    let stop ← P.stoi (arg args 6)
    .ok (start, stop)
  else .ok (-1, -1)

/-- `ksimBF` (cli/GenexCLI.cpp:528-569); the distance is the default of genex/GenexAPI.hpp:317. -/
def ksimBF (P : CliEnv K) (args : List String) : Res (Action K) :=
  if badCount args 4 7 then .ok .usage
  else do
    let k ← P.stoi (arg args 1)
    let index ← P.stoi (arg args 4)
    let r ← bfRange P args
    .ok (.call (.call (.bruteForce k (arg args 2) (arg args 3) index r.1 r.2 "euclidean")))

/-- `print` (cli/GenexCLI.cpp:584-599). -/
def print (P : CliEnv K) (args : List String) : Res (Action K) :=
  if badCount args 4 4 then .ok .usage
  else do
    let index ← P.stoi (arg args 2)
    let start ← P.stoi (arg args 3)
    let stop ← P.stoi (arg args 4)
    .ok (.call (.call (.series (arg args 1) index start stop)))

/-- `commands` (cli/GenexCLI.cpp:673-688). -/
def commands (P : CliEnv K) : List (String × (List String → Res (Action K))) :=
  [("load", load P), ("save", save), ("unload", unload), ("list", list), ("timer", timer), ("distance", distance P),
   ("group", group P), ("saveGroups", saveGroups P), ("loadGroups", loadGroups P), ("normalize", normalize), ("sim", sim P),
   ("ksim", ksim P), ("ksimBF", ksimBF P), ("print", print P)]

/-- What a line does. -/
inductive LineAct (K : Type) where
  | quit
  | help
  | skip
  | unknown
  | run (a : Res (Action K))

/-- `boost::tokenizer` with `char_separator(" ")`: the parts between blanks that are not empty. -/
def tokens : List Char → List Char → List (List Char)
  | [], cur => if cur = [] then [] else [cur.reverse]
  | c :: cs, cur => if c = ' ' then (if cur = [] then tokens cs [] else cur.reverse :: tokens cs []) else tokens cs (c :: cur)

/-- `args`. -/
def splitLine (line : String) : List String := (tokens line.toList []).map String.ofList

/-- `processLine` (cli/GenexCLI.cpp:742-789). -/
def processLine (P : CliEnv K) (line : String) : LineAct K :=
  match splitLine line with
  | [] => .skip
  | a :: as =>
    if (a.toList.take 2 = ['/', '/']) then .skip
    else if a = "quit" ∨ a = "exit" then .quit
    else if a = "help" then .help
    else match (commands P).lookup a with
      | none => .unknown
      | some f => .run (f (a :: as))

/-- What the user sees of a line: the end of the program, nothing from the interface, the answer of the interface, or a message
for the exception of a conversion. -/
inductive Outcome (K : Type) where
  | ended
  | message
  | reply (r : Reply K)
  | caught (e : Fault)

variable [Field K] [LinearOrder K] [HasSqrt K] [Arith K] [BandOps]

/-- One turn of the loop in `main` (cli/GenexCLI.cpp:818-856): every exception is caught there. -/
def Turn (E : Env K) (P : CliEnv K) (s : Api K) (line : String) (s' : Api K) (o : Outcome K) : Prop :=
  match processLine P line with
  | .quit => s' = s ∧ o = .ended
  | .run (.ok (.call c)) => ∃ r, Api.Step E s c s' r ∧ o = .reply r
  | .run (.error e) => s' = s ∧ o = .caught e
  | _ => s' = s ∧ o = .message

end Cli

end Genex
