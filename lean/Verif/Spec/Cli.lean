import Verif.Model.Cli
import Verif.Spec.Api

/-!
# The usage of the commands, as their help texts say

One constructor per form of a command.  Only the vocabulary of calls comes from the model.
-/

namespace Genex.Manual

open Genex.Api Genex.Registry

variable {K : Type}

/-- "A list of characters used to separate values in the file.  Use "\s" to specify space." -/
inductive Escapes : List Char → List Char → Prop
  | nil : Escapes [] []
  | space {a b : List Char} : Escapes a b → Escapes ('\\' :: 's' :: a) (' ' :: b)
  | char {c : Char} {a b : List Char} : ¬ (c = '\\' ∧ a.head? = some 's') → Escapes a b → Escapes (c :: a) (c :: b)

/-- "Boolean to indicate whether ..." -/
def flag (n : Int) : Bool := n != 0

/-- The forms of `ksim`: `ksim <k> <target_name> <query_name> <query_index> [<start> <end>] [<ke>]`. -/
def ksimForm (k target query index : String) (range : Option (String × String)) (ke : Option String) : List String :=
  ["ksim", k, target, query, index] ++ (match range with | none => [] | some (a, b) => [a, b]) ++
    (match ke with | none => [] | some x => [x])

/-- An optional number, with its default. -/
def Opt (P : CliEnv K) (d : Int) : Option String → Int → Prop
  | none, n => n = d
  | some x, n => P.stoi x = .ok n

/-- An optional range, by default the whole series. -/
def OptRange (P : CliEnv K) : Option (String × String) → Int → Int → Prop
  | none, a, b => a = -1 ∧ b = -1
  | some (x, y), a, b => P.stoi x = .ok a ∧ P.stoi y = .ok b

/-- A command with its arguments and what the help says it does, for the commands other than `ksim`. -/
inductive Usage (P : CliEnv K) : List String → Action K → Prop
  | load0 (n p : String) : Usage P ["load", n, p] (.call (.call (.load n (P.text p) p.toList [' '] 0 0 false)))
  | load1 (n p sep : String) {cs : List Char} : Escapes sep.toList cs →
      Usage P ["load", n, p, sep] (.call (.call (.load n (P.text p) p.toList cs 0 0 false)))
  | load2 (n p sep r : String) {cs : List Char} {rows : Int} : Escapes sep.toList cs → P.stoi r = .ok rows →
      Usage P ["load", n, p, sep, r] (.call (.call (.load n (P.text p) p.toList cs rows 0 false)))
  | load3 (n p sep r c : String) {cs : List Char} {rows col : Int} : Escapes sep.toList cs → P.stoi r = .ok rows →
      P.stoi c = .ok col → Usage P ["load", n, p, sep, r, c] (.call (.call (.load n (P.text p) p.toList cs rows col false)))
  | load4 (n p sep r c h : String) {cs : List Char} {rows col hasName : Int} : Escapes sep.toList cs → P.stoi r = .ok rows →
      P.stoi c = .ok col → P.stoi h = .ok hasName →
      Usage P ["load", n, p, sep, r, c, h] (.call (.call (.load n (P.text p) p.toList cs rows col (flag hasName))))
  | save0 (n p : String) : Usage P ["save", n, p] (.call (.call (.save n ' ')))
  | save1 (n p sep : String) {c : Char} : Escapes sep.toList [c] → Usage P ["save", n, p, sep] (.call (.call (.save n c)))
  | unload (n : String) : Usage P ["unload", n] (.call (.call (.unload n)))
  | listDataset : Usage P ["list", "dataset"] (.call (.call .allInfo))
  | listDistance : Usage P ["list", "distance"] (.call (.call .allDistances))
  | timer : Usage P ["timer"] .nothing
  | timerOn : Usage P ["timer", "on"] .nothing
  | timerOff : Usage P ["timer", "off"] .nothing
  | distance0 (n₁ i₁ s₁ e₁ n₂ i₂ s₂ e₂ : String) {a b c d e f : Int} : P.stoi i₁ = .ok a → P.stoi s₁ = .ok b →
      P.stoi e₁ = .ok c → P.stoi i₂ = .ok d → P.stoi s₂ = .ok e → P.stoi e₂ = .ok f →
      Usage P ["distance", n₁, i₁, s₁, e₁, n₂, i₂, s₂, e₂] (.call (.call (.distance n₁ a b c n₂ d e f "euclidean")))
  | distance1 (n₁ i₁ s₁ e₁ n₂ i₂ s₂ e₂ dist : String) {a b c d e f : Int} : P.stoi i₁ = .ok a → P.stoi s₁ = .ok b →
      P.stoi e₁ = .ok c → P.stoi i₂ = .ok d → P.stoi s₂ = .ok e → P.stoi e₂ = .ok f →
      Usage P ["distance", n₁, i₁, s₁, e₁, n₂, i₂, s₂, e₂, dist] (.call (.call (.distance n₁ a b c n₂ d e f dist)))
  | group0 (n t : String) {x : Dbl K} : P.stod t = .ok x →
      Usage P ["group", n, t] (.call (.group n x "euclidean" P.threads false))
  | group1 (n t dist : String) {x : Dbl K} : P.stod t = .ok x →
      Usage P ["group", n, t, dist] (.call (.group n x dist P.threads false))
  | saveGroups0 (n p : String) : Usage P ["saveGroups", n, p] (.call (.call (.saveGroups n (P.archive p) (P.opens p))))
  | saveGroups1 (n p f : String) : P.stoi f = .ok 0 →
      Usage P ["saveGroups", n, p, f] (.call (.call (.saveGroups n (P.archive p) (P.opens p))))
  | saveGroups2 (n p f : String) {x : Int} : P.stoi f = .ok x → x ≠ 0 →
      Usage P ["saveGroups", n, p, f] (.call (.call (.saveGroupsOld n true (P.words p) (P.opens p))))
  | loadGroups (n p : String) : Usage P ["loadGroups", n, p] (.call (.call (.loadGroups n (P.archive p))))
  | normalize (n : String) : Usage P ["normalize", n] (.call (.call (.normalize n)))
  | sim0 (t q i : String) {x : Int} : P.stoi i = .ok x → Usage P ["sim", t, q, i] (.call (.call (.bestMatch t q x (-1) (-1))))
  | sim1 (t q i s e : String) {x a b : Int} : P.stoi i = .ok x → P.stoi s = .ok a → P.stoi e = .ok b →
      Usage P ["sim", t, q, i, s, e] (.call (.call (.bestMatch t q x a b)))
  | ksimBF0 (k t q i : String) {n x : Int} : P.stoi k = .ok n → P.stoi i = .ok x →
      Usage P ["ksimBF", k, t, q, i] (.call (.call (.bruteForce n t q x (-1) (-1) "euclidean")))
  | ksimBF1 (k t q i s e : String) {n x a b : Int} : P.stoi k = .ok n → P.stoi i = .ok x → P.stoi s = .ok a →
      P.stoi e = .ok b → Usage P ["ksimBF", k, t, q, i, s, e] (.call (.call (.bruteForce n t q x a b "euclidean")))
  | print (n i s e : String) {x a b : Int} : P.stoi i = .ok x → P.stoi s = .ok a → P.stoi e = .ok b →
      Usage P ["print", n, i, s, e] (.call (.call (.series n x a b)))

/-- The words of a line: maximal runs of characters other than blanks. -/
inductive Words : List Char → List (List Char) → Prop
  | nil : Words [] []
  | blank {l : List Char} {ws : List (List Char)} : Words l ws → Words (' ' :: l) ws
  | last {w : List Char} : w ≠ [] → ' ' ∉ w → Words w [w]
  | word {w l : List Char} {ws : List (List Char)} : w ≠ [] → ' ' ∉ w → Words l ws → Words (w ++ ' ' :: l) (w :: ws)

variable [Field K] [LinearOrder K] [HasSqrt K] [Arith K] [BandOps]

/-- The user goes on typing after this outcome. -/
def GoesOn : Cli.Outcome K → Prop
  | .ended => False
  | .reply r => Survives r
  | _ => True

/-- A session: lines, each with the files and conversions at its time, from a state to a state. -/
inductive Session (E : Env K) : Api K → List (CliEnv K × String) → Api K → Prop
  | nil (s : Api K) : Session E s [] s
  | snoc {s t u : Api K} {h : List (CliEnv K × String)} {P : CliEnv K} {line : String} {o : Cli.Outcome K} :
      Session E s h t → Cli.Turn E P t line u o → GoesOn o → Session E s (h ++ [(P, line)]) u

end Genex.Manual
