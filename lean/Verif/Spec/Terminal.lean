import Verif.Spec.CliOutput
import Verif.Spec.EndToEnd

/-!
# Specification: a session at the terminal

What a person at the terminal knows: the lines typed and the text that came after each.
-/

namespace Genex.Spec

open Genex Genex.Cli Genex.Registry

/-- A line, with the files and conversions at its time, and the text that came after it. -/
structure Entered (K : Type) where
  env : CliEnv K
  line : String
  text : Text

variable {K : Type} [Field K] [LinearOrder K] [HasSqrt K] [Arith K] [BandOps]

/-- Lines typed one after another, from a state of the program to another.  The program goes on after each of them. -/
inductive Terminal (E : Env K) (S : Screen K) : Console K → List (Entered K) → Console K → Prop
  | nil (c : Console K) : Terminal E S c [] c
  | snoc {c d e : Console K} {h : List (Entered K)} {P : CliEnv K} {line : String} {ps : List (Piece K)} {o : Outcome K} :
      Terminal E S c h d → '\n' ∉ line.toList → Says E P d line e ps o → o ≠ .ended →
      Terminal E S c (h ++ [⟨P, line, Piece.texts S ps⟩]) e

/-- The words typed. -/
def Entered.Typed (e : Entered K) (args : List String) : Prop := Manual.Words e.line.toList (args.map String.toList)

/-- No line of the text begins with "Error! ". -/
def Entered.Fine (e : Entered K) : Prop := ¬ HasLine "Error! " e.text

/-- The line begins with one of the commands and the name. -/
def Entered.Touches (commands : List String) (name : String) (e : Entered K) : Prop :=
  ∃ cmd ∈ commands, ∃ ws, Manual.Words e.line.toList (cmd.toList :: name.toList :: ws)

/-- A file has been loaded under the name, the numbers scaled if it has been normalized after that; these are `rows`.  There was no error
on the screen, and no line after it loads, unloads or normalizes that name. -/
inductive LoadedBy (E : Env K) (name : String) : List (Entered K) → List (List K) → Prop
  | load {h₁ h₂ : List (Entered K)} {e : Entered K} {args : List String} {content path : Text} {sep : List Char} {maxNumRow : Int}
      {startCol : ℕ} {hasName : Bool} {rows : List (List K)} (typed : e.Typed args)
      (usage : Manual.Usage e.env args (.call (.call (.load name (some content) path sep maxNumRow startCol hasName))))
      (file : FileHas E.parse content sep maxNumRow startCol hasName rows) (fine : e.Fine)
      (keeps : ∀ x ∈ h₂, ¬ x.Touches ["load", "unload", "normalize"] name) : LoadedBy E name (h₁ ++ e :: h₂) rows
  | normalize {h₁ h₂ : List (Entered K)} {e : Entered K} {raw rows : List (List K)} (before : LoadedBy E name h₁ raw)
      (typed : e.Typed ["normalize", name]) (scaled : Scales raw rows) (fine : e.Fine)
      (keeps : ∀ x ∈ h₂, ¬ x.Touches ["load", "unload", "normalize"] name) : LoadedBy E name (h₁ ++ e :: h₂) rows

/-- After that it has been grouped without an error on the screen, and no line after it loads, unloads, normalizes or groups that name or
loads groups for it. -/
def GroupedBy (E : Env K) (h : List (Entered K)) (name : String) (rows : List (List K)) (distance : String) (t : Dbl K) : Prop :=
  ∃ (h₁ h₂ : List (Entered K)) (e : Entered K) (args : List String) (threads : Int), h = h₁ ++ e :: h₂ ∧ LoadedBy E name h₁ rows ∧
    e.Typed args ∧ Manual.Usage e.env args (.call (.group name t distance threads false)) ∧ e.Fine ∧
    ∀ x ∈ h₂, ¬ x.Touches ["load", "unload", "normalize", "group", "loadGroups"] name

/-- The points from `a` to `b` of the row; the whole row for `-1` and `-1`. -/
def Range (r : List K) (a b : Int) (q : List K) : Prop :=
  (a = -1 ∧ b = -1 ∧ q = r) ∨ ∃ p e : ℕ, a = p ∧ b = e ∧ p < e ∧ e ≤ r.length ∧ q = (r.drop p).take (e - p)

/-- The query typed: these points of a row of a dataset that is loaded. -/
def Asks (E : Env K) (h : List (Entered K)) (name : String) (index a b : Int) (q : List K) : Prop :=
  ∃ (rows : List (List K)) (i : ℕ) (r : List K), LoadedBy E name h rows ∧ index = i ∧ rows[i]? = some r ∧ Range r a b q

/-- The band of the program, which no command changes. -/
def cliBand : ℚ := 1 / 10

end Genex.Spec
