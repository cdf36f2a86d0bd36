import Verif.Spec.Terminal

/-!
# Specification: groups kept in a file between sessions
-/

namespace Genex.Spec

open Genex Genex.Cli Genex.Registry

variable {K : Type} [Field K] [LinearOrder K] [HasSqrt K] [Arith K] [BandOps]

/-- The longest line of the file has `w` numbers, the lines that `load` was told to leave out included. -/
def Widest (content : Text) (sep : List Char) (startCol : ℕ) (hasName : Bool) (w : ℕ) : Prop :=
  IsGreatest {n | ∃ l ∈ linesOf content, n = (columns sep l).length} (valueCol startCol hasName + w)

/-- As `LoadedBy`, for a file whose longest line has `w` numbers. -/
inductive WidthBy (E : Env K) (name : String) (w : ℕ) : List (Entered K) → List (List K) → Prop
  | load {h₁ h₂ : List (Entered K)} {e : Entered K} {args : List String} {content path : Text} {sep : List Char} {maxNumRow : Int}
      {startCol : ℕ} {hasName : Bool} {rows : List (List K)} (typed : e.Typed args)
      (usage : Manual.Usage e.env args (.call (.call (.load name (some content) path sep maxNumRow startCol hasName))))
      (file : FileHas E.parse content sep maxNumRow startCol hasName rows) (widest : Widest content sep startCol hasName w) (fine : e.Fine)
      (keeps : ∀ x ∈ h₂, ¬ x.Touches ["load", "unload", "normalize"] name) : WidthBy E name w (h₁ ++ e :: h₂) rows
  | normalize {h₁ h₂ : List (Entered K)} {e : Entered K} {raw rows : List (List K)} (before : WidthBy E name w h₁ raw)
      (typed : e.Typed ["normalize", name]) (scaled : Scales raw rows) (fine : e.Fine)
      (keeps : ∀ x ∈ h₂, ¬ x.Touches ["load", "unload", "normalize"] name) : WidthBy E name w (h₁ ++ e :: h₂) rows

/-- The rows have been loaded under the name, then `loadGroups` has been typed for a file with this content, and no line after it loads,
unloads, normalizes or groups that name or loads groups for it.  Nothing is said about what `loadGroups` has shown. -/
def RestoredBy (E : Env K) (h : List (Entered K)) (name : String) (rows : List (List K)) (w : ℕ) (f : List (Tok K)) : Prop :=
  ∃ (h₁ h₂ : List (Entered K)) (e : Entered K) (path : String), h = h₁ ++ e :: h₂ ∧ WidthBy E name w h₁ rows ∧
    e.Typed ["loadGroups", name, path] ∧ e.env.archive path = some f ∧
    ∀ x ∈ h₂, ¬ x.Touches ["load", "unload", "normalize", "group", "loadGroups"] name

/-- The file that a line `saveGroups` has left after the lines `h`. -/
def Leaves (E : Env K) (S : Screen K) (h : List (Entered K)) (name : String) (f : List (Tok K)) : Prop :=
  ∃ (c d : Console K) (P : CliEnv K) (line path : String) (ps : List (Piece K)), Terminal E S Console.fresh h c ∧
    Manual.Words line.toList (["saveGroups", name, path].map String.toList) ∧
    Says E P c line d ps (.reply (.ret (.ok (.file (some f)))))

/-- The file was left by a session in which the rows were loaded and grouped, or by one into which the groups had been loaded from such a
file, and so on. -/
inductive Archived (E : Env K) (S : Screen K) (rows : List (List K)) (w : ℕ) (distance : String) (t : Dbl K) : List (Tok K) → Prop
  | grouped {h : List (Entered K)} {name : String} {f : List (Tok K)} (grouped : GroupedBy E h name rows distance t)
      (width : WidthBy E name w h rows) (leaves : Leaves E S h name f) : Archived E S rows w distance t f
  | again {h : List (Entered K)} {name : String} {f f' : List (Tok K)} (before : Archived E S rows w distance t f)
      (restored : RestoredBy E h name rows w f) (leaves : Leaves E S h name f') : Archived E S rows w distance t f'

end Genex.Spec
