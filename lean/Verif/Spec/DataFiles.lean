import Verif.Spec.Archives
import Verif.Spec.NumberText

/-!
# Specification: datasets kept in a text file between sessions
-/

namespace Genex.Spec

open Genex Genex.Cli Genex.Registry

section

variable {K : Type} [Field K] [LinearOrder K] [HasSqrt K] [Arith K] [BandOps]

/-- The names in the column before the numbers. -/
def titles (content : Text) (sep : List Char) (maxNumRow : Int) (startCol : ℕ) (hasName : Bool) : List Text :=
  if hasName then (firstLines maxNumRow content).map (fun l => (columns sep l).getD startCol []) else []

/-- As `LoadedBy`, for a file with these names. -/
inductive NamedBy (E : Env K) (name : String) (ns : List Text) : List (Entered K) → List (List K) → Prop
  | load {h₁ h₂ : List (Entered K)} {e : Entered K} {args : List String} {content path : Text} {sep : List Char} {maxNumRow : Int}
      {startCol : ℕ} {hasName : Bool} {rows : List (List K)} (typed : e.Typed args)
      (usage : Manual.Usage e.env args (.call (.call (.load name (some content) path sep maxNumRow startCol hasName))))
      (file : FileHas E.parse content sep maxNumRow startCol hasName rows) (names : ns = titles content sep maxNumRow startCol hasName)
      (fine : e.Fine) (keeps : ∀ x ∈ h₂, ¬ x.Touches ["load", "unload", "normalize"] name) : NamedBy E name ns (h₁ ++ e :: h₂) rows
  | normalize {h₁ h₂ : List (Entered K)} {e : Entered K} {raw rows : List (List K)} (before : NamedBy E name ns h₁ raw)
      (typed : e.Typed ["normalize", name]) (scaled : Scales raw rows) (fine : e.Fine)
      (keeps : ∀ x ∈ h₂, ¬ x.Touches ["load", "unload", "normalize"] name) : NamedBy E name ns (h₁ ++ e :: h₂) rows

/-- The file that a line `save` has left after the lines `h`, with this character between the numbers. -/
def SavesAs (E : Env K) (S : Screen K) (h : List (Entered K)) (name : String) (sep : Char) (text : Text) : Prop :=
  ∃ (c d : Console K) (P : CliEnv K) (line : String) (args : List String) (ps : List (Piece K)), Terminal E S Console.fresh h c ∧
    Manual.Words line.toList (args.map String.toList) ∧ Manual.Usage P args (.call (.call (.save name sep))) ∧
    Says E P c line d ps (.reply (.ret (.ok (.text text))))

end

end Genex.Spec
