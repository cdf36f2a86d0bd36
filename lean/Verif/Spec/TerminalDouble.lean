import Verif.Spec.Terminal
import Verif.Spec.Double

/-!
# Specification: a session at the terminal, in the arithmetic of `double`

As `Spec/Terminal`, with the sizes of the file and the rounding of `normalize`.
-/

namespace Genex.Spec

open Genex Genex.Cli Genex.Registry

variable {K : Type} [Field K] [LinearOrder K] [FloorRing K] [HasSqrt K] [Arith K] [BandOps]

/-- A file has been loaded under the name, the numbers scaled in double arithmetic if it has been normalized after that; these are `rows`.
The numbers in the file are doubles of at most `2 ^ 480`, no line has more than `W` columns, and the whole has at most `2 ^ 52` cells.  There
was no error on the screen, and no line after it loads, unloads or normalizes that name. -/
inductive ServedBy (E : Env K) (name : String) (W : ℕ) : List (Entered K) → List (List K) → Prop
  | load {h₁ h₂ : List (Entered K)} {e : Entered K} {args : List String} {content path : Text} {sep : List Char} {maxNumRow : Int}
      {startCol : ℕ} {hasName : Bool} {rows : List (List K)} (typed : e.Typed args)
      (usage : Manual.Usage e.env args (.call (.call (.load name (some content) path sep maxNumRow startCol hasName))))
      (file : FileHas E.parse content sep maxNumRow startCol hasName rows) (sized : Sized roundDouble (2 ^ 480) rows)
      (wide : ∀ l ∈ firstLines 0 content, (columns sep l).length ≤ W) (cells : (firstLines 0 content).length * W ≤ 2 ^ 52) (fine : e.Fine)
      (keeps : ∀ x ∈ h₂, ¬ x.Touches ["load", "unload", "normalize"] name) : ServedBy E name W (h₁ ++ e :: h₂) rows
  | normalize {h₁ h₂ : List (Entered K)} {e : Entered K} {raw rows : List (List K)} (before : ServedBy E name W h₁ raw)
      (typed : e.Typed ["normalize", name]) (scaled : Scaled roundDouble raw rows) (fine : e.Fine)
      (keeps : ∀ x ∈ h₂, ¬ x.Touches ["load", "unload", "normalize"] name) : ServedBy E name W (h₁ ++ e :: h₂) rows

/-- After that it has been grouped, as in `GroupedBy`. -/
def ServedGroups (E : Env K) (h : List (Entered K)) (name : String) (W : ℕ) (rows : List (List K)) (distance : String) (t : Dbl K) : Prop :=
  ∃ (h₁ h₂ : List (Entered K)) (e : Entered K) (args : List String) (threads : Int), h = h₁ ++ e :: h₂ ∧ ServedBy E name W h₁ rows ∧
    e.Typed args ∧ Manual.Usage e.env args (.call (.group name t distance threads false)) ∧ e.Fine ∧
    ∀ x ∈ h₂, ¬ x.Touches ["load", "unload", "normalize", "group", "loadGroups"] name

/-- The query typed: these points of a row of a dataset that is served. -/
def AsksServed (E : Env K) (h : List (Entered K)) (name : String) (index a b : Int) (q : List K) : Prop :=
  ∃ (W : ℕ) (rows : List (List K)) (i : ℕ) (r : List K), ServedBy E name W h rows ∧ index = i ∧ rows[i]? = some r ∧ Range r a b q

end Genex.Spec
