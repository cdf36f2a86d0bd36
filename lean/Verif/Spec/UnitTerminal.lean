import Verif.Spec.Terminal

/-!
# Specification: a whole file loaded and grouped at the terminal
-/

namespace Genex.Spec

open Genex Genex.Cli Genex.Registry

variable {K : Type} [Field K] [LinearOrder K] [HasSqrt K] [Arith K] [BandOps]

/-- All lines of a file, `rows`, have been loaded under the name and then grouped without an error on the screen; no line in between loads,
unloads or normalizes that name, and no line after it loads, unloads, normalizes or groups it or loads groups for it. -/
def GroupedWholly (E : Env K) (h : List (Entered K)) (name : String) (rows : List (List K)) (distance : String) (t : Dbl K) : Prop :=
  ∃ (h₁ h₂ h₃ : List (Entered K)) (e₁ e₂ : Entered K) (args₁ args₂ : List String) (content path : Text) (sep : List Char) (maxNumRow : Int)
    (startCol : ℕ) (hasName : Bool) (threads : Int), h = (h₁ ++ e₁ :: h₂) ++ e₂ :: h₃ ∧ e₁.Typed args₁ ∧
    Manual.Usage e₁.env args₁ (.call (.call (.load name (some content) path sep maxNumRow startCol hasName))) ∧ maxNumRow ≤ 0 ∧
    FileHas E.parse content sep maxNumRow startCol hasName rows ∧ e₁.Fine ∧
    (∀ x ∈ h₂, ¬ x.Touches ["load", "unload", "normalize"] name) ∧
    e₂.Typed args₂ ∧ Manual.Usage e₂.env args₂ (.call (.group name t distance threads false)) ∧ e₂.Fine ∧
    ∀ x ∈ h₃, ¬ x.Touches ["load", "unload", "normalize", "group", "loadGroups"] name

end Genex.Spec
