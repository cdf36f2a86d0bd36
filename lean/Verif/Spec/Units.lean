import Mathlib.Algebra.Field.Defs
import Mathlib.Data.List.Forall2

/-!
# Specification: other units

Nothing here refers to the model.
-/

namespace Genex.Spec

variable {K : Type} [Field K]

/-- The same numbers in a unit of another size, counted from another zero. -/
def Converted (s c : K) (a a' : List K) : Prop := a' = a.map fun x => s * x + c

/-- All rows. -/
def ConvertedAll (s c : K) (rows rows' : List (List K)) : Prop := List.Forall₂ (Converted s c) rows rows'

end Genex.Spec
