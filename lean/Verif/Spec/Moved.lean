import Verif.Spec.Search

/-!
# Specification: numbers that are changed a little
-/

namespace Genex.Spec

variable {K : Type} [Field K] [LinearOrder K]

/-- Two series of one length, no point of which is moved by more than `δ`. -/
def Moved (δ : K) (a a' : List K) : Prop := List.Forall₂ (fun x y => |y - x| ≤ δ) a a'

/-- The same for all series of a dataset. -/
def MovedAll (δ : K) (rows rows' : List (List K)) : Prop := List.Forall₂ (Moved δ) rows rows'

end Genex.Spec
