import Mathlib.Algebra.Order.Field.Basic
import Mathlib.Algebra.BigOperators.Group.List.Basic
import Verif.Model.Dbl

/-!
# Specification: textbook pairwise distances of two series of one length
-/

namespace Genex.Spec

variable {K : Type} [Field K] [LinearOrder K]

/-- Root mean square difference. -/
def rms [HasSqrt K] (a b : List K) : K :=
  HasSqrt.sqrt ((List.zipWith (fun x y => (x - y) ^ 2) a b).sum / a.length)

/-- Mean absolute difference. -/
def meanAbs (a b : List K) : K := (List.zipWith (fun x y => |x - y|) a b).sum / a.length

/-- Largest absolute difference. -/
def maxAbs (a b : List K) : K := (List.zipWith (fun x y => |x - y|) a b).foldr max 0

end Genex.Spec
