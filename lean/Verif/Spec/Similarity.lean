import Verif.Spec.Align
import Verif.Model.Dbl

/-! # Specification: cosine and Sorensen -/

namespace Genex.Spec

variable {K : Type} [Field K] [LinearOrder K]

/-- Inner product. -/
def dot (a b : List K) : K := (List.zipWith (fun x y => x * y) a b).sum

/-- Cosine of the angle of two vectors. -/
def cosineOf [HasSqrt K] (a b : List K) : K := dot a b / (HasSqrt.sqrt (dot a a) * HasSqrt.sqrt (dot b b))

/-- Sorensen's (Bray and Curtis's) dissimilarity of two series of abundances. -/
def sorensenOf (a b : List K) : K := (List.zipWith (fun x y => |x - y|) a b).sum / (a.sum + b.sum)

/-- The same along an alignment. -/
def sorensenAlong (a b : List K) (p : List (ℕ × ℕ)) : K :=
  (p.map fun c => |a.getD c.1 0 - b.getD c.2 0|).sum / (p.map fun c => a.getD c.1 0 + b.getD c.2 0).sum

/-- The cosine along an alignment: that of the two series with points repeated as the alignment says. -/
def cosineAlong [HasSqrt K] (a b : List K) (p : List (ℕ × ℕ)) : K :=
  cosineOf (p.map fun c => a.getD c.1 0) (p.map fun c => b.getD c.2 0)

end Genex.Spec
