import Verif.Model.LowerBounds

/-!
# The global `gNoMatching` (genex/distance/Distance.cpp:164, genex/distance/Distance.hpp:327)

Callers that want no matching pass this vector by reference.
-/

namespace Genex

variable {K : Type} [Field K] [LinearOrder K] [HasSqrt K]

/-- The contents of `gNoMatching` when the program starts (genex/distance/Distance.cpp:164). -/
def gNoMatching : List (ℕ × ℕ) := [(0, 0)]

/-- A call through a function pointer with the vector that is passed for the matching: value and vector afterwards.
`pairwiseDistance` does not touch it (genex/distance/Distance.hpp:227-304). -/
def DistRef.call [BandOps] (ratio : ℚ) (ref : DistRef) (a b : List (Dbl K)) (d : Dbl K) (g : List (ℕ × ℕ)) :
    Res (Dbl K × List (ℕ × ℕ)) :=
  match ref with
  | .pairwise m => (pairwiseDistance (m.dm K) a b d).map (fun v => (v, g))
  | .warped m => warpedDistance (m.dm K) ratio a b d g
  | .cascade => cascadeDistance ratio a b d g

/-- Calls one after the other, all with `gNoMatching`: the values and the vector at the end. -/
def calls [BandOps] (ratio : ℚ) : List (DistRef × List (Dbl K) × List (Dbl K) × Dbl K) → List (ℕ × ℕ) →
    Res (List (Dbl K) × List (ℕ × ℕ))
  | [], g => .ok ([], g)
  | c :: cs, g => do
    let r ← c.1.call ratio c.2.1 c.2.2.1 c.2.2.2 g
    let s ← calls ratio cs r.2
    .ok (r.1 :: s.1, s.2)

end Genex
