import Verif.Model.OldFormat
import Verif.Spec.Ready

/-!
# Specification: groups from a text file
-/

namespace Genex.Spec

open Genex

variable {K : Type} [Field K] [LinearOrder K] [HasSqrt K]

/-- The number a word stands for. -/
def numberOf : Lex K → Option (Dbl K)
  | .int z => some (.fin (z : K))
  | .num _ d => some d
  | .word _ => none

/-- Every point of the series is read back from sixteen digits as `f` says. -/
def ReadsBack (P : Printer K) (rows : List (List (Dbl K))) (f : Dbl K → Dbl K) : Prop :=
  ∀ r ∈ rows, ∀ x ∈ r, numberOf (P.high x) = some (f x)

/-- The object if a threshold that is not initialised happens to be `v`. -/
def leftover (v : Dbl K) (s : GSet K) : GSet K :=
  { s with groups := s.groups.map (fun gs => { gs with threshold := some (gs.threshold.getD v) }) }

/-- `gs'` is the grouping `gs` except for the threshold, which is not initialised, the mark of a grouping of whole series, which is lost,
and the centroids, which are copies, each point changed by `f`. -/
structure SameButCopies (f : Dbl K → Dbl K) (ds ds' : Dataset K) (gs gs' : GSpace K) : Prop where
  name : gs'.distanceName = gs.distanceName
  pairwise : gs'.pairwise = gs.pairwise
  warped : gs'.warped = gs.warped
  threshold : gs'.threshold = none
  whole : gs'.whole = false
  total : gs'.total = gs.total
  size : gs'.spaces.length = gs.spaces.length
  off : ∀ ℓ : ℕ, gs.spaces[ℓ]? = some none → gs'.spaces[ℓ]? = some none
  on : ∀ (ℓ : ℕ) sp, gs.spaces[ℓ]? = some (some sp) → ∃ sp', gs'.spaces[ℓ]? = some (some sp') ∧
    sp'.length = sp.length ∧ sp'.groups.length = sp.groups.length ∧
    ∀ (j : ℕ) g g', sp.groups[j]? = some g → sp'.groups[j]? = some g' → g'.groupIndex = g.groupIndex ∧ g'.count = g.count ∧
      (∃ v pts, g.centroid = .view v ∧ ds.points v = .ok pts ∧ g'.centroid = .own (pts.map f)) ∧
      ∃ members members', LocalSpace.getMembers ds sp g = .ok members ∧
      LocalSpace.getMembers ds' sp' g' = .ok members' ∧ members'.Perm members

end Genex.Spec
