import Verif.Model.Serialize
import Verif.Model.ThreadPool
import Verif.Spec.Dataset

/-!
# Specification: datasets with usable groups
-/

namespace Genex.Spec

open Genex

variable {K : Type} [Field K] [LinearOrder K] [HasSqrt K]

/-- Objects with the series `rows` that were grouped, with this distance, threshold and choice of lengths, or into which the
saved groups of such an object were loaded.  A grouping of whole series that was loaded forgets that it is one, so what is
saved from it is not considered. -/
inductive Ready [Arith K] (rows : List (List (Dbl K))) (name : String) (t : Dbl K) (whole : Bool) : GSet K → Prop
  | grouped (s : GSet K) (H : Holds s.ds rows) (hmax : 0 ≤ s.ds.maxCol) (ratio : ℚ) (log : ℕ → Bool) (numThreads : Int)
      (out : GSet K × Res Int) (ho : GSet.GroupAll ratio log name t whole numThreads s out) (N : Int) (hN : out.2 = .ok N) :
      Ready rows name t whole out.1
  | loaded (z : GSet K) (hz : Ready rows name t whole z) (hw : ∀ gs, z.groups = some gs → gs.whole = whole)
      (dst : GSet K) (H : Holds dst.ds rows) (hmax : dst.ds.maxCol = z.ds.maxCol) :
      Ready rows name t whole (dst.load z.save.1).1

/-- Two groupings are the same: distance, threshold, number of groups; for every length the same groups in the same order,
with the same representative, the same number of members and the same members, in some order. -/
structure SameGrouping (ds ds' : Dataset K) (gs gs' : GSpace K) : Prop where
  name : gs'.distanceName = gs.distanceName
  pairwise : gs'.pairwise = gs.pairwise
  warped : gs'.warped = gs.warped
  threshold : gs'.threshold = gs.threshold
  total : gs'.total = gs.total
  size : gs'.spaces.length = gs.spaces.length
  off : ∀ ℓ : ℕ, gs.spaces[ℓ]? = some none → gs'.spaces[ℓ]? = some none
  on : ∀ (ℓ : ℕ) sp, gs.spaces[ℓ]? = some (some sp) → ∃ sp', gs'.spaces[ℓ]? = some (some sp') ∧
    sp'.length = sp.length ∧ sp'.groups.length = sp.groups.length ∧
    ∀ (j : ℕ) g g', sp.groups[j]? = some g → sp'.groups[j]? = some g' → g'.groupIndex = g.groupIndex ∧
      g'.centroid = g.centroid ∧ g'.count = g.count ∧ ∃ members members', LocalSpace.getMembers ds sp g = .ok members ∧
      LocalSpace.getMembers ds' sp' g' = .ok members' ∧ members'.Perm members

end Genex.Spec
