import Verif.Model.CachedSearch

/-!
# What searches may do to a grouped dataset: nothing
-/

namespace Genex.Spec

variable {K : Type} [Field K] [LinearOrder K] [HasSqrt K]

/-- Groups and data after an event, if searches change nothing. -/
def plainAfter (s : GSet K) : CSet.Ev K → GSet K
  | .regroup g => { s with groups := g }
  | .best _ _ => s
  | .kBest _ _ _ _ _ _ => s
  | .normalize =>
    match s.ds.normalize with
    | .error _ => s
    | .ok r => { s with ds := r.1 }

/-- After every normalisation the dataset is grouped again. -/
def Regrouped (evs : List (CSet.Ev K)) : Prop :=
  ∀ pre post, evs = pre ++ .normalize :: post → ∃ g, .regroup g ∈ post

end Genex.Spec
