import Verif.Lemmas.CachedSearch
import Verif.Props.Group

/-!
# C67: a search does not depend on earlier searches
-/

set_option linter.unusedSectionVars false

namespace Genex.Props

open Dbl

section

variable {K : Type} [Field K] [LinearOrder K] [HasSqrt K]

/-- C67: the data and the groups after any history are as if no search had been made. -/
theorem C67_state (c : CSet K) (evs : List (CSet.Ev K)) : (evs.foldl CSet.after c).set = evs.foldl Spec.plainAfter c.set := by
  induction evs generalizing c with
  | nil => rfl
  | cons e evs ih => rw [List.foldl_cons, List.foldl_cons, ih, after_set]

/-- C67, part: after any history of searches, groupings and normalisations in which every normalisation is followed by a grouping or
loading, searches give what they give on the same data and groups with no envelope kept.  Missing: searches after a normalisation
without grouping again (`C67_false`). -/
theorem C67_partial (s : GSet K) (evs : List (CSet.Ev K)) (hr : Spec.Regrouped evs) [BandOps] (ratio : ℚ) (query : List (Dbl K)) :
    let c := evs.foldl CSet.after ⟨s, fun _ _ => none⟩
    let s' := evs.foldl Spec.plainAfter s
    (c.getBestMatch ratio query).1 = s'.getBestMatch ratio query ∧
      ∀ A B k h, (c.getKBestMatches A B ratio query k h).1 = s'.getKBestMatches A B ratio query k h := by
  have hf := fresh_run ⟨s, fun _ _ => none⟩ evs hr (.inl (fresh_new s))
  have hs := C67_state (⟨s, fun _ _ => none⟩ : CSet K) evs
  simp only at hs ⊢
  rw [← hs]
  exact ⟨(CSet.best_fresh hf ratio query).1, fun A B k h => (CSet.kBest_fresh hf A B ratio query k h).1⟩

end

/-- Two series of two points. -/
def exFlat : Dataset ℚ := (Dataset.loadData exParse (some "a 0 0\nb 0 4\n".toList) [] 0 0 [' '] true Dataset.fresh).1

/-- Grouped by one thread with threshold 1/2. -/
def exFlatGroups : Option (GSpace ℚ) :=
  ((⟨exFlat, none⟩ : GSet ℚ).groupAllLengths (GSpace.group exFlat 0 (fun _ => false) "euclidean" (fin (1 / 2)) false)
    (fun _ => (GSpace.fresh, .ok 0)) 1).1.groups

/-- Grouped, searched once, normalised. -/
def exStale : List (CSet.Ev ℚ) := [.regroup exFlatGroups, .best 0 [fin 0, fin 4], .normalize]

/-- C67 is false: the dataset is grouped, searched, normalised and searched again.  The query is one of the series, and the search finds
the other one, because the envelope of the right centroid is still that of the data before the normalisation. -/
theorem C67_false : ∃ (s : GSet ℚ) (evs : List (CSet.Ev ℚ)) (query : List (Dbl ℚ)),
    ((evs.foldl CSet.after ⟨s, fun _ _ => none⟩).getBestMatch 0 query).1 = .ok ⟨⟨0, 0, 0, 2⟩, fin (1 / 4)⟩ ∧
    (evs.foldl Spec.plainAfter s).getBestMatch 0 query = .ok ⟨⟨2, 1, 0, 2⟩, 0⟩ ∧
    (evs.foldl Spec.plainAfter s).ds.points ⟨2, 1, 0, 2⟩ = .ok query :=
  ⟨⟨exFlat, none⟩, exStale, [fin 0, fin 1], by decide +kernel, by decide +kernel, by decide +kernel⟩

/-- The history of `C67_false` with the dataset grouped again at the end. -/
example := C67_partial (⟨exFlat, none⟩ : GSet ℚ) (exStale ++ [.regroup exFlatGroups]) (by
  intro pre post h
  refine ⟨exFlatGroups, ?_⟩
  have hm : (CSet.Ev.regroup exFlatGroups) ∈ (exStale ++ [CSet.Ev.regroup exFlatGroups]) := by simp
  have hl : (exStale ++ [CSet.Ev.regroup exFlatGroups]).getLast? = some (.regroup exFlatGroups) := by simp
  rw [h] at hl
  cases post with
  | nil => simp at hl
  | cons p ps =>
    rw [List.getLast?_append_cons, List.getLast?_cons_cons] at hl
    exact List.mem_of_getLast? hl) 0 [fin 0, fin 1]

end Genex.Props
