import Verif.Tests.Harness

/-!
# The tests of the groups (/repo/test/group)
-/

namespace Genex.Tests.Groups

open Genex Dbl Genex.Tests

def eucPair : DistRef := .pairwise .euclidean
def eucWarp : DistRef := .warped .euclidean

/-! ## GroupsTest.cpp -/

def five : Dataset ℚ := (loaded (some test510Space) 5 0 " ").1
def three : Dataset ℚ := (loaded (some test310Space) 3 0 " ").1

/-- The space of one length with one new group. -/
def oneGroup (ds : Dataset ℚ) (len : Int) (c : Int × Int) : Res (LocalSpace ℚ) := do
  (← LocalSpace.new ds len).pushGroup ds c

/-- The group with the given number and the points of its centroid. -/
def centroid (ds : Dataset ℚ) (sp : LocalSpace ℚ) (i : Int) : Res (List (Dbl ℚ)) := do
  (← sp.getGroup i).centroidPts ds

-- `basic_groups`
#guard five.maxCol = 10
#guard five.itemCount = 5
#guard (Group.fresh 0 5 : Group ℚ).centroidPts five = .ok (ser [0, 0, 0, 0, 0])
#guard (do
  let sp ← (← oneGroup five 5 (0, 0)).addMember 0 (0, 0)
  .ok ((← sp.getGroup 0).count, ← centroid five sp 0)) = .ok (1, ser [1, 2, 3, 4, 5])
#guard (do
  let sp ← (← (← oneGroup five 5 (0, 0)).addMember 0 (0, 0)).addMember 0 (1, 0)
  .ok (← sp.getGroup 0).count) = .ok 2

-- `group_get_best_match`
#guard gives (do
  let sp ← (← (← oneGroup three 10 (2, 0)).addMember 0 (2, 0)).addMember 0 (0, 0)
  let c ← sp.getBestMatch three (1 / 10) eucWarp (← series three 1 0 10) (← sp.getGroup 0)
  .ok c.dist) (1 / 20)

-- `group_save_and_load`
def saved : Res (LocalSpace ℚ) := do
  (← (← oneGroup three 4 (1, 2)).addMember 0 (0, 0)).addMember 0 (2, 4)

#guard (do
  let sp ← saved
  let sp2 ← LocalSpace.load three 4 sp.save.1
  let g ← sp.getGroup 0
  let g2 ← sp2.1.getGroup 0
  let m ← sp.getMembers three g
  let m2 ← sp2.1.getMembers three g2
  .ok (decide (g.count = g2.count ∧ sp.length = sp2.1.length ∧ m2.length = 2 ∧ m.all (· ∈ m2)) &&
    decide (g.centroidPts three = g2.centroidPts three))) = .ok true

/-! ## LocalLengthGroupSpaceTest.cpp -/

def same : Dataset ℚ := (loaded (some testGroup510Space) 5 0 " ").1
def diff : Dataset ℚ := (loaded (some testGroup510DifferentSpace) 5 0 " ").1

/-- The groups of length 10 with threshold 0.5. -/
def ten (ds : Dataset ℚ) (ratio : ℚ) (ref : DistRef) : Res (LocalSpace ℚ) := do
  let sp ← LocalSpace.new ds 10
  let r := sp.generateGroups ds ratio ref (.fin (1 / 2)) false
  let _ ← r.2
  .ok r.1

-- `local_length_group_space`, `local_length_group_space_different`
#guard (LocalSpace.new same 10).map (fun sp => sp.groups.length) = .ok 0
#guard (ten same (1 / 10) eucPair).map (fun sp => sp.groups.length) = .ok 1
#guard (ten diff (1 / 10) eucPair).map (fun sp => sp.groups.length) = .ok 2

/-- The number of the group nearest to a subsequence. -/
def nearest (index start stop : Int) : Res (Option ℕ) := do
  let sp ← ten diff (1 / 10) eucWarp
  (sp.getBestGroup diff 1 eucWarp (← series diff index start stop) .inf).map Prod.snd

-- `groups_best_group`
#guard ([(1, 0, 10), (1, 0, 9), (1, 0, 8), (1, 0, 6), (1, 0, 5), (1, 0, 4), (1, 4, 10), (1, 5, 10), (0, 3, 7)] :
    List (Int × Int × Int)).all (fun c => nearest c.1 c.2.1 c.2.2 = .ok (some 0))
#guard ([(4, 0, 10), (4, 0, 9), (4, 0, 8), (4, 0, 6), (4, 0, 5), (4, 0, 4), (4, 4, 10), (4, 5, 10), (4, 6, 10)] :
    List (Int × Int × Int)).all (fun c => nearest c.1 c.2.1 c.2.2 = .ok (some 1))

-- `groups_save_and_load`
#guard (do
  let sp ← ten diff (1 / 10) eucWarp
  let sp2 ← LocalSpace.load diff 10 sp.save.1
  .ok (sp.groups.length, sp2.1.groups.length)) = .ok (2, 2)

/-! ## GlobalGroupSpaceTest.cpp -/

/-- All lengths with threshold 0.5; the ratio is that at the start of the program. -/
def all5 : GSpace ℚ × Res Int := GSpace.fresh.group diff (1 / 10) (fun _ => false) "euclidean" (.fin (1 / 2)) false

/-- The distance of the best match. -/
def bestDist (q : Res (List (Dbl ℚ))) : Res (Dbl ℚ) := do
  (all5.1.getBestMatch diff (1 / 10) (← q)).map Cand.dist

-- `local_length_group_space`; with several threads the same groups are found (C52), so the second test has the same outcome
#guard diff.itemCount = 5
#guard diff.maxCol = 10
#guard ([(0, 0, 10), (0, 4, 10), (0, 6, 9), (0, 2, 10), (0, 3, 7), (4, 0, 10), (4, 4, 10), (4, 6, 10), (4, 2, 10), (4, 3, 7)] :
    List (Int × Int × Int)).all (fun c => bestDist (series diff c.1 c.2.1 c.2.2) = .ok (.fin 0))
#guard match bestDist (.ok (ser [110, 116, 118, 117, 33 / 2, 112, 112])) with
  | .ok d => decide ((0 : Dbl ℚ) < d)
  | _ => false

-- `traverse_order`
#guard generateTraverseOrder (2 / 5) 3 7 = .ok [3, 2, 4, 5]

/-- The first five rows of ItalyPowerDemand_DATA. -/
def italy : Dataset ℚ := (loaded (some italyPowerDemandData) 5 0 " ").1

-- `global_group_space_save_load`
#guard (do
  let gs := (GSpace.fresh.group italy (1 / 10) (fun _ => false) "euclidean" (.fin (1 / 2)) false).1
  let r := GSpace.load italy GSpace.fresh gs.save.1
  let _ ← r.2
  let q ← series italy 0 4 10
  let a ← gs.getBestMatch italy (1 / 10) q
  let b ← r.1.getBestMatch italy (1 / 10) q
  .ok (decide (a = b ∧ gs.distanceName = r.1.distanceName ∧ gs.threshold = r.1.threshold ∧ gs.total = r.1.total ∧ 0 < gs.total)))
  = .ok true

/-! ## GroupableTimeSeriesSetTest.cpp -/

def three0 : GSet ℚ := ⟨(loaded (some test310Space) 0 0 " ").1, none⟩

/-- Normalise. -/
def norm (s : GSet ℚ) : Res (GSet ℚ) := s.ds.normalize.map (fun r => { s with ds := r.1 })

-- `groupable_time_series_set_load_space`
#guard (loaded (some test1020Space) 20 0 " ").1.itemCount = 10

-- `groupable_time_series_grouping_and_reset`
#guard match (grouped (1 / 10) three0 "euclidean" (1 / 2)) with
  | (s, .ok n) => decide (2 < n ∧ s.totalGroups = n)
  | _ => false

-- `groupable_time_series_not_grouped_exception`
#guard throws (do three0.getBestMatch (1 / 10) (← series three0.ds 0))

-- `basic_get_best_match`
#guard (do
  let s := (grouped (1 / 10) (← norm three0) "euclidean" (1 / 2)).1
  (s.getBestMatch (1 / 10) (← series s.ds 0)).map Cand.dist) = .ok (.fin 0)

-- `groupable_time_series_save_load`: the groups are loaded before the data is normalised
#guard (do
  let s := (grouped (1 / 10) (← norm three0) "euclidean" (1 / 10)).1
  let q ← series s.ds 0
  let best ← s.getBestMatch (1 / 10) q
  let r := three0.loadFromFile (s.saveToFile none true).1
  let _ ← r.2
  let s2 ← norm r.1
  let best2 ← s2.getBestMatch (1 / 10) q
  .ok (decide (best = best2 ∧ s.totalGroups = s2.totalGroups) &&
    decide (s.groups.map GSpace.distanceName = s2.groups.map GSpace.distanceName ∧
      s.groups.map GSpace.threshold = s2.groups.map GSpace.threshold)))
  = .ok true

-- `groupable_time_series_save_load_incompatible`
#guard throws (do
  let s := (grouped (1 / 10) (← norm three0) "euclidean" (1 / 10)).1
  ((⟨(loaded (some test1020Space) 0 0 " ").1, none⟩ : GSet ℚ).loadFromFile (s.saveToFile none true).1).2)

end Genex.Tests.Groups
