import Verif.Model.BruteForce

/-!
# Distances in rounded arithmetic (genex/distance)

The same code as in Model/Distance and Model/LowerBounds, with the result of every arithmetic operation on `data_t` rounded by
`rd`.  `warpedDistance` and `pairwiseDistance` do arithmetic on `data_t` only through the metric class, so they are reused as
they are.  `pow(x, 2)` is one multiplication (what g++ makes of it), `sqrt` is correctly rounded, no operations are fused,
integers are converted exactly.  Finite operands never overflow here.
-/

namespace Genex

open Dbl

variable {K : Type}

/-- Rounding of a result; the special values are not changed. -/
def rnd (rd : K → K) : Dbl K → Dbl K
  | fin x => fin (rd x)
  | x => x

variable [Field K] [LinearOrder K] (rd : K → K)

/-- `Euclidean::dist` (genex/distance/Euclidean.hpp:14-17). -/
def eucDistR (x y : Dbl K) : Dbl K := rnd rd (rnd rd (x - y) * rnd rd (x - y))

/-- `Euclidean::normDTW` (genex/distance/Euclidean.hpp:34-37). -/
def eucNormDTWR [HasSqrt K] (total : Dbl K) (l1 l2 : ℕ) : Dbl K :=
  rnd rd (rnd rd (Dbl.sqrt total) / Dbl.ofNat (2 * max l1 l2))

/-- genex/distance/Euclidean.hpp:11-45. -/
def euclideanR [HasSqrt K] : DM K where
  S := Dbl K
  unset := some 0
  init := 0
  reduce := fun p x y => rnd rd (p + eucDistR rd x y)
  norm := fun t l1 l2 => rnd rd (Dbl.sqrt (rnd rd (t / Dbl.ofNat (max l1 l2))))
  normDTW := eucNormDTWR rd
  inverseNorm := some (fun d l1 l2 => rnd rd (rnd rd (d * d) * Dbl.ofNat (max l1 l2)), id)

/-- genex/distance/Manhattan.hpp:11-41. -/
def manhattanR : DM K where
  S := Dbl K
  unset := some 0
  init := 0
  reduce := fun p x y => rnd rd (p + Dbl.abs (rnd rd (x - y)))
  norm := fun t l1 l2 => rnd rd (t / Dbl.ofNat (max l1 l2))
  normDTW := fun t l1 l2 => rnd rd (t / Dbl.ofNat (2 * max l1 l2))
  inverseNorm := none

/-- genex/distance/Chebyshev.hpp:11-42. -/
def chebyshevR : DM K where
  S := Dbl K
  unset := some 0
  init := .ninf
  reduce := fun p x y => Dbl.stdMax p (Dbl.abs (rnd rd (x - y)))
  norm := fun t _ _ => t
  normDTW := fun t _ _ => t
  inverseNorm := none

/-- genex/distance/Cosine.hpp:11-43. -/
def cosineR [HasSqrt K] : DM K where
  S := Dbl K × Dbl K × Dbl K
  unset := none
  init := (0, 0, 0)
  reduce := fun p x y => (rnd rd (p.1 + rnd rd (x * x)), rnd rd (p.2.1 + rnd rd (y * y)), rnd rd (p.2.2 + rnd rd (x * y)))
  norm := fun t _ _ => rnd rd (t.2.2 / rnd rd (Dbl.sqrt (rnd rd (t.1 * t.2.1))))
  normDTW := fun t _ _ => rnd rd (t.2.2 / rnd rd (Dbl.sqrt (rnd rd (t.1 * t.2.1))))
  inverseNorm := none

/-- genex/distance/Sorensen.hpp:11-42. -/
def sorensenR : DM K where
  S := Dbl K × Dbl K
  unset := none
  init := (0, 0)
  reduce := fun p x y => (rnd rd (p.1 + Dbl.abs (rnd rd (x - y))), rnd rd (p.2 + Dbl.abs (rnd rd (x + y))))
  norm := fun t _ _ => rnd rd (t.1 / t.2)
  normDTW := fun t _ _ => rnd rd (t.1 / t.2)
  inverseNorm := none

variable [HasSqrt K]

/-- The template argument `DM`. -/
def Metric.dmR : Metric → DM K
  | .euclidean => euclideanR rd
  | .manhattan => manhattanR rd
  | .chebyshev => chebyshevR rd
  | .cosine => cosineR rd
  | .sorensen => sorensenR rd

/-- `kimLowerBound` (genex/distance/Distance.cpp:97-110). -/
def kimLowerBoundR (a b : List (Dbl K)) : Dbl K :=
  let al := a.length
  let bl := b.length
  let l := min al bl
  let result : Dbl K :=
    if l = 1 then eucDistR rd (at' a 0) (at' b 0)
    else if 1 < l then rnd rd (eucDistR rd (at' a 0) (at' b 0) + eucDistR rd (at' a (al - 1)) (at' b (bl - 1)))
    else 0
  eucNormDTWR rd result al bl

/-- The loop of `keoghLowerBound` (genex/distance/Distance.cpp:122-131). -/
def keoghLoopR (lower upper : OutArr K) (b : List (Dbl K)) (idropout : Dbl K) : List ℕ → Dbl K → Res (Dbl K)
  | [], lb => .ok lb
  | i :: is, lb =>
    if lb < idropout then do
      let bi := at' b i
      let up ← outGet upper i
      if up < bi then keoghLoopR lower upper b idropout is (rnd rd (lb + eucDistR rd bi up))
      else do
        let lo ← outGet lower i
        if bi < lo then keoghLoopR lower upper b idropout is (rnd rd (lb + eucDistR rd bi lo))
        else keoghLoopR lower upper b idropout is lb
    else .ok lb

/-- `keoghLowerBound` (genex/distance/Distance.cpp:112-133). -/
def keoghLowerBoundR [BandOps] (ratio : ℚ) (a b : List (Dbl K)) (dropout : Dbl K) : Res (Dbl K) := do
  let len := min a.length b.length
  let warpingBand := band ratio (max a.length b.length : ℕ)
  let env ← keoghLU a warpingBand
  let idropout := rnd rd (rnd rd (dropout * Dbl.ofNat 2) * Dbl.ofNat (max a.length b.length))
  let lb ← keoghLoopR rd env.1 env.2 b (rnd rd (idropout * idropout)) (List.range len) 0
  .ok (eucNormDTWR rd lb a.length b.length)

/-- `crossKeoghLowerBound` (genex/distance/Distance.cpp:135-144). -/
def crossKeoghLowerBoundR [BandOps] (ratio : ℚ) (a b : List (Dbl K)) (dropout : Dbl K) : Res (Dbl K) := do
  let lb ← keoghLowerBoundR rd ratio a b dropout
  if dropout < lb then .ok .inf
  else do
    let lb' ← keoghLowerBoundR rd ratio b a dropout
    .ok (stdMax lb lb')

/-- `cascadeDistance` (genex/distance/Distance.cpp:146-163): the value and the contents of `matching`. -/
def cascadeDistanceR [BandOps] (ratio : ℚ) (a b : List (Dbl K)) (dropout : Dbl K) (matching : List (ℕ × ℕ)) :
    Res (Dbl K × List (ℕ × ℕ)) :=
  if dropout < kimLowerBoundR rd a b then .ok (.inf, matching)
  else
    match crossKeoghLowerBoundR rd ratio a b dropout with
    | .error e => .error e
    | .ok lb =>
      if dropout < lb then .ok (.inf, matching)
      else warpedDistance (euclideanR rd) ratio a b dropout matching

/-- A call through the function pointer stored for a table entry, value only. -/
def DistRef.evalR [BandOps] (ratio : ℚ) : DistRef → List (Dbl K) → List (Dbl K) → Dbl K → Res (Dbl K)
  | .pairwise m, a, b, d => pairwiseDistance (m.dmR rd) a b d
  | .warped m, a, b, d => warpedValue (m.dmR rd) ratio a b d
  | .cascade, a, b, d => (cascadeDistanceR rd ratio a b d []).map Prod.fst

/-- The same call for its matching. -/
def DistRef.matchingR [BandOps] (ratio : ℚ) : DistRef → List (Dbl K) → List (Dbl K) → Res (List (ℕ × ℕ))
  | .pairwise m, a, b => (pairwiseDistance (m.dmR rd) a b .inf).map (fun _ => [])
  | .warped m, a, b => (warpedDistance (m.dmR rd) ratio a b .inf []).map Prod.snd
  | .cascade, a, b => (cascadeDistanceR rd ratio a b .inf []).map Prod.snd

/-- `normalize` (genex/TimeSeriesSet.cpp:198-293): the new dataset and `(MIN, MAX)`. -/
def Dataset.normalizeR (ds : Dataset K) : Res (Dataset K × (Dbl K × Dbl K)) := do
  if ds.itemCount = 0 then .error (.genex "No data to normalize")
  else do
    let cs ← ds.cells
    let m ← cs.foldlM ds.minMaxStep (.inf, .ninf)
    let diff := rnd rd (m.2 - m.1)
    let ds' ←
      if Dbl.eqD diff 0 then
        if Dbl.eqD m.2 0 then .ok ds
        else cs.foldlM (fun (d : Dataset K) (c : Int) => d.write c 0) ds
      else cs.foldlM (fun (d : Dataset K) (c : Int) => do
        let x ← d.read c
        d.write c (rnd rd (rnd rd (x - m.1) / diff))) ds
    .ok ({ ds' with normalized := true }, m)

/-- The interface, grouping and the searches with the distances and `normalize` in rounded arithmetic.  What they compute themselves is not rounded: half of the
threshold is exact in binary (genex/group/LocalLengthGroupSpace.cpp:93). -/
@[reducible] def roundedArith [HasSqrt K] [BandOps] : Arith K :=
  ⟨fun ratio ref => ref.evalR rd ratio, fun ratio ref => ref.matchingR rd ratio, fun ds => ds.normalizeR rd⟩

/-- The distances that grouping and the searches compute are rounded by `rd`. -/
def Rounds [HasSqrt K] [Arith K] [BandOps] : Prop := ∀ ratio ref (a b : List (Dbl K)) d, Arith.eval ratio ref a b d = ref.evalR rd ratio a b d

/-- `candidate_time_series_t::operator<` (genex/TimeSeries.hpp:212-227): the difference and the constant `1e-9` are rounded. -/
def Cand.ltR (a b : Cand K) : Prop :=
  if Dbl.abs (rnd rd (a.dist - b.dist)) < .fin (rd eps) then
    if a.view.index = b.view.index then
      if a.view.start = b.view.start then a.view.length < b.view.length
      else a.view.start < b.view.start
    else a.view.index < b.view.index
  else a.dist < b.dist

instance : DecidableRel (Cand.ltR (K := K) rd) := fun a b => by
  unfold Cand.ltR; infer_instance

end Genex
