import Verif.Model.RoundedData

/-!
# Arithmetic that overflows

The code of Model/Rounded and Model/RoundedData once more, now with any function `r` applied to the result of every arithmetic operation
on `data_t`.  With `rnd rd` it is the same as there; with `rndMax rd max` a result beyond the greatest finite number `max` becomes an
infinity, as in IEEE 754 (rounded first as if there were no limit).
-/

namespace Genex

open Dbl

variable {K : Type}

/-- Rounding, and overflow beyond `max`. -/
def rndMax [Neg K] [LinearOrder K] (rd : K → K) (max : K) : Dbl K → Dbl K
  | fin x => if max < rd x then inf else if rd x < -max then ninf else fin (rd x)
  | x => x

/-- The greatest finite `double`. -/
def maxDouble [Field K] : K := (2 ^ 53 - 1) * 2 ^ 971

variable [Field K] [LinearOrder K] (r : Dbl K → Dbl K)

/-- `Euclidean::dist` (genex/distance/Euclidean.hpp:14-17). -/
def eucDistW (x y : Dbl K) : Dbl K := r (r (x - y) * r (x - y))

/-- `Euclidean::normDTW` (genex/distance/Euclidean.hpp:34-37). -/
def eucNormDTWW [HasSqrt K] (total : Dbl K) (l1 l2 : ℕ) : Dbl K :=
  r (r (Dbl.sqrt total) / Dbl.ofNat (2 * max l1 l2))

/-- genex/distance/Euclidean.hpp:11-45. -/
def euclideanW [HasSqrt K] : DM K where
  S := Dbl K
  unset := some 0
  init := 0
  reduce := fun p x y => r (p + eucDistW r x y)
  norm := fun t l1 l2 => r (Dbl.sqrt (r (t / Dbl.ofNat (max l1 l2))))
  normDTW := eucNormDTWW r
  inverseNorm := some (fun d l1 l2 => r (r (d * d) * Dbl.ofNat (max l1 l2)), id)

/-- genex/distance/Manhattan.hpp:11-41. -/
def manhattanW : DM K where
  S := Dbl K
  unset := some 0
  init := 0
  reduce := fun p x y => r (p + Dbl.abs (r (x - y)))
  norm := fun t l1 l2 => r (t / Dbl.ofNat (max l1 l2))
  normDTW := fun t l1 l2 => r (t / Dbl.ofNat (2 * max l1 l2))
  inverseNorm := none

/-- genex/distance/Chebyshev.hpp:11-42. -/
def chebyshevW : DM K where
  S := Dbl K
  unset := some 0
  init := .ninf
  reduce := fun p x y => Dbl.stdMax p (Dbl.abs (r (x - y)))
  norm := fun t _ _ => t
  normDTW := fun t _ _ => t
  inverseNorm := none

/-- genex/distance/Cosine.hpp:11-43. -/
def cosineW [HasSqrt K] : DM K where
  S := Dbl K × Dbl K × Dbl K
  unset := none
  init := (0, 0, 0)
  reduce := fun p x y => (r (p.1 + r (x * x)), r (p.2.1 + r (y * y)), r (p.2.2 + r (x * y)))
  norm := fun t _ _ => r (t.2.2 / r (Dbl.sqrt (r (t.1 * t.2.1))))
  normDTW := fun t _ _ => r (t.2.2 / r (Dbl.sqrt (r (t.1 * t.2.1))))
  inverseNorm := none

/-- genex/distance/Sorensen.hpp:11-42. -/
def sorensenW : DM K where
  S := Dbl K × Dbl K
  unset := none
  init := (0, 0)
  reduce := fun p x y => (r (p.1 + Dbl.abs (r (x - y))), r (p.2 + Dbl.abs (r (x + y))))
  norm := fun t _ _ => r (t.1 / t.2)
  normDTW := fun t _ _ => r (t.1 / t.2)
  inverseNorm := none

/-- `normalize` (genex/TimeSeriesSet.cpp:198-293): the new dataset and `(MIN, MAX)`. -/
def Dataset.normalizeW (ds : Dataset K) : Res (Dataset K × (Dbl K × Dbl K)) := do
  if ds.itemCount = 0 then .error (.genex "No data to normalize")
  else do
    let cs ← ds.cells
    let m ← cs.foldlM ds.minMaxStep (.inf, .ninf)
    let diff := r (m.2 - m.1)
    let ds' ←
      if Dbl.eqD diff 0 then
        if Dbl.eqD m.2 0 then .ok ds
        else cs.foldlM (fun (d : Dataset K) (c : Int) => d.write c 0) ds
      else cs.foldlM (fun (d : Dataset K) (c : Int) => do
        let x ← d.read c
        d.write c (r (r (x - m.1) / diff))) ds
    .ok ({ ds' with normalized := true }, m)

/-- The loop of `tsPAA`, genex/PAAWrapper.cpp:33-42. -/
def paaLoopW (b : Int) (n : ℕ) : List (Dbl K) → ℕ → Dbl K → ℕ → List (Dbl K) → Res (List (Dbl K))
  | [], _, _, _, dest => .ok dest
  | x :: xs, i, sum, count, dest =>
    if (count : Int) + 1 = b ∨ (i : Int) = (n : Int) - 1 then do
      let dest ← setPoint dest ((i : Int).tdiv b) (r (r (sum + x) / Dbl.ofNat (count + 1)))
      paaLoopW b n xs (i + 1) 0 0 dest
    else paaLoopW b n xs (i + 1) (r (sum + x)) (count + 1) dest

/-- `tsPAA` (genex/PAAWrapper.cpp:26-44) on a series with the given points. -/
def tsPAAW (source : List (Dbl K)) (b : Int) : Res (List (Dbl K)) :=
  if b = 0 then .error (.ub "division by zero")
  else
    let destLength := ((source.length : Int) - 1).tdiv b + 1
    if destLength < 0 then .error (.std "bad_array_new_length")
    else paaLoopW r b source.length source 0 0 0 (List.replicate destLength.toNat 0)

variable [HasSqrt K]

/-- The template argument `DM`. -/
def Metric.dmW : Metric → DM K
  | .euclidean => euclideanW r
  | .manhattan => manhattanW r
  | .chebyshev => chebyshevW r
  | .cosine => cosineW r
  | .sorensen => sorensenW r

/-- `kimLowerBound` (genex/distance/Distance.cpp:97-110). -/
def kimLowerBoundW (a b : List (Dbl K)) : Dbl K :=
  let al := a.length
  let bl := b.length
  let l := min al bl
  let result : Dbl K :=
    if l = 1 then eucDistW r (at' a 0) (at' b 0)
    else if 1 < l then r (eucDistW r (at' a 0) (at' b 0) + eucDistW r (at' a (al - 1)) (at' b (bl - 1)))
    else 0
  eucNormDTWW r result al bl

/-- The loop of `keoghLowerBound` (genex/distance/Distance.cpp:122-131). -/
def keoghLoopW (lower upper : OutArr K) (b : List (Dbl K)) (idropout : Dbl K) : List ℕ → Dbl K → Res (Dbl K)
  | [], lb => .ok lb
  | i :: is, lb =>
    if lb < idropout then do
      let bi := at' b i
      let up ← outGet upper i
      if up < bi then keoghLoopW lower upper b idropout is (r (lb + eucDistW r bi up))
      else do
        let lo ← outGet lower i
        if bi < lo then keoghLoopW lower upper b idropout is (r (lb + eucDistW r bi lo))
        else keoghLoopW lower upper b idropout is lb
    else .ok lb

/-- `keoghLowerBound` (genex/distance/Distance.cpp:112-133). -/
def keoghLowerBoundW [BandOps] (ratio : ℚ) (a b : List (Dbl K)) (dropout : Dbl K) : Res (Dbl K) := do
  let len := min a.length b.length
  let warpingBand := band ratio (max a.length b.length : ℕ)
  let env ← keoghLU a warpingBand
  let idropout := r (r (dropout * Dbl.ofNat 2) * Dbl.ofNat (max a.length b.length))
  let lb ← keoghLoopW r env.1 env.2 b (r (idropout * idropout)) (List.range len) 0
  .ok (eucNormDTWW r lb a.length b.length)

/-- `crossKeoghLowerBound` (genex/distance/Distance.cpp:135-144). -/
def crossKeoghLowerBoundW [BandOps] (ratio : ℚ) (a b : List (Dbl K)) (dropout : Dbl K) : Res (Dbl K) := do
  let lb ← keoghLowerBoundW r ratio a b dropout
  if dropout < lb then .ok .inf
  else do
    let lb' ← keoghLowerBoundW r ratio b a dropout
    .ok (stdMax lb lb')

/-- `cascadeDistance` (genex/distance/Distance.cpp:146-163): the value and the contents of `matching`. -/
def cascadeDistanceW [BandOps] (ratio : ℚ) (a b : List (Dbl K)) (dropout : Dbl K) (matching : List (ℕ × ℕ)) :
    Res (Dbl K × List (ℕ × ℕ)) :=
  if dropout < kimLowerBoundW r a b then .ok (.inf, matching)
  else
    match crossKeoghLowerBoundW r ratio a b dropout with
    | .error e => .error e
    | .ok lb =>
      if dropout < lb then .ok (.inf, matching)
      else warpedDistance (euclideanW r) ratio a b dropout matching

/-- A call through the function pointer stored for a table entry, value only. -/
def DistRef.evalW [BandOps] (ratio : ℚ) : DistRef → List (Dbl K) → List (Dbl K) → Dbl K → Res (Dbl K)
  | .pairwise m, a, b, d => pairwiseDistance (m.dmW r) a b d
  | .warped m, a, b, d => warpedValue (m.dmW r) ratio a b d
  | .cascade, a, b, d => (cascadeDistanceW r ratio a b d []).map Prod.fst

/-- The same call for its matching. -/
def DistRef.matchingW [BandOps] (ratio : ℚ) : DistRef → List (Dbl K) → List (Dbl K) → Res (List (ℕ × ℕ))
  | .pairwise m, a, b => (pairwiseDistance (m.dmW r) a b .inf).map (fun _ => [])
  | .warped m, a, b => (warpedDistance (m.dmW r) ratio a b .inf []).map Prod.snd
  | .cascade, a, b => (cascadeDistanceW r ratio a b .inf []).map Prod.snd

/-- The interface, grouping and the searches with overflow in the distances and `normalize`. -/
@[reducible] def overflowArith [BandOps] : Arith K :=
  ⟨fun ratio ref => ref.evalW r ratio, fun ratio ref => ref.matchingW r ratio, fun ds => ds.normalizeW r⟩

end Genex
