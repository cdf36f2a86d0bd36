import Verif.Model.Distance
import Verif.Model.Lemire
import Verif.Model.Dataset

/-!
# Lower bounds and cascaded distance (genex/distance/Distance.cpp:95-163)
-/

namespace Genex

open Dbl

variable {K : Type} [Field K] [LinearOrder K] [HasSqrt K]

/-- `kimLowerBound` (genex/distance/Distance.cpp:97-110).  The argument `dropout` is not used. -/
def kimLowerBound (a b : List (Dbl K)) : Dbl K :=
  let al := a.length
  let bl := b.length
  let l := min al bl
  let result : Dbl K :=
    if l = 1 then eucDist (at' a 0) (at' b 0)
    else if 1 < l then eucDist (at' a 0) (at' b 0) + eucDist (at' a (al - 1)) (at' b (bl - 1))
    else 0
  eucNormDTW result al bl

/-- Read of an envelope cell. -/
def outGet (out : OutArr K) (i : ℕ) : Res (Dbl K) :=
  match out i with
  | some x => .ok x
  | none => .error (.ub "envelope cell not written")

/-- The loop of `keoghLowerBound`, lines 122-131: `is` are the remaining indices. -/
def keoghLoop (lower upper : OutArr K) (b : List (Dbl K)) (idropout : Dbl K) : List ℕ → Dbl K → Res (Dbl K)
  | [], lb => .ok lb
  | i :: is, lb =>
    if lb < idropout then do
      let bi := at' b i
      let up ← outGet upper i
      if up < bi then keoghLoop lower upper b idropout is (lb + eucDist bi up)
      else do
        let lo ← outGet lower i
        if bi < lo then keoghLoop lower upper b idropout is (lb + eucDist bi lo)
        else keoghLoop lower upper b idropout is lb
    else .ok lb

/-- `keoghLowerBound` (genex/distance/Distance.cpp:112-133): the envelope is that of the first series. -/
def keoghLowerBound [BandOps] (ratio : ℚ) (a b : List (Dbl K)) (dropout : Dbl K) : Res (Dbl K) := do
  let len := min a.length b.length
  let warpingBand := band ratio (max a.length b.length : ℕ)
  let env ← keoghLU a warpingBand
  let idropout := dropout * Dbl.ofNat 2 * Dbl.ofNat (max a.length b.length)
  let lb ← keoghLoop env.1 env.2 b (idropout * idropout) (List.range len) 0
  .ok (eucNormDTW lb a.length b.length)

/-- `crossKeoghLowerBound` (genex/distance/Distance.cpp:135-144). -/
def crossKeoghLowerBound [BandOps] (ratio : ℚ) (a b : List (Dbl K)) (dropout : Dbl K) : Res (Dbl K) := do
  let lb ← keoghLowerBound ratio a b dropout
  if dropout < lb then .ok .inf
  else do
    let lb' ← keoghLowerBound ratio b a dropout
    .ok (stdMax lb lb')

/-- `cascadeDistance` (genex/distance/Distance.cpp:146-163): the value and the contents of `matching`. -/
def cascadeDistance [BandOps] (ratio : ℚ) (a b : List (Dbl K)) (dropout : Dbl K) (matching : List (ℕ × ℕ)) :
    Res (Dbl K × List (ℕ × ℕ)) :=
  if dropout < kimLowerBound a b then .ok (.inf, matching)
  else
    match crossKeoghLowerBound ratio a b dropout with
    | .error e => .error e
    | .ok lb =>
      if dropout < lb then .ok (.inf, matching)
      else warpedDistance (euclidean K) ratio a b dropout matching

/-- The value alone. -/
def cascadeValue [BandOps] (ratio : ℚ) (a b : List (Dbl K)) (dropout : Dbl K) : Res (Dbl K) :=
  (cascadeDistance ratio a b dropout []).map Prod.fst

/-- A call through the function pointer stored for a table entry (`dist_t`), value only. -/
def DistRef.eval [BandOps] (ratio : ℚ) : DistRef → List (Dbl K) → List (Dbl K) → Dbl K → Res (Dbl K)
  | .pairwise m, a, b, d => pairwiseDistance (m.dm K) a b d
  | .warped m, a, b, d => warpedValue (m.dm K) ratio a b d
  | .cascade, a, b, d => cascadeValue ratio a b d

/-- The same call for its matching; the pairwise distances leave the matching empty (genex/distance/Distance.hpp:44-70). -/
def DistRef.matching [BandOps] (ratio : ℚ) : DistRef → List (Dbl K) → List (Dbl K) → Res (List (ℕ × ℕ))
  | .pairwise m, a, b => (pairwiseDistance (m.dm K) a b .inf).map (fun _ => [])
  | .warped m, a, b => (warpedDistance (m.dm K) ratio a b .inf []).map Prod.snd
  | .cascade, a, b => (cascadeDistance ratio a b .inf []).map Prod.snd

/-- What depends on how numbers are added and multiplied: the value and the matching of a call through the function pointer stored for a
table entry, and `normalize`.  The groups, the searches and the interface are modelled for any way to compute them; where none is
named it is `exactArith`. -/
class Arith (K : Type) where
  eval : ℚ → DistRef → List (Dbl K) → List (Dbl K) → Dbl K → Res (Dbl K)
  matching : ℚ → DistRef → List (Dbl K) → List (Dbl K) → Res (List (ℕ × ℕ))
  normalize : Dataset K → Res (Dataset K × (Dbl K × Dbl K))

/-- Exact arithmetic. -/
instance (priority := low) exactArith [BandOps] : Arith K :=
  ⟨fun ratio ref => ref.eval ratio, fun ratio ref => ref.matching ratio, fun ds => ds.normalize⟩

end Genex
