import Verif.Model.Machine
import Verif.Model.Overflow

/-!
# `int` of 32 bits in the distances

As `Model/Machine.lean`, for the distances, the envelopes and `normalize`.  The functions are those of `Model/Overflow.lean` (any function
applied after each operation on `data_t`), with every `int` expression of the code that can leave the range of `int`.
-/

namespace Genex

open Dbl

/-- The values of several `int` expressions. -/
def ints : List Int → Res Unit
  | [] => .ok ()
  | z :: zs => do
    let _ ← int32 z
    ints zs

namespace Deque

/-- `push_back` (genex/lib/deque.cpp:21-28): `r--`, `capacity-1`, `size++`. -/
def pushBackI (d : Deque) (v : ℕ) : Res Deque := do
  let _ ← ints [d.r - 1, (d.capacity : Int) - 1, d.size + 1]
  d.pushBack false v

/-- `pop_front` (genex/lib/deque.cpp:31-37): `f--`, `capacity-1`, `size--`. -/
def popFrontI (d : Deque) : Res Deque := do
  let _ ← ints [d.f - 1, (d.capacity : Int) - 1, d.size - 1]
  d.popFront false

/-- `pop_back` (genex/lib/deque.cpp:40-44): `r+1`, `size--`. -/
def popBackI (d : Deque) : Res Deque := do
  let _ ← ints [d.r + 1, d.size - 1]
  d.popBack false

/-- `front` (genex/lib/deque.cpp:47-54): `f - 1`, `capacity-1`. -/
def frontI (d : Deque) : Res ℕ := do
  let _ ← ints [d.f - 1, (d.capacity : Int) - 1]
  d.front false

/-- `back` (genex/lib/deque.cpp:57-61): `r+1`. -/
def backI (d : Deque) : Res ℕ := do
  let _ ← ints [d.r + 1]
  d.back false

/-- `popWhile` (genex/lib/trillionDTW.cpp:36-37, 42-43). -/
def popWhileI (beats : ℕ → Res Bool) : ℕ → Deque → Res Deque
  | fuel, d =>
    if d.size = 0 then .ok d
    else
      match d.backI with
      | .error e => .error e
      | .ok x =>
        match beats x with
        | .error e => .error e
        | .ok false => .ok d
        | .ok true =>
          match fuel with
          | 0 => .error .diverge
          | fuel + 1 =>
            match d.popBackI with
            | .error e => .error e
            | .ok d' => popWhileI beats fuel d'

end Deque

section
variable {K : Type} [LinearOrder K]

/-- `i-r-1` (genex/lib/trillionDTW.cpp:30-31, 54-55). -/
def Lem.emitI (t : List (Dbl K)) (r : Int) (i : ℕ) (s : Lem K) : Res (Lem K) := do
  let _ ← ints [(i : Int) - r, (i : Int) - r - 1]
  let fu ← s.du.frontI
  let xu ← tAt t fu
  let u ← outSet t.length s.u ((i : Int) - r - 1) xu
  let fl ← s.dl.frontI
  let xl ← tAt t fl
  let l ← outSet t.length s.l ((i : Int) - r - 1) xl
  .ok { s with u := u, l := l }

/-- Lines 33-46. -/
def Lem.insertI (t : List (Dbl K)) (i : ℕ) (s : Lem K) : Res (Lem K) := do
  let ti ← tAt t i
  let tp ← tAt t (i - 1)
  let s ←
    if tp < ti then do
      let d ← s.du.popBackI
      let d ← d.popWhileI (fun x => do let tx ← tAt t x; .ok (decide (tx < ti))) d.size.toNat
      .ok { s with du := d }
    else do
      let d ← s.dl.popBackI
      let d ← d.popWhileI (fun x => do let tx ← tAt t x; .ok (decide (ti < tx))) d.size.toNat
      .ok { s with dl := d }
  let du ← s.du.pushBackI i
  let dl ← s.dl.pushBackI i
  .ok { s with du := du, dl := dl }

/-- Lines 47-50: `2*r + 1 + du.front()`. -/
def Lem.expireI (r : Int) (i : ℕ) (s : Lem K) : Res (Lem K) := do
  let fu ← s.du.frontI
  let _ ← ints [2 * r, 2 * r + 1, 2 * r + 1 + fu]
  if (i : Int) = 2 * r + 1 + fu then do
    let d ← s.du.popFrontI
    .ok { s with du := d }
  else do
    let fl ← s.dl.frontI
    let _ ← ints [2 * r + 1 + fl]
    if (i : Int) = 2 * r + 1 + fl then do
      let d ← s.dl.popFrontI
      .ok { s with dl := d }
    else .ok s

/-- Body of the first loop, lines 26-51. -/
def Lem.stepI (t : List (Dbl K)) (r : Int) (s : Lem K) (i : ℕ) : Res (Lem K) := do
  let s ← if r < (i : Int) then s.emitI t r i else .ok s
  let s ← s.insertI t i
  s.expireI r i

/-- Body of the second loop, lines 52-63: `i-du.front()`, `2*r + 1`. -/
def Lem.tailI (t : List (Dbl K)) (r : Int) (s : Lem K) (i : ℕ) : Res (Lem K) := do
  let s ← s.emitI t r i
  let fu ← s.du.frontI
  let _ ← ints [(i : Int) - fu, 2 * r, 2 * r + 1]
  let s ← if 2 * r + 1 ≤ (i : Int) - fu then do
      let d ← s.du.popFrontI
      .ok { s with du := d }
    else .ok s
  let fl ← s.dl.frontI
  let _ ← ints [(i : Int) - fl]
  if 2 * r + 1 ≤ (i : Int) - fl then do
    let d ← s.dl.popFrontI
    .ok { s with dl := d }
  else .ok s

/-- `lower_upper_lemire` (genex/lib/trillionDTW.cpp:19-64): `2*r + 2`, `len+r+1`. -/
def lemireI (t : List (Dbl K)) (r : Int) : Res (OutArr K × OutArr K) := do
  let _ ← ints [2 * r, 2 * r + 2]
  let du ← (Deque.new (2 * r + 2).toNat).pushBackI 0
  let dl ← (Deque.new (2 * r + 2).toNat).pushBackI 0
  let s ← (List.range' 1 (t.length - 1)).foldlM (Lem.stepI t r)
    { du := du, dl := dl, u := fun _ => none, l := fun _ => none }
  let _ ← ints [(t.length : Int) + r, (t.length : Int) + r + 1]
  let s ← (List.range' t.length (r + 1).toNat).foldlM (Lem.tailI t r) s
  .ok (s.l, s.u)

/-- `TimeSeries::generateKeoghLU` (genex/TimeSeries.cpp:197-214): `length - 1`. -/
def keoghLUI (t : List (Dbl K)) (warpingBand : Int) : Res (OutArr K × OutArr K) := do
  let _ ← ints [(t.length : Int) - 1]
  lemireI t (min warpingBand ((t.length : Int) - 1))

end

variable {K : Type} [Field K] [LinearOrder K]

/-- `normDTW` of Euclidean and Manhattan: `2 * max(x_1.getLength(), x_2.getLength())` (genex/distance/Euclidean.hpp:36, Manhattan.hpp:37). -/
def Metric.lenI (m : Metric) (l1 l2 : ℕ) : Res Unit :=
  match m with
  | .euclidean => ints [2 * (max l1 l2 : ℕ)]
  | .manhattan => ints [2 * (max l1 l2 : ℕ)]
  | _ => .ok ()

/-- `reduce` and `normDTW` for one cell (genex/distance/Distance.hpp:124-126, 132-134, 161-163); `len` is the factor computed in
`normDTW`. -/
def Mat.fillI {M : DM K} (len : Res Unit) (a b : List (Dbl K)) (mt : Mat M) (i j : ℕ) (prev : Option M.S) : Res (Mat M) := do
  let mt ← mt.fill a b i j prev
  let _ ← len
  .ok mt

/-- Lines 110-119. -/
def matInitI (M : DM K) (len : Res Unit) (a b : List (Dbl K)) : Res (Mat M) :=
  Mat.fillI len a b
    { cost := fun _ _ => M.unset
      ncost := fun i j => if i = a.length - 1 ∧ j = b.length - 1 then .inf else 0 }
    0 0 (some M.init)

/-- First column, lines 122-127: `2*r + 1`. -/
def firstColI {M : DM K} (len : Res Unit) (a b : List (Dbl K)) (r : Int) (mt : Mat M) : Res (Mat M) := do
  let _ ← ints [2 * r, 2 * r + 1]
  (List.range' 1 ((min (2 * r + 1) a.length).toNat - 1)).foldlM
    (fun mt i => mt.fillI len a b i 0 (mt.cost (i - 1) 0)) mt

/-- First row, lines 130-135: `2*r + 1`. -/
def firstRowI {M : DM K} (len : Res Unit) (a b : List (Dbl K)) (r : Int) (mt : Mat M) : Res (Mat M) := do
  let _ ← ints [2 * r, 2 * r + 1]
  (List.range' 1 ((min (2 * r + 1) b.length).toNat - 1)).foldlM
    (fun mt j => mt.fillI len a b 0 j (mt.cost 0 (j - 1))) mt

/-- Body of the inner loop, lines 145-164: `i - r`, `j-1`, `i + r`, `j - r`, `i-1`, `j + r`. -/
def cellStepI {M : DM K} (len : Res Unit) (a b : List (Dbl K)) (r : Int) (i : ℕ) (st : Mat M × Dbl K) (j : ℕ) :
    Res (Mat M × Dbl K) :=
  let mt := st.1
  if j = 0 then .ok (mt, stdMin st.2 (mt.ncost i j))
  else do
    let _ ← ints [(i : Int) - r, (j : Int) - 1, i + r, (j : Int) - r, (i : Int) - 1, j + r]
    let ij1 := if (i : Int) - r ≤ (j : Int) - 1 ∧ (j : Int) - 1 ≤ i + r then mt.ncost i (j - 1) else .inf
    let i1j1 := mt.ncost (i - 1) (j - 1)
    let i1j := if (j : Int) - r ≤ (i : Int) - 1 ∧ (i : Int) - 1 ≤ j + r then mt.ncost (i - 1) j else .inf
    let minPrev :=
      if i1j1 < ij1 ∧ i1j1 < i1j then mt.cost (i - 1) (j - 1)
      else if ij1 < i1j then mt.cost i (j - 1)
      else mt.cost (i - 1) j
    let mt' ← mt.fillI len a b i j minPrev
    .ok (mt', stdMin st.2 (mt'.ncost i j))

/-- One row, lines 142-165: `i - r`, `i + r`, `n - 1`. -/
def rowLoopI {M : DM K} (len : Res Unit) (a b : List (Dbl K)) (r : Int) (i : ℕ) (mt : Mat M) : Res (Mat M × Dbl K) := do
  let _ ← ints [(i : Int) - r, i + r, (b.length : Int) - 1]
  (rowRange r b.length i).foldlM (cellStepI len a b r i) (mt, .inf)

/-- The outer loop, lines 140-171. -/
def rowsLoopI {M : DM K} (len : Res Unit) (a b : List (Dbl K)) (r : Int) (dropout : Dbl K) :
    List ℕ → Mat M → Res (Mat M × Bool)
  | [], mt => .ok (mt, false)
  | i :: is, mt => do
    let s ← rowLoopI len a b r i mt
    if dropout < s.2 then .ok (s.1, true) else rowsLoopI len a b r dropout is s.1

/-- `warpedDistance` (genex/distance/Distance.hpp:82-221). -/
def warpedDistanceI (M : DM K) (len : Res Unit) [BandOps] (ratio : ℚ) (a b : List (Dbl K)) (dropout : Dbl K)
    (matching : List (ℕ × ℕ)) : Res (Dbl K × List (ℕ × ℕ)) := do
  let m := a.length
  let n := b.length
  let r ← bandInt ratio (max m n : ℕ)
  if m = 1 ∧ n = 1 then do
    let _ ← len
    .ok (M.normDTW (M.reduce M.init (at' a 0) (at' b 0)) m n, matching)
  else if m = 0 ∨ n = 0 then .error (.ub "write before the cost matrix")
  else do
    let mt ← matInitI M len a b
    let mt ← firstColI len a b r mt
    let mt ← firstRowI len a b r mt
    let s ← rowsLoopI len a b r dropout (List.range' 1 (m - 1)) mt
    let result := if s.2 then .inf else s.1.ncost (m - 1) (n - 1)
    let mat ← traceLoop s.1.ncost (m - 1 + (n - 1)) (m - 1, n - 1) matching
    .ok (result, mat.reverse)

variable [HasSqrt K] (r : Dbl K → Dbl K)

/-- `kimLowerBound` (genex/distance/Distance.cpp:97-110). -/
def kimLowerBoundI (a b : List (Dbl K)) : Res (Dbl K) := do
  let _ ← Metric.lenI .euclidean a.length b.length
  .ok (kimLowerBoundW r a b)

/-- `keoghLowerBound` (genex/distance/Distance.cpp:112-133). -/
def keoghLowerBoundI [BandOps] (ratio : ℚ) (a b : List (Dbl K)) (dropout : Dbl K) : Res (Dbl K) := do
  let len := min a.length b.length
  let warpingBand ← bandInt ratio (max a.length b.length : ℕ)
  let env ← keoghLUI a warpingBand
  let idropout := r (r (dropout * Dbl.ofNat 2) * Dbl.ofNat (max a.length b.length))
  let lb ← keoghLoopW r env.1 env.2 b (r (idropout * idropout)) (List.range len) 0
  let _ ← Metric.lenI .euclidean a.length b.length
  .ok (eucNormDTWW r lb a.length b.length)

/-- `crossKeoghLowerBound` (genex/distance/Distance.cpp:135-144). -/
def crossKeoghLowerBoundI [BandOps] (ratio : ℚ) (a b : List (Dbl K)) (dropout : Dbl K) : Res (Dbl K) := do
  let lb ← keoghLowerBoundI r ratio a b dropout
  if dropout < lb then .ok .inf
  else do
    let lb' ← keoghLowerBoundI r ratio b a dropout
    .ok (stdMax lb lb')

/-- `cascadeDistance` (genex/distance/Distance.cpp:146-163). -/
def cascadeDistanceI [BandOps] (ratio : ℚ) (a b : List (Dbl K)) (dropout : Dbl K) (matching : List (ℕ × ℕ)) :
    Res (Dbl K × List (ℕ × ℕ)) := do
  let kim ← kimLowerBoundI r a b
  if dropout < kim then .ok (.inf, matching)
  else do
    let lb ← crossKeoghLowerBoundI r ratio a b dropout
    if dropout < lb then .ok (.inf, matching)
    else warpedDistanceI (euclideanW r) (Metric.lenI .euclidean a.length b.length) ratio a b dropout matching

/-- A call through the function pointer stored for a table entry, value only. -/
def DistRef.evalI [BandOps] (ratio : ℚ) : DistRef → List (Dbl K) → List (Dbl K) → Dbl K → Res (Dbl K)
  | .pairwise m, a, b, d => pairwiseDistance (m.dmW r) a b d
  | .warped m, a, b, d => (warpedDistanceI (m.dmW r) (m.lenI a.length b.length) ratio a b d []).map Prod.fst
  | .cascade, a, b, d => (cascadeDistanceI r ratio a b d []).map Prod.fst

/-- The same call for its matching. -/
def DistRef.matchingI [BandOps] (ratio : ℚ) : DistRef → List (Dbl K) → List (Dbl K) → Res (List (ℕ × ℕ))
  | .pairwise m, a, b => (pairwiseDistance (m.dmW r) a b .inf).map (fun _ => [])
  | .warped m, a, b => (warpedDistanceI (m.dmW r) (m.lenI a.length b.length) ratio a b .inf []).map Prod.snd
  | .cascade, a, b => (cascadeDistanceI r ratio a b .inf []).map Prod.snd

omit [HasSqrt K] in
/-- `normalize` (genex/TimeSeriesSet.cpp:198-293). -/
def Dataset.normalizeI (ds : Dataset K) : Res (Dataset K × (Dbl K × Dbl K)) := do
  if ds.itemCount = 0 then .error (.genex "No data to normalize")
  else do
    let cs ← ds.cellsI
    let m ← cs.foldlM ds.minMaxStep (.inf, .ninf)
    let diff := r (m.2 - m.1)
    let ds' ←
      if Dbl.eqD diff 0 then
        if Dbl.eqD m.2 0 then .ok ds
        else cs.foldlM (fun (d : Dataset K) (c : Int) => d.write c 0) ds
      else cs.foldlM (fun (d : Dataset K) (c : Int) => do
        let x ← d.read c
        d.write c (r (r (x - m.1) / diff))) ds
    .ok ({ ds' with normalized := true }, m)

/-- The interface, grouping and the searches with `int` of 32 bits in the distances and `normalize`. -/
@[reducible] def machineArith [BandOps] : Arith K :=
  ⟨fun ratio ref => ref.evalI r ratio, fun ratio ref => ref.matchingI r ratio, fun ds => ds.normalizeI r⟩

end Genex
