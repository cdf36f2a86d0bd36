import Verif.Model.Dbl

/-!
# Keogh envelopes (genex/lib/deque.cpp, `lower_upper_lemire` in genex/lib/trillionDTW.cpp)

The ring buffer is modelled with its raw fields.  Every access to the buffer is checked against the allocated capacity
and reading a slot that was never written is a fault.  With `chk = true` the operations also fault when they would
overflow the queue or take from an empty one; the C++ code has no such test, it is `chk = false`.
-/

namespace Genex

/-- `class deque` (genex/lib/deque.h:5-11).  `data i = none`: the slot has not been written since `malloc`. -/
structure Deque where
  data : ℕ → Option ℕ
  capacity : ℕ
  size : Int
  f : Int
  r : Int

namespace Deque

/-- Constructor (genex/lib/deque.cpp:5-12). -/
def new (capacity : ℕ) : Deque :=
  { data := fun _ => none, capacity := capacity, size := 0, f := 0, r := (capacity : Int) - 1 }

/-- `data[i]`. -/
def get (d : Deque) (i : Int) : Res ℕ :=
  if 0 ≤ i ∧ i < d.capacity then
    match d.data i.toNat with
    | some v => .ok v
    | none => .error (.ub "deque slot not written")
  else .error (.ub "deque index out of bounds")

/-- `push_back` (genex/lib/deque.cpp:21-28). -/
def pushBack (chk : Bool) (d : Deque) (v : ℕ) : Res Deque :=
  if chk = true ∧ (d.capacity : Int) ≤ d.size then .error (.ub "deque overflow")
  else if 0 ≤ d.r ∧ d.r < d.capacity then
    let r := d.r - 1
    .ok { d with data := fun i => if i = d.r.toNat then some v else d.data i
                 r := if r < 0 then (d.capacity : Int) - 1 else r
                 size := d.size + 1 }
  else .error (.ub "deque index out of bounds")

/-- `pop_front` (genex/lib/deque.cpp:31-37). -/
def popFront (chk : Bool) (d : Deque) : Res Deque :=
  if chk = true ∧ d.size ≤ 0 then .error (.ub "deque empty")
  else
    let f := d.f - 1
    .ok { d with f := if f < 0 then (d.capacity : Int) - 1 else f, size := d.size - 1 }

/-- `pop_back` (genex/lib/deque.cpp:40-44). -/
def popBack (chk : Bool) (d : Deque) : Res Deque :=
  if chk = true ∧ d.size ≤ 0 then .error (.ub "deque empty")
  else if d.capacity = 0 then .error (.ub "modulus by zero")
  else .ok { d with r := (d.r + 1).tmod d.capacity, size := d.size - 1 }

/-- `front` (genex/lib/deque.cpp:47-54). -/
def front (chk : Bool) (d : Deque) : Res ℕ :=
  if chk = true ∧ d.size ≤ 0 then .error (.ub "deque empty")
  else
    let aux := d.f - 1
    d.get (if aux < 0 then (d.capacity : Int) - 1 else aux)

/-- `back` (genex/lib/deque.cpp:57-61). -/
def back (chk : Bool) (d : Deque) : Res ℕ :=
  if chk = true ∧ d.size ≤ 0 then .error (.ub "deque empty")
  else if d.capacity = 0 then .error (.ub "modulus by zero")
  else d.get ((d.r + 1).tmod d.capacity)

/-- `while (!d.empty() && beats(d.back())) d.pop_back();` (genex/lib/trillionDTW.cpp:36-37, 42-43).  The fuel is the
number of elements: each round removes one. -/
def popWhile (chk : Bool) (beats : ℕ → Res Bool) : ℕ → Deque → Res Deque
  | fuel, d =>
    if d.size = 0 then .ok d
    else
      match d.back chk with
      | .error e => .error e
      | .ok x =>
        match beats x with
        | .error e => .error e
        | .ok false => .ok d
        | .ok true =>
          match fuel with
          | 0 => .error .diverge
          | fuel + 1 =>
            match d.popBack chk with
            | .error e => .error e
            | .ok d' => popWhile chk beats fuel d'

end Deque

section
variable {K : Type} [LinearOrder K]

/-- `t[i]` on the input array. -/
def tAt (t : List (Dbl K)) (i : ℕ) : Res (Dbl K) :=
  match t[i]? with
  | some x => .ok x
  | none => .error (.ub "series index out of bounds")

/-- An output array of the given length; `none`: not written since `new`. -/
abbrev OutArr (K : Type) := ℕ → Option (Dbl K)

/-- `out[i] = x` on an array of length `len`. -/
def outSet (len : ℕ) (out : OutArr K) (i : Int) (x : Dbl K) : Res (OutArr K) :=
  if 0 ≤ i ∧ i < len then .ok (fun k => if k = i.toNat then some x else out k)
  else .error (.ub "envelope index out of bounds")

/-- State of `lower_upper_lemire`: both queues and both output arrays. -/
structure Lem (K : Type) where
  du : Deque
  dl : Deque
  u : OutArr K
  l : OutArr K

/-- `u[i-r-1] = t[du.front()]; l[i-r-1] = t[dl.front()];` (genex/lib/trillionDTW.cpp:30-31, 54-55). -/
def Lem.emit (chk : Bool) (t : List (Dbl K)) (r : Int) (i : ℕ) (s : Lem K) : Res (Lem K) := do
  let fu ← s.du.front chk
  let xu ← tAt t fu
  let u ← outSet t.length s.u ((i : Int) - r - 1) xu
  let fl ← s.dl.front chk
  let xl ← tAt t fl
  let l ← outSet t.length s.l ((i : Int) - r - 1) xl
  .ok { s with u := u, l := l }

/-- Lines 33-46: drop the beaten elements from the back of one queue, then append `i` to both. -/
def Lem.insert (chk : Bool) (t : List (Dbl K)) (i : ℕ) (s : Lem K) : Res (Lem K) := do
  let ti ← tAt t i
  let tp ← tAt t (i - 1)
  let s ←
    if tp < ti then do
      let d ← s.du.popBack chk
      let d ← d.popWhile chk (fun x => do let tx ← tAt t x; .ok (decide (tx < ti))) d.size.toNat
      .ok { s with du := d }
    else do
      let d ← s.dl.popBack chk
      let d ← d.popWhile chk (fun x => do let tx ← tAt t x; .ok (decide (ti < tx))) d.size.toNat
      .ok { s with dl := d }
  let du ← s.du.pushBack chk i
  let dl ← s.dl.pushBack chk i
  .ok { s with du := du, dl := dl }

/-- Lines 47-50: drop an expired front. -/
def Lem.expire (chk : Bool) (r : Int) (i : ℕ) (s : Lem K) : Res (Lem K) := do
  let fu ← s.du.front chk
  if (i : Int) = 2 * r + 1 + fu then do
    let d ← s.du.popFront chk
    .ok { s with du := d }
  else do
    let fl ← s.dl.front chk
    if (i : Int) = 2 * r + 1 + fl then do
      let d ← s.dl.popFront chk
      .ok { s with dl := d }
    else .ok s

/-- Body of the first loop, lines 26-51. -/
def Lem.step (chk : Bool) (t : List (Dbl K)) (r : Int) (s : Lem K) (i : ℕ) : Res (Lem K) := do
  let s ← if r < (i : Int) then s.emit chk t r i else .ok s
  let s ← s.insert chk t i
  s.expire chk r i

/-- Body of the second loop, lines 52-63. -/
def Lem.tail (chk : Bool) (t : List (Dbl K)) (r : Int) (s : Lem K) (i : ℕ) : Res (Lem K) := do
  let s ← s.emit chk t r i
  let fu ← s.du.front chk
  let s ← if 2 * r + 1 ≤ (i : Int) - fu then do
      let d ← s.du.popFront chk
      .ok { s with du := d }
    else .ok s
  let fl ← s.dl.front chk
  if 2 * r + 1 ≤ (i : Int) - fl then do
    let d ← s.dl.popFront chk
    .ok { s with dl := d }
  else .ok s

/-- `lower_upper_lemire` (genex/lib/trillionDTW.cpp:19-64): the lower and the upper array.  A negative `r` makes
`malloc` get a size that does not fit the first write; here the capacity becomes 0 and the write faults. -/
def lemire (chk : Bool) (t : List (Dbl K)) (r : Int) : Res (OutArr K × OutArr K) := do
  let du ← (Deque.new (2 * r + 2).toNat).pushBack chk 0
  let dl ← (Deque.new (2 * r + 2).toNat).pushBack chk 0
  let s ← (List.range' 1 (t.length - 1)).foldlM (Lem.step chk t r)
    { du := du, dl := dl, u := fun _ => none, l := fun _ => none }
  let s ← (List.range' t.length (r + 1).toNat).foldlM (Lem.tail chk t r) s
  .ok (s.l, s.u)

/-- `TimeSeries::generateKeoghLU` (genex/TimeSeries.cpp:197-214): the envelope `(lower, upper)`.  Caching is modelled in
`Model/TimeSeriesObj`. -/
def keoghLU (t : List (Dbl K)) (warpingBand : Int) : Res (OutArr K × OutArr K) :=
  lemire false t (min warpingBand ((t.length : Int) - 1))

end

end Genex
