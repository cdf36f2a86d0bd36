import Verif.Model.BruteForce
import Verif.Model.Lemire

/-!
# `TimeSeries` objects (genex/TimeSeries.hpp, genex/TimeSeries.cpp)

The other modules use the contents of a series, or its position in a dataset.  Here are the objects themselves: pointers,
ownership, the cache of the envelope.  There is no move constructor: genex/TimeSeries.hpp declares the copy constructor only.
-/

namespace Genex

variable {K : Type}

/-- A pointer into an array: which array, and how many cells from its beginning. -/
structure Ptr where
  buf : ℕ
  off : Int
deriving DecidableEq, Repr

/-- The members of `TimeSeries` (genex/TimeSeries.hpp:160-172).  `data = none`: null.  The arrays `keoghLower` and `keoghUpper`
belong to one object only and are kept as values. -/
structure TsObj (K : Type) where
  data : Option Ptr
  owner : Bool
  index : Int
  start : Int
  stop : Int
  length : Int
  cacheValid : Bool := false
  keogh : Option (OutArr K × OutArr K) := none
  cacheBand : Option Int := none

/-- The arrays that have been allocated (`none`: freed; a cell `none`: not written since `new`) and the objects (`none`:
destroyed). -/
structure World (K : Type) where
  bufs : List (Option (List (Option (Dbl K))))
  objs : List (Option (TsObj K))

namespace World

/-- The cells of an array that has not been freed. -/
def cells (w : World K) (b : ℕ) : Res (List (Option (Dbl K))) :=
  match w.bufs[b]? with
  | some (some cs) => .ok cs
  | some none => .error (.ub "use after free")
  | none => .error (.ub "invalid pointer")

/-- `p[i]` as a value. -/
def read (w : World K) (p : Option Ptr) (i : Int) : Res (Dbl K) :=
  match p with
  | none => .error (.ub "null pointer dereference")
  | some p => do
    let cs ← w.cells p.buf
    if p.off + i < 0 then .error (.ub "read outside the array")
    else match cs[(p.off + i).toNat]? with
      | some (some x) => .ok x
      | some none => .error (.ub "read of an uninitialised value")
      | none => .error (.ub "read outside the array")

/-- `p[i] = x`. -/
def write (w : World K) (p : Option Ptr) (i : Int) (x : Dbl K) : Res (World K) :=
  match p with
  | none => .error (.ub "null pointer dereference")
  | some p => do
    let cs ← w.cells p.buf
    if p.off + i < 0 ∨ (cs.length : Int) ≤ p.off + i then .error (.ub "write outside the array")
    else .ok { w with bufs := w.bufs.set p.buf (some (cs.set (p.off + i).toNat (some x))) }

/-- The source of `memcpy(_, p, n * sizeof(data_t))`. -/
def copySrc (w : World K) (p : Option Ptr) (n : ℕ) : Res (List (Option (Dbl K))) :=
  match p with
  | none => .error (.ub "null pointer dereference")
  | some p => do
    let cs ← w.cells p.buf
    if p.off < 0 ∨ (cs.length : Int) < p.off + n then .error (.ub "read outside the array")
    else .ok ((cs.drop p.off.toNat).take n)

/-- `delete[] p`. -/
def free (w : World K) (p : Option Ptr) : Res (World K) :=
  match p with
  | none => .ok w
  | some p => do
    let _ ← w.cells p.buf
    if p.off ≠ 0 then .error (.ub "delete of a pointer that was not allocated")
    else .ok { w with bufs := w.bufs.set p.buf none }

/-- `if (isOwnerOfData) delete[] data` (genex/TimeSeries.cpp:69-72, 95-98, 115-120). -/
def release (w : World K) (x : TsObj K) : Res (World K) := if x.owner = true then w.free x.data else .ok w

/-- `new data_t[n]`; the new array is the last one. -/
def alloc (w : World K) (n : Int) : Res (World K) :=
  if n < 0 then .error (.std "bad_array_new_length")
  else .ok { w with bufs := w.bufs ++ [some (List.replicate n.toNat none)] }

/-- Object number `i`. -/
def obj (w : World K) (i : ℕ) : Res (TsObj K) :=
  match w.objs[i]? with
  | some (some o) => .ok o
  | some none => .error (.ub "use of a destroyed object")
  | none => .error (.ub "no such object")

/-- Change object number `i`. -/
def setObj (w : World K) (i : ℕ) (o : TsObj K) : World K := { w with objs := w.objs.set i (some o) }

/-- The values of a series, read one by one. -/
def points (w : World K) (o : TsObj K) : Res (List (Dbl K)) :=
  (List.range o.length.toNat).mapM (fun (k : ℕ) => w.read o.data (o.start + k))

section

variable [Field K]

/-- `TimeSeries(int length)` (genex/TimeSeries.cpp:37-46); the new object is the last one. -/
def newOwned (w : World K) (n : Int) : Res (World K) := do
  let w' ← w.alloc n
  .ok { bufs := w'.bufs.set w.bufs.length (some (List.replicate n.toNat (some 0))),
        objs := w.objs ++ [some { data := some ⟨w.bufs.length, 0⟩, owner := true, index := 0, start := 0, stop := n, length := n }] }

/-- `TimeSeries(data, index, start, end)` (genex/TimeSeries.cpp:18-27). -/
def newView (w : World K) (p : Ptr) (index start stop : Int) : World K :=
  { w with objs := w.objs ++
      [some { data := some p, owner := false, index := index, start := start, stop := stop, length := stop - start }] }

/-- Copy constructor (genex/TimeSeries.cpp:48-65). -/
def copyCtor (w : World K) (j : ℕ) : Res (World K) := do
  let y ← w.obj j
  let fresh : TsObj K := { data := y.data, owner := y.owner, index := y.index, start := y.start, stop := y.stop, length := y.length }
  if y.owner = true then do
    let w' ← w.alloc y.length
    let cs ← w'.copySrc y.data y.length.toNat
    .ok { bufs := w'.bufs.set w.bufs.length (some cs), objs := w.objs ++ [some { fresh with data := some ⟨w.bufs.length, 0⟩ }] }
  else .ok { w with objs := w.objs ++ [some fresh] }

/-- `operator=(const TimeSeries&)` (genex/TimeSeries.cpp:67-91): object `i` is assigned object `j`. -/
def copyAssign (w : World K) (i j : ℕ) : Res (World K) := do
  let x ← w.obj i
  let y ← w.obj j
  let w ← w.release x
  if y.owner = true then do
    let w' ← w.alloc x.length
    let p : Ptr := ⟨w.bufs.length, 0⟩
    let w'' := w'.setObj i { x with data := some p }
    let y ← w''.obj j
    if y.data = some p ∧ 0 < x.length then .error (.ub "memcpy from an array to itself")
    else do
      let cs ← w''.copySrc y.data x.length.toNat
      .ok ({ w'' with bufs := w''.bufs.set p.buf (some cs) }.setObj i
        { x with data := some p, owner := y.owner, index := y.index, start := y.start, stop := y.stop, length := y.length })
  else
    .ok (w.setObj i { x with data := y.data, owner := y.owner, index := y.index, start := y.start, stop := y.stop,
                             length := y.length })

/-- `operator=(TimeSeries&&)` (genex/TimeSeries.cpp:93-111). -/
def moveAssign (w : World K) (i j : ℕ) : Res (World K) := do
  let x ← w.obj i
  let y ← w.obj j
  let w ← w.release x
  let w := w.setObj i { x with data := y.data }
  let y' ← w.obj j
  let w := w.setObj j { y' with data := none }
  let x' ← w.obj i
  .ok (w.setObj i { x' with owner := y.owner, index := y.index, start := y.start, stop := y.stop, length := y.length })

/-- The destructor (genex/TimeSeries.cpp:113-125). -/
def destroy (w : World K) (i : ℕ) : Res (World K) := do
  let x ← w.obj i
  let w ← w.release x
  .ok { w with objs := w.objs.set i none }

/-- `x[k] = v` through `operator[]` (genex/TimeSeries.cpp:127-133). -/
def setAt (w : World K) (i : ℕ) (k : Int) (v : Dbl K) : Res (World K) := do
  let x ← w.obj i
  if k < 0 ∨ x.length ≤ k then .error (.genex "Data point index is out of range")
  else w.write x.data (x.start + k) v

variable [LinearOrder K]

/-- `operator+=` (genex/TimeSeries.cpp:135-147): object `j` is added to object `i`. -/
def addAssign (w : World K) (i j : ℕ) : Res (World K) := do
  let x ← w.obj i
  let y ← w.obj j
  if y.length ≠ x.length then .error (.genex "Two time series must have the same length for addition")
  else do
    let w ← (List.range x.length.toNat).foldlM (fun (w : World K) (k : ℕ) => do
      let a ← w.read x.data (x.start + k)
      let b ← w.read y.data (y.start + k)
      w.write x.data (x.start + k) (a + b)) w
    .ok (w.setObj i { x with cacheValid := false })

/-- The loop of `operator==`, genex/TimeSeries.cpp:160-165. -/
def eqLoop (w : World K) (x y : TsObj K) : List ℕ → Res Bool
  | [] => .ok true
  | k :: ks => do
    let a ← w.read x.data (x.start + k)
    let b ← w.read y.data (y.start + k)
    if .fin eps < Dbl.abs (a - b) then .ok false else eqLoop w x y ks

/-- `operator==` (genex/TimeSeries.cpp:149-166). -/
def equal (w : World K) (x y : TsObj K) : Res Bool :=
  if x.data = y.data then .ok true
  else if x.data = none ∨ y.data = none then .ok false
  else if x.length ≠ y.length then .ok false
  else w.eqLoop x y (List.range x.length.toNat)

/-- `keoghCacheValid && warpingBand == cachedWarpingBand` (genex/TimeSeries.cpp:179, 188). -/
def cacheHit (x : TsObj K) (band : Int) : Res Bool :=
  if x.cacheValid = true then
    match x.cacheBand with
    | none => .error (.ub "cachedWarpingBand not initialised")
    | some b => .ok (decide (b = band))
  else .ok false

/-- `getKeoghLower` and `getKeoghUpper` (genex/TimeSeries.cpp:177-212); both arrays are returned. -/
def getKeogh (w : World K) (i : ℕ) (band : Int) : Res (World K × (OutArr K × OutArr K)) := do
  let x ← w.obj i
  let hit ← cacheHit x band
  if hit = true then
    match x.keogh with
    | none => .error (.ub "null pointer dereference")
    | some lu => .ok (w, lu)
  else do
    let pts ← w.points x
    let lu ← keoghLU pts band
    .ok (w.setObj i { x with keogh := some lu, cacheValid := true, cacheBand := some band }, lu)

/-- What can be done with the objects.  `poke` is a write to the data of a dataset that does not go through an object
(genex/TimeSeriesSet.cpp:262-290, `normalize`); `load` is the array of a new dataset. -/
inductive Op (K : Type) where
  | load (data : List (Dbl K))
  | newOwned (n : Int)
  | newView (p : Ptr) (index start stop : Int)
  | copyCtor (j : ℕ)
  | copyAssign (i j : ℕ)
  | moveAssign (i j : ℕ)
  | destroy (i : ℕ)
  | setAt (i : ℕ) (k : Int) (v : Dbl K)
  | addAssign (i j : ℕ)
  | getKeogh (i : ℕ) (band : Int)
  | poke (b : ℕ) (k : Int) (v : Dbl K)

/-- One operation. -/
def step (w : World K) : Op K → Res (World K)
  | .load data => .ok { w with bufs := w.bufs ++ [some (data.map some)] }
  | .newOwned n => w.newOwned n
  | .newView p index start stop => .ok (w.newView p index start stop)
  | .copyCtor j => w.copyCtor j
  | .copyAssign i j => w.copyAssign i j
  | .moveAssign i j => w.moveAssign i j
  | .destroy i => w.destroy i
  | .setAt i k v => w.setAt i k v
  | .addAssign i j => w.addAssign i j
  | .getKeogh i band => (w.getKeogh i band).map Prod.fst
  | .poke b k v => w.write (some ⟨b, 0⟩) k v

end

end World

end Genex
