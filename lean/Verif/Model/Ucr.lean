import Verif.Model.Lemire

/-!
# The search by scanning (genex/lib/trillionDTW.cpp, genex/lib/util.cpp)

Arrays are lists of cells; a cell that was not written since `malloc` is `none`, and reading it, or any access outside, is a fault.
The macros `min`, `max` and `dist` (genex/lib/trillionDTW.cpp:10-12) are `mn`, `sq`, and natural-number arithmetic for indices.
-/

namespace Genex.Ucr

open Dbl

/-- An array. -/
abbrev Arr (K : Type) := List (Option (Dbl K))

variable {K : Type}

/-- `a[i]`. -/
def rd (a : Arr K) (i : Int) : Res (Dbl K) :=
  if 0 ≤ i then
    match a[i.toNat]? with
    | some (some x) => .ok x
    | some none => .error (.ub "uninitialised")
    | none => .error (.ub "index out of bounds")
  else .error (.ub "index out of bounds")

/-- `a[i] = x`. -/
def wr (a : Arr K) (i : Int) (x : Dbl K) : Res (Arr K) :=
  if 0 ≤ i ∧ i.toNat < a.length then .ok (a.set i.toNat (some x)) else .error (.ub "index out of bounds")

/-- `malloc` of `n` numbers. -/
def alloc (n : ℕ) : Arr K := List.replicate n none

section
variable [Field K] [LinearOrder K]

/-- `INF_TRILLION` (genex/lib/trillionDTW.h:14). -/
def big : Dbl K := fin (10 ^ 20)

/-- `min(x, y)`. -/
def mn (x y : Dbl K) : Dbl K := if x < y then x else y

/-- `dist(x, y)`. -/
def sq (x y : Dbl K) : Dbl K := (x - y) * (x - y)

/-- `(t[i] - mean) / std`. -/
def zAt (t : Arr K) (mean std : Dbl K) (i : Int) : Res (Dbl K) := do
  let x ← rd t i
  .ok ((x - mean) / std)

/-- `lb_kim_hierarchy` (genex/lib/trillionDTW.cpp:71-113). -/
def lbKim (t q : Arr K) (j len : Int) (mean std bsf : Dbl K) : Res (Dbl K) := do
  let x0 ← zAt t mean std j
  let y0 ← zAt t mean std (len - 1 + j)
  let q0 ← rd q 0
  let p0 ← rd q (len - 1)
  let lb := sq x0 q0 + sq y0 p0
  if bsf ≤ lb then .ok lb
  else do
    let x1 ← zAt t mean std (j + 1)
    let q1 ← rd q 1
    let lb := lb + mn (mn (sq x1 q0) (sq x0 q1)) (sq x1 q1)
    if bsf ≤ lb then .ok lb
    else do
      let y1 ← zAt t mean std (len - 2 + j)
      let p1 ← rd q (len - 2)
      let lb := lb + mn (mn (sq y1 p0) (sq y0 p1)) (sq y1 p1)
      if bsf ≤ lb then .ok lb
      else do
        let x2 ← zAt t mean std (j + 2)
        let q2 ← rd q 2
        let lb := lb + mn (mn (mn (mn (sq x0 q2) (sq x1 q2)) (sq x2 q2)) (sq x2 q1)) (sq x2 q0)
        if bsf ≤ lb then .ok lb
        else do
          let y2 ← zAt t mean std (len - 3 + j)
          let p2 ← rd q (len - 3)
          .ok (lb + mn (mn (mn (mn (sq y0 p2) (sq y1 p2)) (sq y2 p2)) (sq y2 p1)) (sq y2 p0))

/-- The loop of `lb_keogh_cumulative` (genex/lib/trillionDTW.cpp:128-141), from the index `i` on, `is` being what is left of `order`. -/
def keoghQ (t uo lo : Arr K) (j : Int) (mean std bsf : Dbl K) : List ℕ → (i : ℕ) → (lb : Dbl K) → (cb : Arr K) → Res (Dbl K × Arr K)
  | [], _, lb, cb => .ok (lb, cb)
  | o :: is, i, lb, cb =>
    if lb < bsf then do
      let x ← zAt t mean std (o + j)
      let u ← rd uo i
      let l ← rd lo i
      let d := if u < x then sq x u else if x < l then sq x l else 0
      let cb ← wr cb o d
      keoghQ t uo lo j mean std bsf is (i + 1) (lb + d) cb
    else .ok (lb, cb)

/-- `lb_keogh_cumulative` (genex/lib/trillionDTW.cpp:123-143): the bound and the array `cb`. -/
def lbKeoghQ (order : List ℕ) (t uo lo cb : Arr K) (j : Int) (mean std bsf : Dbl K) : Res (Dbl K × Arr K) :=
  keoghQ t uo lo j mean std bsf order 0 0 cb

/-- The loop of `lb_keogh_data_cumulative` (genex/lib/trillionDTW.cpp:155-169); `l` and `u` start at the index `I` of the arrays. -/
def keoghD (qo l u : Arr K) (I : Int) (mean std bsf : Dbl K) : List ℕ → (i : ℕ) → (lb : Dbl K) → (cb : Arr K) → Res (Dbl K × Arr K)
  | [], _, lb, cb => .ok (lb, cb)
  | o :: is, i, lb, cb =>
    if lb < bsf then do
      let uu ← zAt u mean std (I + o)
      let ll ← zAt l mean std (I + o)
      let x ← rd qo i
      let d := if uu < x then sq x uu else if x < ll then sq x ll else 0
      let cb ← wr cb o d
      keoghD qo l u I mean std bsf is (i + 1) (lb + d) cb
    else .ok (lb, cb)

/-- `lb_keogh_data_cumulative` (genex/lib/trillionDTW.cpp:150-171). -/
def lbKeoghD (order : List ℕ) (qo cb l u : Arr K) (I : Int) (mean std bsf : Dbl K) : Res (Dbl K × Arr K) :=
  keoghD qo l u I mean std bsf order 0 0 cb

/-- Variables of a row of `dtw`. -/
structure Row (K : Type) where
  k : ℕ
  cost : Arr K
  minCost : Dbl K

/-- The value of a neighbour, `INF_TRILLION` outside. -/
def nbr (out : Prop) [Decidable out] (a : Arr K) (k : Int) : Res (Dbl K) := if out then .ok big else rd a k

/-- Body of the inner loop of `dtw` (genex/lib/trillionDTW.cpp:199-221). -/
def dtwCell (A B prev : Arr K) (r i : ℕ) (s : Row K) (j : ℕ) : Res (Row K) :=
  if i = 0 ∧ j = 0 then do
    let a ← rd A 0
    let b ← rd B 0
    let cost ← wr s.cost s.k (sq a b)
    .ok ⟨s.k + 1, cost, sq a b⟩
  else do
    let y ← nbr ((j : Int) - 1 < 0 ∨ (s.k : Int) - 1 < 0) s.cost (s.k - 1)
    let x ← nbr ((i : Int) - 1 < 0 ∨ 2 * r < s.k + 1) prev (s.k + 1)
    let z ← nbr ((i : Int) - 1 < 0 ∨ (j : Int) - 1 < 0) prev s.k
    let a ← rd A i
    let b ← rd B j
    let c := mn (mn x y) z + sq a b
    let cost ← wr s.cost s.k c
    .ok ⟨s.k + 1, cost, if c < s.minCost then c else s.minCost⟩

/-- The rows of `dtw` from the row `i` on (genex/lib/trillionDTW.cpp:192-241): the two arrays are swapped after each row, the
result is in the array of the last one, at the place before the last `k`. -/
def dtwRows (A B cb : Arr K) (m r : ℕ) (bsf : Dbl K) : (rows : ℕ) → (i k : ℕ) → (cost prev : Arr K) → Res (Dbl K)
  | 0, _, k, _, prev => rd prev ((k : Int) - 1)
  | rows + 1, i, _, cost, prev => do
    let s ← (List.range' (i - r) (min (m - 1) (i + r) + 1 - (i - r))).foldlM (dtwCell A B prev r i) ⟨r - i, cost, big⟩
    if i + r < m - 1 then do
      let c ← rd cb (i + r + 1)
      if bsf ≤ s.minCost + c then .ok (s.minCost + c)
      else dtwRows A B cb m r bsf rows (i + 1) s.k prev s.cost
    else dtwRows A B cb m r bsf rows (i + 1) s.k prev s.cost

/-- `dtw` (genex/lib/trillionDTW.cpp:176-242). -/
def dtw (A B cb : Arr K) (m r : ℕ) (bsf : Dbl K) : Res (Dbl K) :=
  dtwRows A B cb m r bsf m 0 (2 * r + 1) (List.replicate (2 * r + 1) (some big)) (List.replicate (2 * r + 1) (some big))

/-- `cb[m-1] = c[m-1]; for (k = m-2; k >= 0; k--) cb[k] = cb[k+1] + c[k];` (genex/lib/trillionDTW.cpp:494-505): the sums from the end. -/
def cumulate : Arr K → Res (Arr K)
  | [] => .ok []
  | [x] => do
    let x ← rd [x] 0
    .ok [some x]
  | x :: xs => do
    let cb ← cumulate xs
    let s ← rd cb 0
    let x ← rd [x] 0
    .ok (some (s + x) :: cb)

/-- A file: the numbers up to the end of the file, or up to something that is no number. -/
structure Input (K : Type) where
  nums : List K
  bad : Bool

/-- The outcome of `fscanf(f, "%lf", &d)`. -/
inductive Scan (K : Type) where
  | num (x : K) (rest : Input K)
  /-- returns 0, reads nothing, `d` keeps its value -/
  | none
  | eof

/-- `fscanf(f, "%lf", &d)`. -/
def Input.scan (f : Input K) : Scan K :=
  match f.nums with
  | x :: xs => .num x { f with nums := xs }
  | [] => if f.bad then .none else .eof

/-- The value of the variable `d`. -/
def useD : Option (Dbl K) → Res (Dbl K)
  | some d => .ok d
  | none => .error (.ub "uninitialised")

/-- What the loop that reads the query leaves (genex/lib/trillionDTW.cpp:354-361). -/
structure Read (K : Type) where
  q : Arr K
  ex : Dbl K
  ex2 : Dbl K
  d : Option (Dbl K)

/-- The loop, `rem` places of the query being left.  One more number than needed is read into `d`. -/
def readQuery (m : ℕ) : (rem : ℕ) → Input K → Read K → Res (Read K)
  | rem, f, s =>
    match f.scan, rem with
    | .eof, _ => .ok s
    | .num x _, 0 => .ok { s with d := some (fin x) }
    | .none, 0 => .ok s
    | .num x f', rem + 1 => do
      let q ← wr s.q ((m - (rem + 1) : ℕ) : Int) (fin x)
      readQuery m rem f' ⟨q, s.ex + fin x, s.ex2 + fin x * fin x, some (fin x)⟩
    | .none, rem + 1 => do
      let d ← useD s.d
      let q ← wr s.q ((m - (rem + 1) : ℕ) : Int) d
      readQuery m rem f ⟨q, s.ex + d, s.ex2 + d * d, some d⟩

/-- The values of an array, all of them read. -/
def readAll (a : Arr K) : Res (List (Dbl K)) :=
  a.mapM fun c => match c with | some x => .ok x | none => .error (.ub "uninitialised")

/-- The conversion of `std::abs(b) - std::abs(a)` to `int` in `Index::diff` (genex/lib/util.cpp:45-48) is defined. -/
def canCompare (a b : Dbl K) : Bool :=
  match Dbl.abs b - Dbl.abs a with
  | fin x => decide (-(2 ^ 31) - 1 < x ∧ x < 2 ^ 31)
  | _ => false

/-- The value of `Index::diff` (genex/lib/util.cpp:45-48) for numbers, as `qsort` gets it: the difference of the magnitudes with its
fraction cut off. -/
def comp (a b : ℚ) : Int := (|b| - |a|).num.tdiv (|b| - |a|).den

/-- What is known of the query while the data is scanned. -/
structure Query (K : Type) where
  q : Arr K
  order : List ℕ
  qo : Arr K
  uo : Arr K
  lo : Arr K

/-- `qsort` of the indices with `Index::comp`.  The order is not a total one (`C85_order_false`), so nothing is assumed of the
result but that it is a rearrangement. -/
structure Sorter (K : Type) where
  sort : List (Dbl K) → List ℕ
  perm : ∀ l, (sort l).Perm (List.range l.length)

/-- `sqrt(ex2/m - mean*mean)` for `mean = ex/m`. -/
def stdOf [HasSqrt K] (m : ℕ) (ex ex2 : Dbl K) : Dbl K :=
  Dbl.sqrt (ex2 / ofNat m - (ex / ofNat m) * (ex / ofNat m))

/-- The query and its envelopes (genex/lib/trillionDTW.cpp:348-390): read, normalised, sorted.  The second component is `d`. -/
def prepare [HasSqrt K] (S : Sorter K) (m : ℕ) (r : Int) (qf : Input K) : Res (Query K × Option (Dbl K)) := do
  let s ← readQuery m m qf ⟨alloc m, 0, 0, none⟩
  let mean := s.ex / ofNat m
  let std := stdOf m s.ex s.ex2
  let q ← readAll s.q
  let q := q.map fun x => (x - mean) / std
  let (l, u) ← lemire false q r
  if q.length ≤ 1 ∨ q.all (fun a => q.all (fun b => canCompare a b)) then do
    let order := S.sort q
    .ok (⟨q.map some, order, order.map (fun o => (q.map some)[o]?.join), order.map u, order.map l⟩, s.d)
  else .error (.ub "conversion to int")

/-- The variables of the scan. -/
structure St (K : Type) where
  t : Arr K
  tz : Arr K
  cb : Arr K
  cb1 : Arr K
  cb2 : Arr K
  ex : Dbl K
  ex2 : Dbl K
  bsf : Dbl K
  loc : Int
  kim : ℕ
  keogh : ℕ
  keogh2 : ℕ

/-- `it * (EPOCH - m + 1)`, computed in `int`. -/
def offset (epoch m it : ℕ) : Res Int :=
  let x : Int := it * ((epoch : Int) - m + 1)
  if x < 2 ^ 31 then .ok x else .error (.ub "integer overflow")

/-- `n++` for an `int`. -/
def incr (n : ℕ) : Res ℕ := if n + 1 < 2 ^ 31 then .ok (n + 1) else .error (.ub "integer overflow")

/-- A window of the data is compared (genex/lib/trillionDTW.cpp:459-521). -/
def consider [HasSqrt K] (Q : Query K) (epoch m r it : ℕ) (lbuf ubuf : Arr K) (i : ℕ) (s : St K) : Res (St K) := do
  let mean := s.ex / ofNat m
  let std := stdOf m s.ex s.ex2
  let j : ℕ := (i + 1) % m
  let I : Int := (i : Int) - (m - 1)
  let lb ← lbKim s.t Q.q j m mean std s.bsf
  if lb < s.bsf then do
    let (lb1, cb1) ← lbKeoghQ Q.order s.t Q.uo Q.lo s.cb1 j mean std s.bsf
    let s := { s with cb1 := cb1 }
    if lb1 < s.bsf then do
      let tz ← (List.range m).mapM fun (k : ℕ) => zAt s.t mean std ((k : Int) + (j : Int))
      let s := { s with tz := tz.map some }
      let (lb2, cb2) ← lbKeoghD Q.order Q.qo s.cb2 lbuf ubuf I mean std s.bsf
      let s := { s with cb2 := cb2 }
      if lb2 < s.bsf then do
        let cb ← cumulate (if lb2 < lb1 then s.cb1 else s.cb2)
        let s := { s with cb := cb }
        let d ← dtw s.tz Q.q s.cb m r s.bsf
        if d < s.bsf then do
          let o ← offset epoch m it
          .ok { s with bsf := d, loc := o + i - m + 1 }
        else .ok s
      else do
        let n ← incr s.keogh2
        .ok { s with keogh2 := n }
    else do
      let n ← incr s.keogh
      .ok { s with keogh := n }
  else do
    let n ← incr s.kim
    .ok { s with kim := n }

/-- A point of the chunk (genex/lib/trillionDTW.cpp:442-527). -/
def point [HasSqrt K] (Q : Query K) (epoch m r it : ℕ) (buffer lbuf ubuf : Arr K) (s : St K) (i : ℕ) : Res (St K) := do
  let d ← rd buffer i
  if m = 0 then .error (.ub "modulus by zero")
  else do
    let t ← wr s.t (i % m : ℕ) d
    let t ← wr t ((i % m) + m : ℕ) d
    let s := { s with ex := s.ex + d, ex2 := s.ex2 + d * d, t := t }
    if m - 1 ≤ i then do
      let s ← consider Q epoch m r it lbuf ubuf i s
      let x ← rd s.t ((i + 1) % m : ℕ)
      .ok { s with ex := s.ex - x, ex2 := s.ex2 - x * x }
    else .ok s

/-- The first `m - 1` points of the first chunk (genex/lib/trillionDTW.cpp:410-414), from the index `k` on. -/
def readFirst : (rem k : ℕ) → Input K → Option (Dbl K) → Arr K → Res (Input K × Option (Dbl K) × Arr K)
  | 0, _, f, d, buf => .ok (f, d, buf)
  | rem + 1, k, f, d, buf =>
    match f.scan with
    | .eof => readFirst rem (k + 1) f d buf
    | .num x f' => do
      let buf ← wr buf k (fin x)
      readFirst rem (k + 1) f' (some (fin x)) buf
    | .none => do
      let x ← useD d
      let buf ← wr buf k x
      readFirst rem (k + 1) f d buf

/-- The overlap with the chunk before (genex/lib/trillionDTW.cpp:416-418). -/
def shift (epoch m : ℕ) (buf : Arr K) : Res (Arr K) :=
  (List.range (m - 1)).foldlM (fun buf (k : ℕ) => do
    let x ← rd buf ((epoch : Int) - m + 1 + k)
    wr buf k x) buf

/-- The first `m - 1` points of a chunk (genex/lib/trillionDTW.cpp:408-418). -/
def start (epoch m it : ℕ) (f : Input K) (d : Option (Dbl K)) (buf : Arr K) : Res (Input K × Option (Dbl K) × Arr K) :=
  if it = 0 then readFirst (m - 1) 0 f d buf else (shift epoch m buf).map fun buf => (f, d, buf)

/-- The rest of a chunk (genex/lib/trillionDTW.cpp:421-427), from the index `ep` on. -/
def readRest : (rem ep : ℕ) → Input K → Option (Dbl K) → Arr K → Res (ℕ × Input K × Option (Dbl K) × Arr K)
  | 0, ep, f, d, buf => .ok (ep, f, d, buf)
  | rem + 1, ep, f, d, buf =>
    match f.scan with
    | .eof => .ok (ep, f, d, buf)
    | .num x f' => do
      let buf ← wr buf ep (fin x)
      readRest rem (ep + 1) f' (some (fin x)) buf
    | .none => do
      let x ← useD d
      let buf ← wr buf ep x
      readRest rem (ep + 1) f d buf

/-- What is printed. -/
structure Report (K : Type) where
  location : Int
  distance : Dbl K
  scanned : Int
  kim : ℕ
  keogh : ℕ
  keogh2 : ℕ

/-- The end (genex/lib/trillionDTW.cpp:537, 559-570). -/
def report [HasSqrt K] (epoch m it ep : ℕ) (s : St K) : Res (Report K) := do
  let o ← offset epoch m it
  .ok ⟨s.loc, Dbl.sqrt s.bsf, o + ep, s.kim, s.keogh, s.keogh2⟩

/-- The loop over the chunks (genex/lib/trillionDTW.cpp:406-535).  `fuel` is the number of chunks that are waited for. -/
def chunks [HasSqrt K] (Q : Query K) (epoch m : ℕ) (r : Int) : (fuel it : ℕ) → Input K → Option (Dbl K) → Arr K → St K → Res (Report K)
  | 0, _, _, _, _, _ => .error .diverge
  | fuel + 1, it, f, d, buf, s => do
    let (f, d, buf) ← start epoch m it f d buf
    let (ep, f, d, buf) ← readRest (epoch - (m - 1)) (m - 1) f d buf
    if ep ≤ m - 1 then report epoch m it ep s
    else do
      let vals ← readAll (buf.take ep)
      let (l, u) ← lemire false vals r
      let dots := 1000000 / (epoch + 1 - m)
      if dots = 0 then .error (.ub "modulus by zero")
      else do
        let lbuf := (List.range ep).map l
        let ubuf := (List.range ep).map u
        let s ← (List.range ep).foldlM (point Q epoch m r.toNat it buf lbuf ubuf) { s with ex := 0, ex2 := 0 }
        if ep < epoch then report epoch m it ep s
        else chunks Q epoch m r fuel (it + 1) f d buf s

/-- `calculate` (genex/lib/trillionDTW.cpp:245-572): the files, or `none` for one that cannot be opened (the program is then ended).
`EPOCH` is a parameter, in the code 100000 (line 266). -/
def search [HasSqrt K] (S : Sorter K) (epoch fuel : ℕ) (data query : Option (Input K)) (m : ℕ) (r : Int) : Res (Report K) :=
  match data, query with
  | some data, some query => do
    let (Q, d) ← prepare S m r query
    chunks Q epoch m r fuel 0 data d (alloc epoch)
      ⟨alloc (2 * m), alloc m, List.replicate m (some 0), List.replicate m (some 0), List.replicate m (some 0), 0, 0, big, 0, 0, 0, 0⟩
  | _, _ => .error (.std "exit")

/-- `calculate` with the chunks of the code. -/
def calculate [HasSqrt K] (S : Sorter K) (fuel : ℕ) (data query : Option (Input K)) (m : ℕ) (r : Int) : Res (Report K) :=
  search S 100000 fuel data query m r

end

end Genex.Ucr
