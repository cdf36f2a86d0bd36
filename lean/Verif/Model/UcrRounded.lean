import Verif.Model.Ucr

/-!
# The search by scanning in rounded arithmetic (genex/lib/trillionDTW.cpp)

The same code as in Model/Ucr, with the result of every arithmetic operation on `double` passed through `ρ`.  `min`, the comparisons,
`abs`, the envelopes (which only compare) and the reading of numbers do not round; `m` is converted exactly; `sqrt` is one operation; no
operations are fused.  The functions without arithmetic on `double` are those of Model/Ucr.
-/

namespace Genex.Ucr

open Dbl

variable {K : Type} [Field K] [LinearOrder K] (ρ : Dbl K → Dbl K)

/-- `dist(x, y)`. -/
def sqR (x y : Dbl K) : Dbl K := ρ (ρ (x - y) * ρ (x - y))

/-- `(t[i] - mean) / std`. -/
def zAtR (t : Arr K) (mean std : Dbl K) (i : Int) : Res (Dbl K) := do
  let x ← rd t i
  .ok (ρ (ρ (x - mean) / std))

/-- `lb_kim_hierarchy` (genex/lib/trillionDTW.cpp:71-113). -/
def lbKimR (t q : Arr K) (j len : Int) (mean std bsf : Dbl K) : Res (Dbl K) := do
  let x0 ← zAtR ρ t mean std j
  let y0 ← zAtR ρ t mean std (len - 1 + j)
  let q0 ← rd q 0
  let p0 ← rd q (len - 1)
  let lb := ρ (sqR ρ x0 q0 + sqR ρ y0 p0)
  if bsf ≤ lb then .ok lb
  else do
    let x1 ← zAtR ρ t mean std (j + 1)
    let q1 ← rd q 1
    let lb := ρ (lb + mn (mn (sqR ρ x1 q0) (sqR ρ x0 q1)) (sqR ρ x1 q1))
    if bsf ≤ lb then .ok lb
    else do
      let y1 ← zAtR ρ t mean std (len - 2 + j)
      let p1 ← rd q (len - 2)
      let lb := ρ (lb + mn (mn (sqR ρ y1 p0) (sqR ρ y0 p1)) (sqR ρ y1 p1))
      if bsf ≤ lb then .ok lb
      else do
        let x2 ← zAtR ρ t mean std (j + 2)
        let q2 ← rd q 2
        let lb := ρ (lb + mn (mn (mn (mn (sqR ρ x0 q2) (sqR ρ x1 q2)) (sqR ρ x2 q2)) (sqR ρ x2 q1)) (sqR ρ x2 q0))
        if bsf ≤ lb then .ok lb
        else do
          let y2 ← zAtR ρ t mean std (len - 3 + j)
          let p2 ← rd q (len - 3)
          .ok (ρ (lb + mn (mn (mn (mn (sqR ρ y0 p2) (sqR ρ y1 p2)) (sqR ρ y2 p2)) (sqR ρ y2 p1)) (sqR ρ y2 p0)))

/-- The loop of `lb_keogh_cumulative` (genex/lib/trillionDTW.cpp:128-141), from the index `i` on, `is` being what is left of `order`. -/
def keoghQR (t uo lo : Arr K) (j : Int) (mean std bsf : Dbl K) : List ℕ → (i : ℕ) → (lb : Dbl K) → (cb : Arr K) → Res (Dbl K × Arr K)
  | [], _, lb, cb => .ok (lb, cb)
  | o :: is, i, lb, cb =>
    if lb < bsf then do
      let x ← zAtR ρ t mean std (o + j)
      let u ← rd uo i
      let l ← rd lo i
      let d := if u < x then sqR ρ x u else if x < l then sqR ρ x l else 0
      let cb ← wr cb o d
      keoghQR t uo lo j mean std bsf is (i + 1) (ρ (lb + d)) cb
    else .ok (lb, cb)

/-- `lb_keogh_cumulative` (genex/lib/trillionDTW.cpp:123-143): the bound and the array `cb`. -/
def lbKeoghQR (order : List ℕ) (t uo lo cb : Arr K) (j : Int) (mean std bsf : Dbl K) : Res (Dbl K × Arr K) :=
  keoghQR ρ t uo lo j mean std bsf order 0 0 cb

/-- The loop of `lb_keogh_data_cumulative` (genex/lib/trillionDTW.cpp:155-169); `l` and `u` start at the index `I` of the arrays. -/
def keoghDR (qo l u : Arr K) (I : Int) (mean std bsf : Dbl K) : List ℕ → (i : ℕ) → (lb : Dbl K) → (cb : Arr K) → Res (Dbl K × Arr K)
  | [], _, lb, cb => .ok (lb, cb)
  | o :: is, i, lb, cb =>
    if lb < bsf then do
      let uu ← zAtR ρ u mean std (I + o)
      let ll ← zAtR ρ l mean std (I + o)
      let x ← rd qo i
      let d := if uu < x then sqR ρ x uu else if x < ll then sqR ρ x ll else 0
      let cb ← wr cb o d
      keoghDR qo l u I mean std bsf is (i + 1) (ρ (lb + d)) cb
    else .ok (lb, cb)

/-- `lb_keogh_data_cumulative` (genex/lib/trillionDTW.cpp:150-171). -/
def lbKeoghDR (order : List ℕ) (qo cb l u : Arr K) (I : Int) (mean std bsf : Dbl K) : Res (Dbl K × Arr K) :=
  keoghDR ρ qo l u I mean std bsf order 0 0 cb

/-- Body of the inner loop of `dtw` (genex/lib/trillionDTW.cpp:199-221). -/
def dtwCellR (A B prev : Arr K) (r i : ℕ) (s : Row K) (j : ℕ) : Res (Row K) :=
  if i = 0 ∧ j = 0 then do
    let a ← rd A 0
    let b ← rd B 0
    let cost ← wr s.cost s.k (sqR ρ a b)
    .ok ⟨s.k + 1, cost, sqR ρ a b⟩
  else do
    let y ← nbr ((j : Int) - 1 < 0 ∨ (s.k : Int) - 1 < 0) s.cost (s.k - 1)
    let x ← nbr ((i : Int) - 1 < 0 ∨ 2 * r < s.k + 1) prev (s.k + 1)
    let z ← nbr ((i : Int) - 1 < 0 ∨ (j : Int) - 1 < 0) prev s.k
    let a ← rd A i
    let b ← rd B j
    let c := ρ (mn (mn x y) z + sqR ρ a b)
    let cost ← wr s.cost s.k c
    .ok ⟨s.k + 1, cost, if c < s.minCost then c else s.minCost⟩

/-- The rows of `dtw` from the row `i` on (genex/lib/trillionDTW.cpp:192-241): the two arrays are swapped after each row, the
result is in the array of the last one, at the place before the last `k`. -/
def dtwRowsR (A B cb : Arr K) (m r : ℕ) (bsf : Dbl K) : (rows : ℕ) → (i k : ℕ) → (cost prev : Arr K) → Res (Dbl K)
  | 0, _, k, _, prev => rd prev ((k : Int) - 1)
  | rows + 1, i, _, cost, prev => do
    let s ← (List.range' (i - r) (min (m - 1) (i + r) + 1 - (i - r))).foldlM (dtwCellR ρ A B prev r i) ⟨r - i, cost, big⟩
    if i + r < m - 1 then do
      let c ← rd cb (i + r + 1)
      if bsf ≤ ρ (s.minCost + c) then .ok (ρ (s.minCost + c))
      else dtwRowsR A B cb m r bsf rows (i + 1) s.k prev s.cost
    else dtwRowsR A B cb m r bsf rows (i + 1) s.k prev s.cost

/-- `dtw` (genex/lib/trillionDTW.cpp:176-242). -/
def dtwR (A B cb : Arr K) (m r : ℕ) (bsf : Dbl K) : Res (Dbl K) :=
  dtwRowsR ρ A B cb m r bsf m 0 (2 * r + 1) (List.replicate (2 * r + 1) (some big)) (List.replicate (2 * r + 1) (some big))

/-- `cb[m-1] = c[m-1]; for (k = m-2; k >= 0; k--) cb[k] = cb[k+1] + c[k];` (genex/lib/trillionDTW.cpp:494-505): the sums from the end. -/
def cumulateR : Arr K → Res (Arr K)
  | [] => .ok []
  | [x] => do
    let x ← rd [x] 0
    .ok [some x]
  | x :: xs => do
    let cb ← cumulateR xs
    let s ← rd cb 0
    let x ← rd [x] 0
    .ok (some (ρ (s + x)) :: cb)

/-- The loop, `rem` places of the query being left.  One more number than needed is read into `d`. -/
def readQueryR (m : ℕ) : (rem : ℕ) → Input K → Read K → Res (Read K)
  | rem, f, s =>
    match f.scan, rem with
    | .eof, _ => .ok s
    | .num x _, 0 => .ok { s with d := some (fin x) }
    | .none, 0 => .ok s
    | .num x f', rem + 1 => do
      let q ← wr s.q ((m - (rem + 1) : ℕ) : Int) (fin x)
      readQueryR m rem f' ⟨q, ρ (s.ex + fin x), ρ (s.ex2 + ρ (fin x * fin x)), some (fin x)⟩
    | .none, rem + 1 => do
      let d ← useD s.d
      let q ← wr s.q ((m - (rem + 1) : ℕ) : Int) d
      readQueryR m rem f ⟨q, ρ (s.ex + d), ρ (s.ex2 + ρ (d * d)), some d⟩

/-- The conversion of `std::abs(b) - std::abs(a)` to `int` in `Index::diff` (genex/lib/util.cpp:45-48) is defined. -/
def canCompareR (a b : Dbl K) : Bool :=
  match ρ (Dbl.abs b - Dbl.abs a) with
  | fin x => decide (-(2 ^ 31) - 1 < x ∧ x < 2 ^ 31)
  | _ => false

/-- `sqrt(ex2/m - mean*mean)` for `mean = ex/m`. -/
def stdOfR [HasSqrt K] (m : ℕ) (ex ex2 : Dbl K) : Dbl K :=
  ρ (Dbl.sqrt (ρ (ρ (ex2 / ofNat m) - ρ (ρ (ex / ofNat m) * ρ (ex / ofNat m)))))

/-- The query and its envelopes (genex/lib/trillionDTW.cpp:348-390): read, normalised, sorted.  The second component is `d`. -/
def prepareR [HasSqrt K] (S : Sorter K) (m : ℕ) (r : Int) (qf : Input K) : Res (Query K × Option (Dbl K)) := do
  let s ← readQueryR ρ m m qf ⟨alloc m, 0, 0, none⟩
  let mean := ρ (s.ex / ofNat m)
  let std := stdOfR ρ m s.ex s.ex2
  let q ← readAll s.q
  let q := q.map fun x => ρ (ρ (x - mean) / std)
  let (l, u) ← lemire false q r
  if q.length ≤ 1 ∨ q.all (fun a => q.all (fun b => canCompareR ρ a b)) then do
    let order := S.sort q
    .ok (⟨q.map some, order, order.map (fun o => (q.map some)[o]?.join), order.map u, order.map l⟩, s.d)
  else .error (.ub "conversion to int")

/-- A window of the data is compared (genex/lib/trillionDTW.cpp:459-521). -/
def considerR [HasSqrt K] (Q : Query K) (epoch m r it : ℕ) (lbuf ubuf : Arr K) (i : ℕ) (s : St K) : Res (St K) := do
  let mean := ρ (s.ex / ofNat m)
  let std := stdOfR ρ m s.ex s.ex2
  let j : ℕ := (i + 1) % m
  let I : Int := (i : Int) - (m - 1)
  let lb ← lbKimR ρ s.t Q.q j m mean std s.bsf
  if lb < s.bsf then do
    let (lb1, cb1) ← lbKeoghQR ρ Q.order s.t Q.uo Q.lo s.cb1 j mean std s.bsf
    let s := { s with cb1 := cb1 }
    if lb1 < s.bsf then do
      let tz ← (List.range m).mapM fun (k : ℕ) => zAtR ρ s.t mean std ((k : Int) + (j : Int))
      let s := { s with tz := tz.map some }
      let (lb2, cb2) ← lbKeoghDR ρ Q.order Q.qo s.cb2 lbuf ubuf I mean std s.bsf
      let s := { s with cb2 := cb2 }
      if lb2 < s.bsf then do
        let cb ← cumulateR ρ (if lb2 < lb1 then s.cb1 else s.cb2)
        let s := { s with cb := cb }
        let d ← dtwR ρ s.tz Q.q s.cb m r s.bsf
        if d < s.bsf then do
          let o ← offset epoch m it
          .ok { s with bsf := d, loc := o + i - m + 1 }
        else .ok s
      else do
        let n ← incr s.keogh2
        .ok { s with keogh2 := n }
    else do
      let n ← incr s.keogh
      .ok { s with keogh := n }
  else do
    let n ← incr s.kim
    .ok { s with kim := n }

/-- A point of the chunk (genex/lib/trillionDTW.cpp:442-527). -/
def pointR [HasSqrt K] (Q : Query K) (epoch m r it : ℕ) (buffer lbuf ubuf : Arr K) (s : St K) (i : ℕ) : Res (St K) := do
  let d ← rd buffer i
  if m = 0 then .error (.ub "modulus by zero")
  else do
    let t ← wr s.t (i % m : ℕ) d
    let t ← wr t ((i % m) + m : ℕ) d
    let s := { s with ex := ρ (s.ex + d), ex2 := ρ (s.ex2 + ρ (d * d)), t := t }
    if m - 1 ≤ i then do
      let s ← considerR ρ Q epoch m r it lbuf ubuf i s
      let x ← rd s.t ((i + 1) % m : ℕ)
      .ok { s with ex := ρ (s.ex - x), ex2 := ρ (s.ex2 - ρ (x * x)) }
    else .ok s

/-- The end (genex/lib/trillionDTW.cpp:537, 559-570). -/
def reportR [HasSqrt K] (epoch m it ep : ℕ) (s : St K) : Res (Report K) := do
  let o ← offset epoch m it
  .ok ⟨s.loc, ρ (Dbl.sqrt s.bsf), o + ep, s.kim, s.keogh, s.keogh2⟩

/-- The loop over the chunks (genex/lib/trillionDTW.cpp:406-535).  `fuel` is the number of chunks that are waited for. -/
def chunksR [HasSqrt K] (Q : Query K) (epoch m : ℕ) (r : Int) : (fuel it : ℕ) → Input K → Option (Dbl K) → Arr K → St K → Res (Report K)
  | 0, _, _, _, _, _ => .error .diverge
  | fuel + 1, it, f, d, buf, s => do
    let (f, d, buf) ← start epoch m it f d buf
    let (ep, f, d, buf) ← readRest (epoch - (m - 1)) (m - 1) f d buf
    if ep ≤ m - 1 then reportR ρ epoch m it ep s
    else do
      let vals ← readAll (buf.take ep)
      let (l, u) ← lemire false vals r
      let dots := 1000000 / (epoch + 1 - m)
      if dots = 0 then .error (.ub "modulus by zero")
      else do
        let lbuf := (List.range ep).map l
        let ubuf := (List.range ep).map u
        let s ← (List.range ep).foldlM (pointR ρ Q epoch m r.toNat it buf lbuf ubuf) { s with ex := 0, ex2 := 0 }
        if ep < epoch then reportR ρ epoch m it ep s
        else chunksR Q epoch m r fuel (it + 1) f d buf s

/-- `calculate` (genex/lib/trillionDTW.cpp:245-572): the files, or `none` for one that cannot be opened (the program is then ended).
`EPOCH` is a parameter, in the code 100000 (line 266). -/
def searchR [HasSqrt K] (S : Sorter K) (epoch fuel : ℕ) (data query : Option (Input K)) (m : ℕ) (r : Int) : Res (Report K) :=
  match data, query with
  | some data, some query => do
    let (Q, d) ← prepareR ρ S m r query
    chunksR ρ Q epoch m r fuel 0 data d (alloc epoch)
      ⟨alloc (2 * m), alloc m, List.replicate m (some 0), List.replicate m (some 0), List.replicate m (some 0), 0, 0, big, 0, 0, 0, 0⟩
  | _, _ => .error (.std "exit")

/-- `calculate` with the chunks of the code. -/
def calculateR [HasSqrt K] (S : Sorter K) (fuel : ℕ) (data query : Option (Input K)) (m : ℕ) (r : Int) : Res (Report K) :=
  searchR ρ S 100000 fuel data query m r

end Genex.Ucr
