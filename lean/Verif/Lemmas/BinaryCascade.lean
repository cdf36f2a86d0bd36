import Verif.Lemmas.BinaryUnits
import Verif.Model.Lemire

/-!
# Lemmas: envelopes and the cascade in units that rounding respects
-/

set_option linter.unusedSectionVars false

namespace Genex

open Dbl

section envelope
variable {K : Type} [LinearOrder K]

/-- Both output arrays in another unit. -/
def Lem.unit (φ : Dbl K → Dbl K) (z : Lem K) : Lem K := { z with u := fun k => (z.u k).map φ, l := fun k => (z.l k).map φ }

variable {φ : Dbl K → Dbl K}

theorem tAt_unit (t : List (Dbl K)) (i : ℕ) : tAt (t.map φ) i = (tAt t i).map φ := by
  unfold tAt
  rw [List.getElem?_map]
  cases t[i]? <;> rfl

theorem outSet_unit (len : ℕ) (out : OutArr K) (i : Int) (x : Dbl K) :
    outSet len (fun k => (out k).map φ) i (φ x) = (outSet len out i x).map fun o k => (o k).map φ := by
  unfold outSet
  split
  · simp only [Except.map]
    congr 1
    funext k
    split <;> rfl
  · rfl

theorem emit_unit (chk : Bool) (t : List (Dbl K)) (r : Int) (i : ℕ) (z : Lem K) :
    (z.unit φ).emit chk (t.map φ) r i = (z.emit chk t r i).map (Lem.unit φ) := by
  unfold Lem.emit
  simp only [Lem.unit, tAt_unit, List.length_map]
  cases z.du.front chk with
  | error e => rfl
  | ok fu =>
    simp only [bind, Except.bind]
    cases tAt t fu with
    | error e => rfl
    | ok xu =>
      simp only [Except.map, outSet_unit]
      cases outSet t.length z.u _ xu with
      | error e => rfl
      | ok u =>
        simp only [Except.map]
        cases z.dl.front chk with
        | error e => rfl
        | ok fl =>
          simp only
          cases tAt t fl with
          | error e => rfl
          | ok xl =>
            simp only [outSet_unit]
            cases outSet t.length z.l _ xl with
            | error e => rfl
            | ok l => rfl

theorem insert_unit (hφ : ∀ x y, φ x < φ y ↔ x < y) (chk : Bool) (t : List (Dbl K)) (i : ℕ) (z : Lem K) :
    (z.unit φ).insert chk (t.map φ) i = (z.insert chk t i).map (Lem.unit φ) := by
  have e1 : ∀ ti : Dbl K, (fun x => do let tx ← tAt (t.map φ) x; (.ok (decide (tx < φ ti)) : Res Bool)) =
      (fun x => do let tx ← tAt t x; .ok (decide (tx < ti))) := fun ti => by
    funext x
    rw [tAt_unit]
    cases tAt t x with
    | error e => rfl
    | ok y => simp only [bind, Except.bind, Except.map, hφ]
  have e2 : ∀ ti : Dbl K, (fun x => do let tx ← tAt (t.map φ) x; (.ok (decide (φ ti < tx)) : Res Bool)) =
      (fun x => do let tx ← tAt t x; .ok (decide (ti < tx))) := fun ti => by
    funext x
    rw [tAt_unit]
    cases tAt t x with
    | error e => rfl
    | ok y => simp only [bind, Except.bind, Except.map, hφ]
  unfold Lem.insert
  rw [tAt_unit, tAt_unit]
  cases tAt t i with
  | error e => rfl
  | ok ti =>
    cases tAt t (i - 1) with
    | error e => rfl
    | ok tp =>
      have ok : ∀ {α β : Type} (x : α) (f : α → Res β), ((Except.ok x : Res α) >>= f) = f x := fun x f => rfl
      simp only [Except.map, ok, e1, e2, hφ, Lem.unit]
      split
      · cases z.du.popBack chk with
        | error e => rfl
        | ok d =>
          simp only [ok]
          cases d.popWhile chk (fun x => do let tx ← tAt t x; .ok (decide (tx < ti))) d.size.toNat with
          | error e => rfl
          | ok d =>
            simp only [ok]
            cases d.pushBack chk i with
            | error e => rfl
            | ok du =>
              simp only [ok]
              cases z.dl.pushBack chk i <;> rfl
      · cases z.dl.popBack chk with
        | error e => rfl
        | ok d =>
          simp only [ok]
          cases d.popWhile chk (fun x => do let tx ← tAt t x; .ok (decide (ti < tx))) d.size.toNat with
          | error e => rfl
          | ok d =>
            simp only [ok]
            cases z.du.pushBack chk i with
            | error e => rfl
            | ok du =>
              simp only [ok]
              cases d.pushBack chk i <;> rfl

theorem expire_unit (chk : Bool) (r : Int) (i : ℕ) (z : Lem K) : (z.unit φ).expire chk r i = (z.expire chk r i).map (Lem.unit φ) := by
  unfold Lem.expire
  simp only [Lem.unit, bind, Except.bind]
  cases z.du.front chk with
  | error e => rfl
  | ok fu =>
    simp only
    split
    · cases z.du.popFront chk <;> rfl
    · cases z.dl.front chk with
      | error e => rfl
      | ok fl =>
        simp only
        split
        · cases z.dl.popFront chk <;> rfl
        · rfl

theorem step_unit (hφ : ∀ x y, φ x < φ y ↔ x < y) (chk : Bool) (t : List (Dbl K)) (r : Int) (z : Lem K) (i : ℕ) :
    (z.unit φ).step chk (t.map φ) r i = (z.step chk t r i).map (Lem.unit φ) := by
  have key : ∀ y : Lem K, ((y.unit φ).insert chk (t.map φ) i >>= fun s => s.expire chk r i) =
      (y.insert chk t i >>= fun s => s.expire chk r i).map (Lem.unit φ) := fun y => by
    rw [insert_unit hφ]
    cases y.insert chk t i with
    | error e => rfl
    | ok w => exact expire_unit chk r i w
  unfold Lem.step
  split
  · rw [emit_unit]
    cases z.emit chk t r i with
    | error e => rfl
    | ok y => exact key y
  · exact key z

theorem tail_unit (chk : Bool) (t : List (Dbl K)) (r : Int) (z : Lem K) (i : ℕ) :
    (z.unit φ).tail chk (t.map φ) r i = (z.tail chk t r i).map (Lem.unit φ) := by
  have key : ∀ y : Lem K, (do
      let fl ← (y.unit φ).dl.front chk
      if 2 * r + 1 ≤ (i : Int) - fl then do
        let d ← (y.unit φ).dl.popFront chk
        (.ok { (y.unit φ) with dl := d } : Res (Lem K))
      else .ok (y.unit φ)) = (do
      let fl ← y.dl.front chk
      if 2 * r + 1 ≤ (i : Int) - fl then do
        let d ← y.dl.popFront chk
        (.ok { y with dl := d } : Res (Lem K))
      else .ok y).map (Lem.unit φ) := fun y => by
    simp only [Lem.unit]
    cases y.dl.front chk with
    | error e => rfl
    | ok fl =>
      simp only [bind, Except.bind]
      split
      · cases y.dl.popFront chk <;> rfl
      · rfl
  unfold Lem.tail
  rw [emit_unit]
  cases z.emit chk t r i with
  | error e => rfl
  | ok y =>
    have ok : ∀ {α β : Type} (x : α) (f : α → Res β), ((Except.ok x : Res α) >>= f) = f x := fun x f => rfl
    have hd : (y.unit φ).du = y.du := rfl
    simp only [Except.map, ok, hd]
    cases y.du.front chk with
    | error e => rfl
    | ok fu =>
      simp only [ok]
      split
      · cases y.du.popFront chk with
        | error e => rfl
        | ok d => exact key { y with du := d }
      · exact key y

theorem keoghLU_unit (hφ : ∀ x y, φ x < φ y ↔ x < y) (t : List (Dbl K)) (w : Int) :
    keoghLU (t.map φ) w = (keoghLU t w).map fun e => ((fun k => (e.1 k).map φ), fun k => (e.2 k).map φ) := by
  unfold keoghLU lemire
  rw [List.length_map]
  generalize min w ((t.length : Int) - 1) = r
  cases (Deque.new (2 * r + 2).toNat).pushBack false 0 with
  | error e => rfl
  | ok d =>
    have ok : ∀ {α β : Type} (x : α) (f : α → Res β), ((Except.ok x : Res α) >>= f) = f x := fun x f => rfl
    simp only [ok]
    have h1 := (foldlM_units (Lem.unit φ) (fun _ => True) (List.range' 1 (t.length - 1)) { du := d, dl := d, u := fun _ => none, l := fun _ => none }
      trivial (fun y i _ _ => step_unit hφ false t r y i) (fun _ _ _ _ _ _ => trivial)).1
    have h0 : Lem.unit φ { du := d, dl := d, u := fun _ => none, l := fun _ => none } = { du := d, dl := d, u := fun _ => none, l := fun _ => none } := rfl
    rw [h0] at h1
    rw [h1]
    cases (List.range' 1 (t.length - 1)).foldlM (Lem.step false t r) { du := d, dl := d, u := fun _ => none, l := fun _ => none } with
    | error e => rfl
    | ok y =>
      simp only [ok, Except.map]
      have h2 := (foldlM_units (Lem.unit φ) (fun _ => True) (List.range' t.length (r + 1).toNat) y
        trivial (fun y i _ _ => tail_unit false t r y i) (fun _ _ _ _ _ _ => trivial)).1
      rw [h2]
      cases (List.range' t.length (r + 1).toNat).foldlM (Lem.tail false t r) y <;> rfl

end envelope

section
variable {K : Type} [Field K] [LinearOrder K] [IsStrictOrderedRing K] {s : K} {rd : K → K}

theorem at_unit (s : K) (a : List (Dbl K)) (i : ℕ) : at' (a.map (inUnit s)) i = inUnit s (at' a i) := by
  unfold at'
  rw [List.getD_eq_getElem?_getD, List.getD_eq_getElem?_getD, List.getElem?_map]
  cases a[i]? <;> rfl

theorem keoghLoop_unit (hs : 0 < s) (h : ∀ x, rd (s * x) = s * rd x) (lo up : OutArr K) (b : List (Dbl K)) (d : Dbl K) : ∀ (is : List ℕ) (lb : Dbl K),
    keoghLoopR rd (fun k => (lo k).map (inUnit s)) (fun k => (up k).map (inUnit s)) (b.map (inUnit s)) (inUnit (s * s) d) is (inUnit (s * s) lb) =
      (keoghLoopR rd lo up b d is lb).map (inUnit (s * s))
  | [], _ => rfl
  | i :: is, lb => by
    have ok : ∀ {α β : Type} (x : α) (f : α → Res β), ((Except.ok x : Res α) >>= f) = f x := fun x f => rfl
    have hg : ∀ o : OutArr K, outGet (fun k => (o k).map (inUnit s)) i = (outGet o i).map (inUnit s) := fun o => by
      unfold outGet
      beta_reduce
      cases o i <;> rfl
    unfold keoghLoopR
    simp only [inUnit_lt (mul_pos hs hs), at_unit, hg]
    split
    · cases outGet up i with
      | error e => rfl
      | ok u =>
        simp only [Except.map, ok, inUnit_lt hs, eucDist_unit hs h, unit_add, unit_rnd (rd_square h)]
        split
        · exact keoghLoop_unit hs h lo up b d is _
        · cases outGet lo i with
          | error e => rfl
          | ok l =>
            simp only [ok, inUnit_lt hs, eucDist_unit hs h, unit_add, unit_rnd (rd_square h)]
            split
            · exact keoghLoop_unit hs h lo up b d is _
            · exact keoghLoop_unit hs h lo up b d is _
    · rfl

variable [HasSqrt K] [LawfulSqrt K]

theorem kim_unit (hs : 0 < s) (h : ∀ x, rd (s * x) = s * rd x) (a b : List (Dbl K)) :
    kimLowerBoundR rd (a.map (inUnit s)) (b.map (inUnit s)) = inUnit s (kimLowerBoundR rd a b) := by
  unfold kimLowerBoundR
  simp only [List.length_map, at_unit, eucDist_unit hs h, unit_add, unit_rnd (rd_square h)]
  rw [← eucNorm_unit hs h]
  congr 1
  split
  · rfl
  split
  · rfl
  · exact (unit_zero _).symm

variable [BandOps]

theorem keogh_unit (hs : 0 < s) (h : ∀ x, rd (s * x) = s * rd x) (ratio : ℚ) (a b : List (Dbl K)) (d : Dbl K) :
    keoghLowerBoundR rd ratio (a.map (inUnit s)) (b.map (inUnit s)) (inUnit s d) = (keoghLowerBoundR rd ratio a b d).map (inUnit s) := by
  unfold keoghLowerBoundR
  simp only [List.length_map, keoghLU_unit (φ := inUnit s) fun x y => inUnit_lt hs]
  cases keoghLU a _ with
  | error e => rfl
  | ok env =>
    have ok : ∀ {α β : Type} (x : α) (f : α → Res β), ((Except.ok x : Res α) >>= f) = f x := fun x f => rfl
    simp only [Except.map, ok, Dbl.ofNat, unit_mulc, unit_rnd h, unit_mul hs hs, unit_rnd (rd_square h)]
    have := keoghLoop_unit hs h env.1 env.2 b (rnd rd (rnd rd (rnd rd (d * fin ((2 : ℕ) : K)) * fin ((max a.length b.length : ℕ) : K)) *
      rnd rd (rnd rd (d * fin ((2 : ℕ) : K)) * fin ((max a.length b.length : ℕ) : K)))) (List.range (min a.length b.length)) 0
    rw [unit_zero] at this
    rw [this]
    cases keoghLoopR rd env.1 env.2 b _ (List.range (min a.length b.length)) 0 with
    | error e => rfl
    | ok lb => simp only [Except.map, ok, eucNorm_unit hs h]

theorem cross_unit (hs : 0 < s) (h : ∀ x, rd (s * x) = s * rd x) (ratio : ℚ) (a b : List (Dbl K)) (d : Dbl K) :
    crossKeoghLowerBoundR rd ratio (a.map (inUnit s)) (b.map (inUnit s)) (inUnit s d) = (crossKeoghLowerBoundR rd ratio a b d).map (inUnit s) := by
  have ok : ∀ {α β : Type} (x : α) (f : α → Res β), ((Except.ok x : Res α) >>= f) = f x := fun x f => rfl
  unfold crossKeoghLowerBoundR
  rw [keogh_unit hs h, keogh_unit hs h]
  cases keoghLowerBoundR rd ratio a b d with
  | error e => rfl
  | ok lb =>
    simp only [Except.map, ok, inUnit_lt hs]
    split
    · rfl
    · cases keoghLowerBoundR rd ratio b a d with
      | error e => rfl
      | ok lb' => simp only [ok, unit_max hs]

theorem cascade_unit (hs : 0 < s) (h : ∀ x, rd (s * x) = s * rd x) (ratio : ℚ) (a b : List (Dbl K)) (d : Dbl K) (l : List (ℕ × ℕ)) :
    cascadeDistanceR rd ratio (a.map (inUnit s)) (b.map (inUnit s)) (inUnit s d) l =
      (cascadeDistanceR rd ratio a b d l).map fun r => (inUnit s r.1, r.2) := by
  unfold cascadeDistanceR
  rw [kim_unit hs h, cross_unit hs h]
  simp only [inUnit_lt hs]
  split
  · rfl
  · cases crossKeoghLowerBoundR rd ratio a b d with
    | error e => rfl
    | ok lb =>
      simp only [Except.map, inUnit_lt hs]
      split
      · rfl
      · exact (euclideanR_keeps hs h).warped ratio a b d l

end

end Genex
