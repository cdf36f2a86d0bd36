import Verif.Lemmas.TimeSeriesObj
import Verif.Props.LowerBounds

/-!
# C52-C54, C60: `TimeSeries` objects
-/

set_option linter.unusedSectionVars false

namespace Genex.Props

open Spec World

variable {K : Type} [Field K] [LinearOrder K]

/-- Run a list of operations from the state without objects. -/
def history (ops : List (Op ℚ)) : Res (World ℚ) := ops.foldlM World.step ⟨[], []⟩

theorem history_steps (ops : List (Op ℚ)) (w0 w : World ℚ) (h : ops.foldlM World.step w0 = .ok w) : Steps w0 w := by
  induction ops using List.reverseRecOn generalizing w with
  | nil =>
    have h : w0 = w := by simpa [pure, Except.pure] using h
    subst h; exact .refl
  | append_singleton ops op ih =>
    rw [List.foldlM_append] at h
    obtain ⟨w1, h1, h2⟩ := bind_ok h
    refine .step op (ih w1 h1) ?_
    rw [List.foldlM_cons] at h2
    obtain ⟨w2, h3, h4⟩ := bind_ok h2
    have h4 : w2 = w := by simpa [pure, Except.pure] using h4
    rw [← h4]; exact h3

/-! ## C52 -/

/-- C52: for series at different places in memory, `==` says whether they have the same length and values that differ by at most
`1e-9`.  Missing: series that start at the same place, see `C52_same_pointer`. -/
theorem C52_partial [IsStrictOrderedRing K] (w : World K) (x y : TsObj K) (xs ys : List K) (hx : Valued w x (xs.map .fin))
    (hy : Valued w y (ys.map .fin)) (hne : x.data ≠ y.data) :
    ∃ r, w.equal x y = .ok r ∧ (r = true ↔ xs.length = ys.length ∧
      ∀ (k : ℕ) a b, xs[k]? = some a → ys[k]? = some b → |a - b| ≤ 1 / 1000000000) := by
  have hxl : x.length = xs.length := by simpa using hx.1
  have hyl : y.length = ys.length := by simpa using hy.1
  unfold equal
  rw [if_neg hne, if_neg (by
    obtain ⟨-, p, cs, hp, -⟩ := hx
    obtain ⟨-, q, cs', hq, -⟩ := hy
    simp [hp, hq])]
  by_cases hl : x.length = y.length
  · rw [if_neg (by simpa using hl)]
    have hll : xs.length = ys.length := by omega
    obtain ⟨r, e, hr⟩ := eqLoop_ok hx hy (List.range x.length.toNat) (fun k hk => by rw [List.mem_range] at hk; omega)
    refine ⟨r, e, ?_⟩
    rw [hr]
    constructor
    · intro h
      refine ⟨hll, fun k a b ha hb => h k ?_ a b ha hb⟩
      rw [List.mem_range]
      have := (List.getElem?_eq_some_iff.1 ha).1
      omega
    · intro h k _ a b ha hb
      exact h.2 k a b ha hb
  · rw [if_pos (by simpa using hl)]
    exact ⟨false, rfl, by simp only [Bool.false_eq_true, false_iff]; intro h; omega⟩

/-- C52 is false: series with the same data pointer compare equal, whatever part of the data they are. -/
theorem C52_same_pointer (w : World K) (x y : TsObj K) (h : x.data = y.data) : w.equal x y = .ok true := by
  unfold equal
  rw [if_pos h]

/-- A dataset of one series and two parts of it. -/
def exParts : World ℚ := ⟨[some [some (.fin 1), some (.fin 5), some (.fin 9)]],
  [some ⟨some ⟨0, 0⟩, false, 0, 0, 1, 1, false, none, none⟩, some ⟨some ⟨0, 0⟩, false, 0, 1, 3, 2, false, none, none⟩]⟩

theorem exParts_reach : Reach exParts :=
  history_steps [.load [.fin 1, .fin 5, .fin 9], .newView ⟨0, 0⟩ 0 0 1, .newView ⟨0, 0⟩ 0 1 3] _ _ rfl

/-- C52 is false: two parts of one stored series, of lengths one and two, compare equal. -/
theorem C52_false : ∃ (w : World ℚ) (x y : TsObj ℚ), Reach w ∧ Object w 0 x ∧ Object w 1 y ∧ Valued w x [.fin 1] ∧
    Valued w y [.fin 5, .fin 9] ∧ w.equal x y = .ok true := by
  refine ⟨exParts, ⟨some ⟨0, 0⟩, false, 0, 0, 1, 1, false, none, none⟩, ⟨some ⟨0, 0⟩, false, 0, 1, 3, 2, false, none, none⟩,
    exParts_reach, rfl, rfl, ⟨rfl, ⟨0, 0⟩, _, rfl, rfl, by simp, ?_⟩, ⟨rfl, ⟨0, 0⟩, _, rfl, rfl, by simp, ?_⟩, C52_same_pointer _ _ _ rfl⟩
  · intro k x h
    match k, h with
    | 0, h => simpa using h
  · intro k x h
    match k, h with
    | 0, h => simpa using h
    | 1, h => simpa using h

/-- C52 is false for undefined values: NaN compares equal to every value. -/
theorem C52_nan_false : ∃ (w : World ℚ) (x y : TsObj ℚ), Valued w x [.nan] ∧ Valued w y [.fin 5] ∧ w.equal x y = .ok true := by
  refine ⟨⟨[some [some .nan, some (.fin 5)]], []⟩, ⟨some ⟨0, 0⟩, false, 0, 0, 1, 1, false, none, none⟩,
    ⟨some ⟨0, 1⟩, false, 1, 0, 1, 1, false, none, none⟩, ⟨rfl, ⟨0, 0⟩, _, rfl, rfl, by simp, ?_⟩,
    ⟨rfl, ⟨0, 1⟩, _, rfl, rfl, by simp, ?_⟩, by decide +kernel⟩
  all_goals
    intro k x h
    match k, h with
    | 0, h => simpa using h

/-- Two rows of a dataset, equal up to `1e-10`, and a third that differs. -/
def exRows : World ℚ := ⟨[some [some (.fin 1), some (.fin 5), some (.fin (1 + 1 / 10000000000)), some (.fin 5), some (.fin 1), some (.fin 6)]], []⟩

example : exRows.equal ⟨some ⟨0, 0⟩, false, 0, 0, 2, 2, false, none, none⟩ ⟨some ⟨0, 2⟩, false, 1, 0, 2, 2, false, none, none⟩ = .ok true ∧
    exRows.equal ⟨some ⟨0, 0⟩, false, 0, 0, 2, 2, false, none, none⟩ ⟨some ⟨0, 4⟩, false, 2, 0, 2, 2, false, none, none⟩ = .ok false := by
  decide +kernel

example : Valued exRows ⟨some ⟨0, 2⟩, false, 1, 0, 2, 2, false, none, none⟩ ([1 + 1 / 10000000000, 5].map .fin) := by
  refine ⟨rfl, ⟨0, 2⟩, _, rfl, rfl, by simp, ?_⟩
  intro k x h
  match k, h with
  | 0, h => simpa using h
  | 1, h => simpa using h

/-! ## C53 -/

/-- C53: after `x = y` for two different objects in any reachable state, `x` and `y` both have the values that `y` had, provided
that `y` does not refer to the array that `x` gives up, and that `x` had the length of `y` if `y` owns its data.  Missing: the
other lengths, see `C53_shorter_false` and `C53_longer_false`, and self-assignment, see `C53_self_false`. -/
theorem C53_partial (w : World K) (hw : Reach w) (i j : ℕ) (hij : i ≠ j) (x y : TsObj K) (hx : Object w i x) (hy : Object w j y)
    (ys : List (Dbl K)) (hv : Valued w y ys) (hsep : x.owner = true → ∀ b, Uses x b → ¬ Uses y b)
    (hlen : y.owner = true → x.length = y.length) :
    ∃ w' x', w.step (.copyAssign i j) = .ok w' ∧ Object w' i x' ∧ Valued w' x' ys ∧ Object w' j y ∧ Valued w' y ys := by
  have H := owned_reach hw
  obtain ⟨w1, hr⟩ := release_ok H hx
  have hk : Keeps (fun b => Uses y b) w w1 := (release_keeps hr).mono (fun b hb ho hu => hsep ho b hu hb)
  have hv1 := valued_keeps hk hv
  have hx1 : Object w1 i x := (object_of_objs (release_objs hr)).2 hx
  have hy1 : Object w1 j y := (object_of_objs (release_objs hr)).2 hy
  simp only [step]
  unfold copyAssign
  simp only [obj_of hx, obj_of hy, bind, Except.bind]
  rw [hr]
  simp only
  by_cases ho : y.owner = true
  · obtain ⟨hs, hd⟩ := H.own j y hy ho
    obtain ⟨hl, p, cs, hp, hb, h0, hc⟩ := hv1
    have hlen := hlen ho
    obtain ⟨hoff, -⟩ := hd p hp
    have hcs : ys.length ≤ cs.length := by
      by_contra hlt
      have := hc cs.length (ys[cs.length]'(by omega)) (List.getElem?_eq_getElem _)
      rw [hoff, hs] at this
      simp at this
    have hlt : p.buf < w1.bufs.length := (List.getElem?_eq_some_iff.1 hb).1
    rw [if_pos ho]
    unfold alloc
    rw [if_neg (by omega)]
    simp only
    have hy2 : Object ((World.mk (w1.bufs ++ [some (List.replicate x.length.toNat none)]) w1.objs).setObj i
        { x with data := some ⟨w1.bufs.length, 0⟩ }) j y := (object_setObj_ne hij).2 hy1
    rw [obj_of hy2]
    simp only
    rw [if_neg (by rintro ⟨h, -⟩; rw [hp, Option.some.injEq] at h; rw [h] at hlt; simp at hlt)]
    have hsrc : ((World.mk (w1.bufs ++ [some (List.replicate x.length.toNat none)]) w1.objs).setObj i
        { x with data := some ⟨w1.bufs.length, 0⟩ }).copySrc y.data x.length.toNat = .ok (cs.take ys.length) := by
      unfold copySrc
      rw [hp]
      simp only [bind, Except.bind]
      rw [cells_eq_ok.2 (show _ = some (some cs) by
        change (w1.bufs ++ _)[p.buf]? = _
        rw [List.getElem?_append_left hlt, hb])]
      simp only
      rw [if_neg (by omega), hoff, hlen, hl]
      simp
    rw [hsrc]
    refine ⟨_, _, rfl, object_setObj_self (o := { x with data := some ⟨w1.bufs.length, 0⟩ }) (object_setObj_self hx1), ?_, ?_, ?_⟩
    · refine ⟨hl, ⟨w1.bufs.length, 0⟩, cs.take ys.length, rfl, ?_, by simp [hs], ?_⟩
      · simp [setObj]
      · intro k v hkv
        have := hc k v hkv
        rw [hoff] at this
        have hlk := (List.getElem?_eq_some_iff.1 hkv).1
        simp only [hs, Int.zero_add] at this ⊢
        rw [List.getElem?_take_of_lt (by simpa using hlk)]
        exact this
    · exact (object_setObj_ne hij).2 hy2
    · refine ⟨hl, p, cs, hp, ?_, h0, hc⟩
      change ((w1.bufs ++ _).set w1.bufs.length _)[p.buf]? = _
      rw [List.getElem?_set_ne (by omega), List.getElem?_append_left hlt, hb]
  · rw [if_neg ho]
    refine ⟨_, _, rfl, object_setObj_self hx1, ?_, (object_setObj_ne hij).2 hy1, hv1⟩
    exact hv1

/-- C53 is false: if `y` owns its data and `x` was shorter, `x` has the length of `y` afterwards but an array of its old length:
it stands for no values any more, and reading its last point is undefined. -/
theorem C53_shorter_false (w : World K) (hw : Reach w) (i j : ℕ) (x y : TsObj K) (hx : Object w i x)
    (hy : Object w j y) (ys : List (Dbl K)) (hv : Valued w y ys) (ho : y.owner = true)
    (hsep : x.owner = true → ∀ b, Uses x b → ¬ Uses y b) (h0 : 0 ≤ x.length) (hlt : x.length < y.length) :
    ∃ w' x', w.step (.copyAssign i j) = .ok w' ∧ Object w' i x' ∧ x'.length = y.length ∧
      w'.read x'.data (x'.start + (x'.length - 1)) = .error (.ub "read outside the array") ∧ ∀ xs, ¬ Valued w' x' xs := by
  have hij : i ≠ j := by rintro rfl; have := object_unique hx hy; rw [this] at hlt; omega
  have H := owned_reach hw
  obtain ⟨w1, hr⟩ := release_ok H hx
  have hk : Keeps (fun b => Uses y b) w w1 := (release_keeps hr).mono (fun b hb ho hu => hsep ho b hu hb)
  have hv1 := valued_keeps hk hv
  have hx1 : Object w1 i x := (object_of_objs (release_objs hr)).2 hx
  have hy1 : Object w1 j y := (object_of_objs (release_objs hr)).2 hy
  obtain ⟨hs, hd⟩ := H.own j y hy ho
  obtain ⟨hl, p, cs, hp, hb, h0', hc⟩ := hv1
  obtain ⟨hoff, -⟩ := hd p hp
  have hcs : ys.length ≤ cs.length := by
    by_contra hlt
    have := hc cs.length (ys[cs.length]'(by omega)) (List.getElem?_eq_getElem _)
    rw [hoff, hs] at this
    simp at this
  have hlt' : p.buf < w1.bufs.length := (List.getElem?_eq_some_iff.1 hb).1
  simp only [step]
  unfold copyAssign
  simp only [obj_of hx, obj_of hy, bind, Except.bind]
  rw [hr]
  simp only
  rw [if_pos ho]
  unfold alloc
  rw [if_neg (by omega)]
  simp only
  have hy2 : Object ((World.mk (w1.bufs ++ [some (List.replicate x.length.toNat none)]) w1.objs).setObj i
      { x with data := some ⟨w1.bufs.length, 0⟩ }) j y := (object_setObj_ne hij).2 hy1
  rw [obj_of hy2]
  simp only
  rw [if_neg (by rintro ⟨h, -⟩; rw [hp, Option.some.injEq] at h; rw [h] at hlt'; simp at hlt')]
  have hsrc : ((World.mk (w1.bufs ++ [some (List.replicate x.length.toNat none)]) w1.objs).setObj i
      { x with data := some ⟨w1.bufs.length, 0⟩ }).copySrc y.data x.length.toNat = .ok (cs.take x.length.toNat) := by
    unfold copySrc
    rw [hp]
    simp only [bind, Except.bind]
    rw [cells_eq_ok.2 (show _ = some (some cs) by
      change (w1.bufs ++ _)[p.buf]? = _
      rw [List.getElem?_append_left hlt', hb])]
    simp only
    rw [if_neg (by omega), hoff]
    simp
  rw [hsrc]
  refine ⟨_, _, rfl, object_setObj_self (o := { x with data := some ⟨w1.bufs.length, 0⟩ }) (object_setObj_self hx1), rfl, ?_, ?_⟩
  · unfold World.read
    simp only [bind, Except.bind]
    rw [cells_eq_ok.2 (show _ = some (some (cs.take x.length.toNat)) by simp [setObj])]
    simp only
    rw [if_neg (by omega), List.getElem?_eq_none (by rw [List.length_take]; omega)]
  · rintro xs ⟨g1, q, cs', g2, g3, g4, g5⟩
    simp only [Option.some.injEq] at g2
    subst g2
    have g3 : some (some (cs.take x.length.toNat)) = some (some cs') := by rw [← g3]; simp [setObj]
    simp only [Option.some.injEq] at g3
    simp only at g1
    have := g5 (x.length.toNat) (xs[x.length.toNat]'(by omega)) (List.getElem?_eq_getElem _)
    rw [← g3, hs] at this
    simp at this

/-- C53 is false: if `y` owns its data and `x` was longer, the assignment reads behind the array of `y`. -/
theorem C53_longer_false (w : World K) (hw : Reach w) (i j : ℕ) (hij : i ≠ j) (x y : TsObj K) (hx : Object w i x)
    (hy : Object w j y) (ho : y.owner = true) (p : Ptr) (cs : List (Option (Dbl K))) (hp : y.data = some p)
    (hb : w.bufs[p.buf]? = some (some cs)) (hcs : (cs.length : Int) = y.length) (hlt : y.length < x.length) :
    w.step (.copyAssign i j) = .error (.ub "read outside the array") := by
  have H := owned_reach hw
  obtain ⟨w1, hr⟩ := release_ok H hx
  have hb1 : w1.bufs[p.buf]? = some (some cs) := by
    refine release_keeps hr _ _ (fun hxo hu => ?_) hb
    exact H.distinct i j x y hx hy hxo ho hij _ hu ⟨p.off, hp⟩
  have hx1 : Object w1 i x := (object_of_objs (release_objs hr)).2 hx
  have hy1 : Object w1 j y := (object_of_objs (release_objs hr)).2 hy
  obtain ⟨hoff, -⟩ := (H.own j y hy ho).2 p hp
  have hlt' : p.buf < w1.bufs.length := (List.getElem?_eq_some_iff.1 hb1).1
  simp only [step]
  unfold copyAssign
  simp only [obj_of hx, obj_of hy, bind, Except.bind]
  rw [hr]
  simp only
  rw [if_pos ho]
  unfold alloc
  rw [if_neg (by omega)]
  simp only
  have hy2 : Object ((World.mk (w1.bufs ++ [some (List.replicate x.length.toNat none)]) w1.objs).setObj i
      { x with data := some ⟨w1.bufs.length, 0⟩ }) j y := (object_setObj_ne hij).2 hy1
  rw [obj_of hy2]
  simp only
  rw [if_neg (by rintro ⟨h, -⟩; rw [hp, Option.some.injEq] at h; rw [h] at hlt'; simp at hlt')]
  have hsrc : ((World.mk (w1.bufs ++ [some (List.replicate x.length.toNat none)]) w1.objs).setObj i
      { x with data := some ⟨w1.bufs.length, 0⟩ }).copySrc y.data x.length.toNat = .error (.ub "read outside the array") := by
    unfold copySrc
    rw [hp]
    simp only [bind, Except.bind]
    rw [cells_eq_ok.2 (show _ = some (some cs) by
      change (w1.bufs ++ _)[p.buf]? = _
      rw [List.getElem?_append_left hlt', hb1])]
    simp only
    rw [if_pos (by omega)]
  rw [hsrc]

/-- C53 is false: assigning an owning series of at least one point to itself copies the new array, still unwritten, onto itself;
its values are lost. -/
theorem C53_self_false (w : World K) (hw : Reach w) (i : ℕ) (x : TsObj K) (hx : Object w i x) (ho : x.owner = true)
    (hl : 0 < x.length) : w.step (.copyAssign i i) = .error (.ub "memcpy from an array to itself") := by
  have H := owned_reach hw
  obtain ⟨w1, hr⟩ := release_ok H hx
  have hx1 : Object w1 i x := (object_of_objs (release_objs hr)).2 hx
  simp only [step]
  unfold copyAssign
  simp only [obj_of hx, bind, Except.bind]
  rw [hr]
  simp only
  rw [if_pos ho]
  unfold alloc
  rw [if_neg (by omega)]
  simp only
  rw [obj_of (object_setObj_self (show Object (World.mk (w1.bufs ++ [some (List.replicate x.length.toNat none)]) w1.objs) i x from hx1))]
  simp only
  rw [if_pos ⟨trivial, hl⟩]

/-- C53 for the move assignment between two different objects: `x` gets the values of `y`, whatever the lengths; `y` is left
without data. -/
theorem C53_move (w : World K) (hw : Reach w) (i j : ℕ) (hij : i ≠ j) (x y : TsObj K) (hx : Object w i x) (hy : Object w j y)
    (ys : List (Dbl K)) (hv : Valued w y ys) (hsep : x.owner = true → ∀ b, Uses x b → ¬ Uses y b) :
    ∃ w' x' y', w.step (.moveAssign i j) = .ok w' ∧ Object w' i x' ∧ Valued w' x' ys ∧ Object w' j y' ∧ y'.data = none := by
  have H := owned_reach hw
  obtain ⟨w1, hr⟩ := release_ok H hx
  have hk : Keeps (fun b => Uses y b) w w1 := (release_keeps hr).mono (fun b hb ho hu => hsep ho b hu hb)
  have hv1 := valued_keeps hk hv
  have hx1 : Object w1 i x := (object_of_objs (release_objs hr)).2 hx
  have hy1 : Object w1 j y := (object_of_objs (release_objs hr)).2 hy
  have hx2 : Object (w1.setObj i { x with data := y.data }) i _ := object_setObj_self hx1
  have hy2 : Object (w1.setObj i { x with data := y.data }) j y := (object_setObj_ne hij).2 hy1
  have hx3 : Object ((w1.setObj i { x with data := y.data }).setObj j { y with data := none }) i _ :=
    (object_setObj_ne (fun e => hij e.symm)).2 hx2
  have hy3 : Object ((w1.setObj i { x with data := y.data }).setObj j { y with data := none }) j _ := object_setObj_self hy2
  simp only [step]
  unfold moveAssign
  simp only [obj_of hx, obj_of hy, bind, Except.bind]
  rw [hr]
  simp only
  rw [obj_of hy2]
  simp only
  rw [obj_of hx3]
  exact ⟨_, _, _, rfl, object_setObj_self hx3, hv1, (object_setObj_ne hij).2 hy3, rfl⟩

/-- Owning series of two, two, one and three points, and one part of the first. -/
def exOwners : World ℚ := ⟨[some [some (.fin 3), some (.fin 4)], some [some 0, some 0], some [some 0], some [some 0, some 0, some 0]],
  [some ⟨some ⟨0, 0⟩, true, 0, 0, 2, 2, false, none, none⟩, some ⟨some ⟨1, 0⟩, true, 0, 0, 2, 2, false, none, none⟩,
   some ⟨some ⟨2, 0⟩, true, 0, 0, 1, 1, false, none, none⟩, some ⟨some ⟨3, 0⟩, true, 0, 0, 3, 3, false, none, none⟩,
   some ⟨some ⟨0, 0⟩, false, 7, 1, 2, 1, false, none, none⟩]⟩

theorem exOwners_reach : Reach exOwners :=
  history_steps [.newOwned 2, .setAt 0 0 (.fin 3), .setAt 0 1 (.fin 4), .newOwned 2, .newOwned 1, .newOwned 3, .newView ⟨0, 0⟩ 7 1 2] _ _ rfl

theorem exOwners_valued : Valued exOwners ⟨some ⟨0, 0⟩, true, 0, 0, 2, 2, false, none, none⟩ [.fin 3, .fin 4] := by
  refine ⟨rfl, ⟨0, 0⟩, _, rfl, rfl, by simp, ?_⟩
  intro k x h
  match k, h with
  | 0, h => simpa using h
  | 1, h => simpa using h

theorem exOwners_view : Valued exOwners ⟨some ⟨0, 0⟩, false, 7, 1, 2, 1, false, none, none⟩ [.fin 4] := by
  refine ⟨rfl, ⟨0, 0⟩, _, rfl, rfl, by simp, ?_⟩
  intro k x h
  match k, h with
  | 0, h => simpa using h

/-- Same length; a part to an owner of another length; too short; too long; itself; moved to another length. -/
example := C53_partial exOwners exOwners_reach 1 0 (by omega) _ _ rfl rfl _ exOwners_valued (by simp [Uses]) (fun _ => rfl)
example := C53_partial exOwners exOwners_reach 3 4 (by omega) _ _ rfl rfl _ exOwners_view (by simp [Uses]) (by simp)
example := C53_shorter_false exOwners exOwners_reach 2 0 _ _ rfl rfl _ exOwners_valued rfl (by simp [Uses]) (by simp) (by simp)
example := C53_longer_false exOwners exOwners_reach 3 0 (by omega) _ _ rfl rfl rfl ⟨0, 0⟩ _ rfl rfl rfl (by simp)
example := C53_self_false exOwners exOwners_reach 0 _ rfl rfl (by simp)
example := C53_move exOwners exOwners_reach 3 0 (by omega) _ _ rfl rfl _ exOwners_valued (by simp [Uses])

/-! ## C54 -/

/-- C54: after any history of careful uses (`Spec.Careful`), the envelope obtained for a series of at least one point, all finite,
is that of its current values for the requested band.  Missing: other histories, see `C54_assign_false`, `C54_write_false`,
`C54_add_false`, `C54_false`. -/
theorem C54_partial [IsStrictOrderedRing K] (w : World K) (hw : CarefulReach w) (i : ℕ) (o : TsObj K) (ho : Object w i o)
    (xs : List K) (hx : 1 ≤ xs.length) (hv : Valued w o (xs.map .fin)) (band : ℕ) :
    ∃ w' lu, w.getKeogh i band = .ok (w', lu) ∧ IsEnvelope xs band lu := by
  obtain ⟨lo, up, e, h⟩ := C08_envelope xs hx band
  obtain ⟨w', e'⟩ := fresh_getKeogh (fresh_reach hw) ho (valued_points hv) e
  exact ⟨w', (lo, up), e', h⟩

theorem kept_getKeogh {w : World K} {i : ℕ} {x : TsObj K} (hx : Object w i x) {b : Int} {lu : OutArr K × OutArr K}
    (h1 : x.cacheValid = true) (h2 : x.cacheBand = some b) (h3 : x.keogh = some lu) : w.getKeogh i b = .ok (w, lu) := by
  unfold getKeogh
  simp only [obj_of hx, bind, Except.bind]
  unfold cacheHit
  rw [if_pos h1, h2]
  simp only [decide_true, if_true, h3]

/-- C54 is false: assigning to a series that keeps an envelope leaves that envelope, whatever is assigned. -/
theorem C54_assign_false (w w' : World K) (i j : ℕ) (x : TsObj K) (hx : Object w i x) (b : Int) (lu : OutArr K × OutArr K)
    (h1 : x.cacheValid = true) (h2 : x.cacheBand = some b) (h3 : x.keogh = some lu)
    (h : w.step (.copyAssign i j) = .ok w' ∨ w.step (.moveAssign i j) = .ok w') : w'.getKeogh i b = .ok (w', lu) := by
  rcases h with h | h
  · obtain ⟨x', y, w1, hx', hy, hr, h⟩ := copyAssign_eq h
    have e := object_unique hx hx'
    subst e
    have hx1 : Object w1 i x := (object_of_objs (release_objs hr)).2 hx
    rcases h with ⟨-, rfl⟩ | ⟨-, c, d, os, rfl, -, rfl⟩
    · exact kept_getKeogh (object_setObj_self hx1) h1 h2 h3
    · have hx2 : Object (World.mk ((w1.bufs ++ c).set w.bufs.length (some d))
          (w1.setObj i { x with data := some ⟨w.bufs.length, 0⟩ }).objs) i _ := object_setObj_self hx1
      exact kept_getKeogh (object_setObj_self hx2) h1 h2 h3
  · obtain ⟨x', y, w1, hx', hy, hr, h⟩ := moveAssign_eq h
    have e := object_unique hx hx'
    subst e
    have hx1 : Object w1 i x := (object_of_objs (release_objs hr)).2 hx
    rcases h with ⟨rfl, rfl⟩ | ⟨hij, rfl⟩
    · exact kept_getKeogh (object_setObj_self (object_setObj_self (object_setObj_self hx1))) h1 h2 h3
    · exact kept_getKeogh (object_setObj_self ((object_setObj_ne (fun e => hij e.symm)).2 (object_setObj_self hx1))) h1 h2 h3

/-- C54 is false: writing to a series through `operator[]`, or to the data of the dataset as `normalize` does, leaves every
envelope that is kept. -/
theorem C54_write_false (w w' : World K) (i : ℕ) (x : TsObj K) (hx : Object w i x) (b : Int) (lu : OutArr K × OutArr K)
    (h1 : x.cacheValid = true) (h2 : x.cacheBand = some b) (h3 : x.keogh = some lu) (j : ℕ) (k : Int) (v : Dbl K)
    (h : w.step (.setAt j k v) = .ok w' ∨ w.step (.poke j k v) = .ok w') : w'.getKeogh i b = .ok (w', lu) := by
  rcases h with h | h
  · obtain ⟨x', -, -, -, h⟩ := setAt_eq h
    exact kept_getKeogh ((object_of_objs (write_objs h)).2 hx) h1 h2 h3
  · have h : w.write (some ⟨j, 0⟩) k v = .ok w' := h
    exact kept_getKeogh ((object_of_objs (write_objs h)).2 hx) h1 h2 h3

/-- C54 is false: `+=` discards the envelope of its left side only, not those of other series on the same data. -/
theorem C54_add_false (w w' : World K) (i : ℕ) (x : TsObj K) (hx : Object w i x) (b : Int) (lu : OutArr K × OutArr K)
    (h1 : x.cacheValid = true) (h2 : x.cacheBand = some b) (h3 : x.keogh = some lu) (j l : ℕ) (hij : j ≠ i)
    (h : w.step (.addAssign j l) = .ok w') : w'.getKeogh i b = .ok (w', lu) := by
  obtain ⟨y, w1, hy, rfl, e, -⟩ := addAssign_eq h
  exact kept_getKeogh ((object_setObj_ne hij).2 ((object_of_objs e).2 hx)) h1 h2 h3

/-- After a history: the lower and upper envelope obtained for object `i` and the values it has then. -/
def envelopes (ops : List (Op ℚ)) (i : ℕ) (band : Int) : Res (List (Option (Dbl ℚ)) × List (Option (Dbl ℚ)) × List (Dbl ℚ)) := do
  let w ← history ops
  let r ← w.getKeogh i band
  let o ← w.obj i
  let pts ← w.points o
  .ok ((List.range pts.length).map r.2.1, (List.range pts.length).map r.2.2, pts)

/-- C54 is false: four histories, with an assignment, a write, an addition to a series on the same data, and normalisation, after
which the series `5 1` or `4 1` has the envelope of `1 2`. -/
theorem C54_false :
    envelopes [.load [.fin 1, .fin 2, .fin 5, .fin 1], .newView ⟨0, 0⟩ 0 0 2, .getKeogh 0 0, .newView ⟨0, 2⟩ 1 0 2,
      .copyAssign 0 1] 0 0 = .ok ([some (.fin 1), some (.fin 2)], [some (.fin 1), some (.fin 2)], [.fin 5, .fin 1]) ∧
    envelopes [.newOwned 2, .setAt 0 0 (.fin 1), .setAt 0 1 (.fin 2), .getKeogh 0 0, .setAt 0 0 (.fin 5), .setAt 0 1 (.fin 1)] 0 0
      = .ok ([some (.fin 1), some (.fin 2)], [some (.fin 1), some (.fin 2)], [.fin 5, .fin 1]) ∧
    envelopes [.load [.fin 1, .fin 2, .fin 3, .fin (-1)], .newView ⟨0, 0⟩ 0 0 2, .getKeogh 0 0, .newView ⟨0, 0⟩ 0 0 2,
      .newView ⟨0, 2⟩ 1 0 2, .addAssign 1 2] 0 0
      = .ok ([some (.fin 1), some (.fin 2)], [some (.fin 1), some (.fin 2)], [.fin 4, .fin 1]) ∧
    envelopes [.load [.fin 1, .fin 2], .newView ⟨0, 0⟩ 0 0 2, .getKeogh 0 0, .poke 0 0 (.fin 5), .poke 0 1 (.fin 1)] 0 0
      = .ok ([some (.fin 1), some (.fin 2)], [some (.fin 1), some (.fin 2)], [.fin 5, .fin 1]) := by
  refine ⟨?_, ?_, ?_, ?_⟩ <;> decide +kernel

/-- A careful history: the sum is added to a series that keeps an envelope, which is then computed again. -/
def exCareful : List (Op ℚ) := [.load [.fin 1, .fin 2, .fin 3, .fin (-1)], .newView ⟨0, 0⟩ 0 0 2, .getKeogh 0 0,
  .newView ⟨0, 2⟩ 1 0 2, .addAssign 0 1]

example : envelopes exCareful 0 0 = .ok ([some (.fin 4), some (.fin 1)], [some (.fin 4), some (.fin 1)], [.fin 4, .fin 1]) := by
  decide +kernel

theorem exCareful_reach : ∃ (w : World ℚ) (o : TsObj ℚ), CarefulReach w ∧ Object w 0 o ∧ Valued w o ([4, 1].map .fin) := by
  have step : ∀ {w : World ℚ} (op : Op ℚ) {w' : World ℚ}, w.step op = .ok w' → CarefulReach w → Careful w op → CarefulReach w' :=
    fun op _ h hw hc => .step op hw hc h
  have h1 : CarefulReach _ := step (.newView ⟨0, 0⟩ 0 0 2) rfl
    (step (.load [.fin (1 : ℚ), .fin 2, .fin 3, .fin (-1)]) rfl .empty trivial) trivial
  obtain ⟨w2, lu, e, -⟩ := C54_partial _ h1 0 _ rfl [1, 2] (by simp) (by
    refine ⟨rfl, ⟨0, 0⟩, _, rfl, rfl, by simp, ?_⟩
    intro k x h
    match k, h with
    | 0, h => simpa using h
    | 1, h => simpa using h) 0
  have h2 : CarefulReach w2 := step (.getKeogh 0 0) (by simp only [World.step, Nat.cast_zero] at e ⊢; rw [e]; rfl) h1 trivial
  obtain ⟨x, hx, ⟨hv, -⟩ | ⟨pts, -, -, e2⟩⟩ := getKeogh_eq e
  · cases hx; cases hv
  · cases hx
    simp only at e2
    subst e2
    have h3 : CarefulReach _ := step (.newView ⟨0, 2⟩ 1 0 2) rfl h2 trivial
    have h4 : CarefulReach _ := step (.addAssign 0 1) rfl h3 (by
      intro x b hx _ j o ho _ hj
      match j, ho with
      | 0, _ => simp at hj
      | 1, ho => cases ho; rfl)
    refine ⟨_, _, h4, rfl, rfl, ⟨0, 0⟩, _, rfl, rfl, by simp, ?_⟩
    intro k x h
    match k, h with
    | 0, h =>
      simp at h; subst h
      change some (some (Dbl.fin (1 : ℚ) + Dbl.fin 3)) = _
      decide +kernel
    | 1, h =>
      simp at h; subst h
      change some (some (Dbl.fin (2 : ℚ) + Dbl.fin (-1))) = _
      decide +kernel

example : ∃ w w' lu, World.getKeogh (K := ℚ) w 0 (1 : ℕ) = .ok (w', lu) ∧ IsEnvelope [4, 1] 1 lu := by
  obtain ⟨w, o, h1, h2, h3⟩ := exCareful_reach
  exact ⟨w, C54_partial w h1 0 o h2 [4, 1] (by simp) h3 1⟩

/-! ## C60 -/

/-- C60: in every reachable state every existing object can be destroyed and moved to: what it frees is an array that is still
there, from its beginning. -/
theorem C60_destroy (w : World K) (hw : Reach w) (i : ℕ) (x : TsObj K) (hx : Object w i x) :
    ∃ w', w.step (.destroy i) = .ok w' := by
  obtain ⟨w1, hr⟩ := release_ok (owned_reach hw) hx
  simp only [step]
  unfold destroy
  simp only [obj_of hx, bind, Except.bind]
  rw [hr]
  exact ⟨_, rfl⟩

/-- C60 for the move assignment. -/
theorem C60_move (w : World K) (hw : Reach w) (i j : ℕ) (x y : TsObj K) (hx : Object w i x) (hy : Object w j y) :
    ∃ w', w.step (.moveAssign i j) = .ok w' := by
  obtain ⟨w1, hr⟩ := release_ok (owned_reach hw) hx
  have hx1 : Object w1 i x := (object_of_objs (release_objs hr)).2 hx
  have hy1 : Object w1 j y := (object_of_objs (release_objs hr)).2 hy
  simp only [step]
  unfold moveAssign
  simp only [obj_of hx, obj_of hy, bind, Except.bind]
  rw [hr]
  simp only
  have hy2 : ∃ y', Object (w1.setObj i { x with data := y.data }) j y' := by
    by_cases hij : i = j
    · subst hij; exact ⟨_, object_setObj_self hx1⟩
    · exact ⟨y, (object_setObj_ne hij).2 hy1⟩
  obtain ⟨y', hy2⟩ := hy2
  rw [obj_of hy2]
  simp only
  have hx3 : ∃ x', Object ((w1.setObj i { x with data := y.data }).setObj j { y' with data := none }) i x' := by
    by_cases hij : j = i
    · subst hij; exact ⟨_, object_setObj_self hy2⟩
    · exact ⟨_, (object_setObj_ne hij).2 (object_setObj_self hx1)⟩
  obtain ⟨x', hx3⟩ := hx3
  rw [obj_of hx3]
  exact ⟨_, rfl⟩

/-- C60 for the copy assignment: it can fail only when it copies the values (C53), not when it frees. -/
theorem C60_copy (w : World K) (hw : Reach w) (i j : ℕ) (x y : TsObj K) (hx : Object w i x) (hy : Object w j y) (e : Fault)
    (h : w.step (.copyAssign i j) = .error e) :
    y.owner = true ∧ e ∈ [Fault.ub "memcpy from an array to itself", .ub "read outside the array", .ub "null pointer dereference",
      .std "bad_array_new_length"] := by
  have H := owned_reach hw
  obtain ⟨w1, hr⟩ := release_ok H hx
  have hx1 : Object w1 i x := (object_of_objs (release_objs hr)).2 hx
  have hy1 : Object w1 j y := (object_of_objs (release_objs hr)).2 hy
  simp only [step] at h
  unfold copyAssign at h
  simp only [obj_of hx, obj_of hy, bind, Except.bind] at h
  rw [hr] at h
  simp only at h
  by_cases ho : y.owner = true
  · refine ⟨ho, ?_⟩
    rw [if_pos ho] at h
    unfold alloc at h
    by_cases hn : x.length < 0
    · rw [if_pos hn] at h
      simp only [Except.error.injEq] at h
      simp [← h]
    · rw [if_neg hn] at h
      simp only at h
      by_cases hij : i = j
      · subst hij
        rw [obj_of (object_setObj_self (show Object (World.mk (w1.bufs ++ [some (List.replicate x.length.toNat none)]) w1.objs) i x
          from hx1))] at h
        simp only [true_and] at h
        by_cases hl : 0 < x.length
        · rw [if_pos hl] at h
          simp only [Except.error.injEq] at h
          simp [← h]
        · rw [if_neg hl] at h
          unfold copySrc cells at h
          simp [setObj, bind, Except.bind] at h
      · rw [obj_of (show Object ((World.mk (w1.bufs ++ [some (List.replicate x.length.toNat none)]) w1.objs).setObj i
          { x with data := some ⟨w1.bufs.length, 0⟩ }) j y from (object_setObj_ne hij).2 hy1)] at h
        simp only at h
        split at h
        · simp only [Except.error.injEq] at h
          simp [← h]
        · rcases hp : y.data with _ | p
          · rw [hp] at h
            simp only [copySrc, Except.error.injEq] at h
            simp [← h]
          · obtain ⟨-, cs, hb⟩ := (H.own j y hy ho).2 p hp
            have hb1 : w1.bufs[p.buf]? = some (some cs) := by
              refine release_keeps hr _ _ (fun hxo hu => ?_) hb
              exact H.distinct i j x y hx hy hxo ho hij _ hu ⟨p.off, hp⟩
            have hlt' : p.buf < w1.bufs.length := (List.getElem?_eq_some_iff.1 hb1).1
            rw [hp] at h
            unfold copySrc at h
            simp only [bind, Except.bind] at h
            rw [cells_eq_ok.2 (show _ = some (some cs) by
              change (w1.bufs ++ _)[p.buf]? = _
              rw [List.getElem?_append_left hlt', hb1])] at h
            simp only at h
            by_cases hc : p.off < 0 ∨ (cs.length : Int) < p.off + x.length.toNat
            · rw [if_pos hc] at h
              simp only [Except.error.injEq] at h
              simp [← h]
            · rw [if_neg hc] at h
              simp at h
  · rw [if_neg ho] at h
    cases h

/-- C60 for the data of datasets: no history of the objects frees it. -/
theorem C60_dataset (w w' w'' : World K) (hw : Reach w) (data : List (Dbl K)) (h : w.step (.load data) = .ok w') (hs : Steps w' w'') :
    ∃ cs, w''.bufs[w.bufs.length]? = some (some cs) := by
  have H := owned_reach hw
  have F : Foreign w' w.bufs.length := by
    simp only [step, Except.ok.injEq] at h
    subst h
    refine ⟨⟨data.map some, by simp⟩, fun i o ho hown hu => ?_⟩
    obtain ⟨off, e⟩ := hu
    obtain ⟨-, cs, hb⟩ := (H.own i o ho hown).2 _ e
    have := (List.getElem?_eq_some_iff.1 hb).1
    simp at this
  exact (foreign_steps (owned_step H _ h) F hs).1

example := C60_destroy exOwners exOwners_reach 3 _ rfl
example := C60_move exOwners exOwners_reach 3 3 _ _ rfl rfl
example := C60_dataset exOwners _ _ exOwners_reach [.fin 1] rfl (history_steps [.copyAssign 4 0, .destroy 0] _ _ rfl)

end Genex.Props
