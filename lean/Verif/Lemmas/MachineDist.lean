import Verif.Model.MachineDist
import Verif.Lemmas.MachineSearch
import Verif.Lemmas.Lemire
import Verif.Lemmas.ArithCongr

/-! The distances with `int` of 32 bits. -/

set_option linter.unusedSectionVars false

namespace Genex

open Dbl Spec Deque

theorem ints_bind {α : Type} (f : Unit → Res α) : ∀ {l : List Int}, (∀ z ∈ l, -2 ^ 31 ≤ z ∧ z < 2 ^ 31) → (ints l >>= f) = f ()
  | [], _ => rfl
  | z :: l, h => by
    have hz := h z (by simp)
    have ih := ints_bind f (l := l) (fun x hx => h x (by simp [hx]))
    have : ints (z :: l) = ints l := by
      rw [ints, int32_ok hz.1 hz.2]; rfl
    rw [this, ih]

theorem ints_over {z : Int} {l : List Int} (h : z ∈ l) (hz : 2 ^ 31 ≤ z) : ints l = .error (.ub "int overflow") := by
  induction l with
  | nil => cases h
  | cons x l ih =>
    rw [ints]
    by_cases hx : IsInt x
    · rw [int32_ok hx.1 hx.2]
      rcases List.mem_cons.1 h with rfl | h
      · have := hx.2; omega
      · exact ih h
    · unfold int32
      rw [if_neg hx]; rfl

/-- Prove that all of a list of expressions are in range. -/
macro "ints_range" : tactic => `(tactic| (intro z hz; simp only [List.mem_cons, List.not_mem_nil, or_false] at hz; omega))

/-! ### The ring buffer -/

section
variable {cap : ℕ} {d : Deque} {x : ℕ} {xs : List ℕ}

theorem rep_bounds (R : Deque.Rep cap d xs) : 0 ≤ d.r ∧ d.r < cap := by
  rw [R.r]; exact ⟨slot_nonneg R.pos _ _, slot_lt R.pos _ _⟩

theorem pushBackI_eq (R : Deque.Rep cap d xs) (hc : cap < 2 ^ 31 - 1) (v : ℕ) : d.pushBackI v = d.pushBack false v := by
  obtain ⟨h1, h2⟩ := rep_bounds R
  have h3 := R.capacity
  have h4 := R.size
  have h5 := R.le
  unfold pushBackI
  rw [ints_bind _ (by ints_range)]

theorem popFrontI_eq (R : Deque.Rep cap d xs) (hc : cap < 2 ^ 31 - 1) : d.popFrontI = d.popFront false := by
  have h1 := R.f0
  have h2 := R.f1
  have h3 := R.capacity
  have h4 := R.size
  have h5 := R.le
  unfold popFrontI
  rw [ints_bind _ (by ints_range)]

theorem popBackI_eq (R : Deque.Rep cap d xs) (hc : cap < 2 ^ 31 - 1) : d.popBackI = d.popBack false := by
  obtain ⟨h1, h2⟩ := rep_bounds R
  have h4 := R.size
  have h5 := R.le
  unfold popBackI
  rw [ints_bind _ (by ints_range)]

theorem dqFrontI_eq (R : Deque.Rep cap d xs) (hc : cap < 2 ^ 31 - 1) : d.frontI = d.front false := by
  have h1 := R.f0
  have h2 := R.f1
  have h3 := R.capacity
  unfold frontI
  rw [ints_bind _ (by ints_range)]

theorem dqBackI_eq (R : Deque.Rep cap d xs) (hc : cap < 2 ^ 31 - 1) : d.backI = d.back false := by
  obtain ⟨h1, h2⟩ := rep_bounds R
  unfold backI
  rw [ints_bind _ (by ints_range)]

theorem popWhileI_eq (hc : cap < 2 ^ 31 - 1) (beats : ℕ → Res Bool) : ∀ (fuel : ℕ) (d : Deque) (xs : List ℕ), Deque.Rep cap d xs →
    d.popWhileI beats fuel = d.popWhile false beats fuel := by
  intro fuel
  induction fuel with
  | zero =>
    intro d xs R
    unfold popWhileI popWhile
    rw [dqBackI_eq R hc]
    rfl
  | succ fuel ih =>
    intro d xs R
    unfold popWhileI popWhile
    rw [dqBackI_eq R hc, popBackI_eq R hc]
    by_cases hs : d.size = 0
    · rw [if_pos hs, if_pos hs]
    · rw [if_neg hs, if_neg hs]
      have hne : xs ≠ [] := by
        rintro rfl
        exact hs (by rw [R.size]; rfl)
      obtain ⟨d', e, R'⟩ := popBack_ok false (d := d) (xs := xs.dropLast) (x := xs.getLast hne) (by
        rw [List.dropLast_append_getLast hne]; exact R)
      rw [e]
      simp only [ih d' _ R']
      rfl

end

/-! ### The envelope -/

section
variable {K : Type} [LinearOrder K] {t : List (Dbl K)} {r e w k : ℕ} {s : Lem K} {U L : List ℕ}

theorem emitI_eq (I : LInv t r e w k s U L) (hc : 2 * r + 2 < 2 ^ 31 - 1) {i : ℕ} (hi : i < 2 ^ 31) :
    s.emitI t r i = s.emit false t r i := by
  unfold Lem.emitI Lem.emit
  rw [ints_bind _ (by ints_range), dqFrontI_eq I.repU hc, dqFrontI_eq I.repL hc]

theorem lemInsertI_eq (I : LInv t r e e k s U L) (h : e + 1 < t.length) (hc : 2 * r + 2 < 2 ^ 31 - 1) :
    s.insertI t (e + 1) = s.insert false t (e + 1) := by
  have hti := tAt_ok (t := t) h
  have hte := tAt_ok (t := t) (i := e) (by omega)
  have hlU := I.qU.length
  have hlL := I.qL.length
  unfold Lem.insertI Lem.insert
  simp only [hti, Nat.add_sub_cancel, hte, bind, Except.bind]
  by_cases hlt : tv t e < tv t (e + 1)
  · simp only [hlt, if_true]
    obtain ⟨U0, hU0⟩ := List.getLast?_eq_some_iff.1 I.qU.last
    obtain ⟨d1, e1, R1⟩ := popBack_ok false (hU0 ▸ I.repU)
    obtain ⟨d2, ys, zs, e2, R2, hs, -, -⟩ := popWhile_ok false (fun x => decide (tv t x < tv t (e + 1)))
      (fun x => do let tx ← tAt t x; .ok (decide (tx < tv t (e + 1)))) U0
      (fun x hx => by
        have := I.qU.le x (by simp [hU0, hx])
        simp [tAt_ok (t := t) (i := x) (by omega), bind, Except.bind]) d1.size.toNat d1 R1 (by rw [size_toNat R1])
    rw [popBackI_eq I.repU hc, e1]
    simp only
    rw [popWhileI_eq hc _ _ _ _ R1]
    simp only [bind, Except.bind] at e2
    simp only [e2]
    rw [pushBackI_eq R2 hc, pushBackI_eq I.repL hc]
  · simp only [hlt, if_false]
    obtain ⟨L0, hL0⟩ := List.getLast?_eq_some_iff.1 I.qL.last
    obtain ⟨d1, e1, R1⟩ := popBack_ok false (hL0 ▸ I.repL)
    obtain ⟨d2, ys, zs, e2, R2, hs, -, -⟩ := popWhile_ok false (fun x => decide (tv t (e + 1) < tv t x))
      (fun x => do let tx ← tAt t x; .ok (decide (tv t (e + 1) < tx))) L0
      (fun x hx => by
        have := I.qL.le x (by simp [hL0, hx])
        simp [tAt_ok (t := t) (i := x) (by omega), bind, Except.bind]) d1.size.toNat d1 R1 (by rw [size_toNat R1])
    rw [popBackI_eq I.repL hc, e1]
    simp only
    rw [popWhileI_eq hc _ _ _ _ R1]
    simp only [bind, Except.bind] at e2
    simp only [e2]
    rw [pushBackI_eq R2 hc, pushBackI_eq I.repU hc]

theorem expireI_eq (I : LInv t r e w k s U L) (hc : 2 * r + 2 + e < 2 ^ 31 - 1) (i : ℕ) :
    s.expireI r i = s.expire false r i := by
  obtain ⟨x, U', rfl⟩ := I.qU.ne_nil
  obtain ⟨y, L', rfl⟩ := I.qL.ne_nil
  have e1 := front_ok false I.repU
  have e2 := front_ok false I.repL
  have hx := I.qU.le x (by simp)
  have hy := I.qL.le y (by simp)
  unfold Lem.expireI Lem.expire
  rw [dqFrontI_eq I.repU (by omega), dqFrontI_eq I.repL (by omega), popFrontI_eq I.repU (by omega), popFrontI_eq I.repL (by omega), e1, e2]
  show (ints _ >>= _) = _
  rw [ints_bind _ (by ints_range)]
  show (if _ then _ else (ints _ >>= _)) = _
  rw [ints_bind _ (by ints_range)]
  rfl

theorem lemStepI_eq (I : LInv t r e e (e - r) s U L) (h : e + 1 < t.length) (hc : 2 * r + 3 + e < 2 ^ 31 - 1) :
    s.stepI t r (e + 1) = s.step false t r (e + 1) := by
  unfold Lem.stepI Lem.step
  rw [emitI_eq I (by omega) (by omega)]
  by_cases hr : (r : Int) < ((e + 1 : ℕ) : Int)
  · simp only [hr, if_true]
    obtain ⟨s1, e1, I1⟩ := emit_ok false I (i := e + 1) (by omega) (by omega) (by omega) (by omega)
    obtain ⟨s2, U2, L2, e2, I2⟩ := insert_ok false I1 h
    simp only [e1, bind, Except.bind]
    rw [lemInsertI_eq I1 h (by omega), e2]
    simp only
    rw [expireI_eq I2 (by omega)]
  · simp only [hr, if_false]
    obtain ⟨s2, U2, L2, e2, I2⟩ := insert_ok false I h
    simp only [bind, Except.bind]
    rw [lemInsertI_eq I h (by omega), e2]
    simp only
    rw [expireI_eq I2 (by omega)]

theorem tailI_eq (I : LInv t r (t.length - 1) (k + r) k s U L) (hk : k < t.length) (hk' : t.length ≤ k + r + 1)
    (hc : 2 * r + 2 < 2 ^ 31 - 1) (hl : k + r + 1 < 2 ^ 31) : s.tailI t r (k + r + 1) = s.tail false t r (k + r + 1) := by
  obtain ⟨s1, e1, I1⟩ := emit_ok false I (i := k + r + 1) (by omega) hk rfl (by omega)
  obtain ⟨x, U', rfl⟩ := I.qU.ne_nil
  obtain ⟨y, L', rfl⟩ := I.qL.ne_nil
  have f1 := front_ok false I1.repU
  have f2 := front_ok false I1.repL
  have hx := I.qU.le x (by simp)
  have hy := I.qL.le y (by simp)
  unfold Lem.tailI Lem.tail
  rw [emitI_eq I hc hl, e1]
  show (s1.du.frontI >>= _) = (s1.du.front false >>= _)
  rw [dqFrontI_eq I1.repU hc, f1, popFrontI_eq I1.repU hc]
  show (ints _ >>= _) = _
  rw [ints_bind _ (by ints_range)]
  have key : ∀ s2 : Lem K, s2.dl = s1.dl → (do
      let fl ← s2.dl.frontI
      let _ ← ints [((k + r + 1 : ℕ) : Int) - fl]
      if 2 * (r : Int) + 1 ≤ ((k + r + 1 : ℕ) : Int) - fl then do
        let d ← s2.dl.popFrontI
        .ok { s2 with dl := d }
      else .ok s2 : Res (Lem K)) = (do
      let fl ← s2.dl.front false
      if 2 * (r : Int) + 1 ≤ ((k + r + 1 : ℕ) : Int) - fl then do
        let d ← s2.dl.popFront false
        .ok { s2 with dl := d }
      else .ok s2) := by
    intro s2 hs
    rw [hs, dqFrontI_eq I1.repL hc, f2, popFrontI_eq I1.repL hc]
    show (ints _ >>= _) = _
    rw [ints_bind _ (by ints_range)]
    rfl
  obtain ⟨du, gU, RU⟩ := popFront_ok false I1.repU
  rw [gU]
  simp only [bind, Except.bind] at key ⊢
  by_cases c : 2 * (r : Int) + 1 ≤ ((k + r + 1 : ℕ) : Int) - (x : Int)
  · rw [if_pos c, if_pos c]
    exact key { s1 with du := du } rfl
  · rw [if_neg c, if_neg c]
    exact key s1 rfl

theorem loop1I_eq (hc : 2 * r + 2 + t.length < 2 ^ 31 - 1) (n : ℕ) : ∀ {e : ℕ} {s : Lem K} {U L : List ℕ},
    LInv t r e e (e - r) s U L → e + n < t.length →
    (List.range' (e + 1) n).foldlM (Lem.stepI t r) s = (List.range' (e + 1) n).foldlM (Lem.step false t r) s := by
  induction n with
  | zero => intro e s U L _ _; rfl
  | succ n ih =>
    intro e s U L I h
    obtain ⟨s1, U1, L1, e1, I1⟩ := step_ok false I (by omega)
    rw [List.range'_succ, List.foldlM_cons, List.foldlM_cons, lemStepI_eq I (by omega) (by omega), e1]
    exact ih I1 (by omega)

theorem loop2I_eq (hc : 2 * r + 2 < 2 ^ 31 - 1) (hl : t.length + r < 2 ^ 31) (n : ℕ) : ∀ {k : ℕ} {s : Lem K} {U L : List ℕ},
    LInv t r (t.length - 1) (k + r) k s U L → k + n + 1 = t.length → t.length ≤ k + r + 1 →
    (List.range' (k + r + 1) (n + 1)).foldlM (Lem.tailI t r) s = (List.range' (k + r + 1) (n + 1)).foldlM (Lem.tail false t r) s := by
  induction n with
  | zero =>
    intro k s U L I h h'
    rw [List.range'_succ, List.foldlM_cons, List.foldlM_cons, tailI_eq I (by omega) h' hc (by omega)]
    rfl
  | succ n ih =>
    intro k s U L I h h'
    obtain ⟨s1, e1, D, N⟩ := tail_ok false I (by omega) h'
    obtain ⟨U', L', I'⟩ := N (by omega)
    rw [List.range'_succ, List.foldlM_cons, List.foldlM_cons, tailI_eq I (by omega) h' hc (by omega), e1]
    have := ih I' (by omega) (by omega)
    have e : k + 1 + r + 1 = k + r + 1 + 1 := by omega
    rw [e] at this; exact this

theorem lemireI_eq (h : r < t.length) (hc : 2 * r + 2 + t.length < 2 ^ 31 - 1) : lemireI t r = lemire false t r := by
  obtain ⟨d, e0, R0⟩ := rep_first false r
  have Q : ∀ ge : ℕ → ℕ → Prop, (NoNaN t → ∀ x, ge x x) → QInv (NoNaN t) ge r 0 0 [0] := by
    intro ge hge
    refine ⟨by simp, by simp, by simp, by simp, fun hn j _ hj => ⟨0, by simp, by omega, ?_⟩⟩
    have : j = 0 := by omega
    subst this; exact hge hn _
  have I0 : LInv t r 0 0 (0 - r) { du := d, dl := d, u := fun _ => none, l := fun _ => none } [0] [0] :=
    ⟨R0, R0, Q _ geU_refl, Q _ geL_refl, by simp, ⟨by simp, by simp⟩, ⟨by simp, by simp⟩⟩
  obtain ⟨s1, U, L, e1, I1⟩ := loop1_ok false (t.length - 1) I0 (by omega)
  have h1 : LInv t r (t.length - 1) ((t.length - 1 - r) + r) (t.length - 1 - r) s1 U L := by
    have a : 0 + (t.length - 1) = t.length - 1 := by omega
    have b : t.length - 1 - r + r = t.length - 1 := by omega
    rw [b]; rw [a] at I1; exact I1
  have e1' := loop1I_eq hc (t.length - 1) I0 (by omega)
  have e2 := loop2I_eq (by omega) (by omega) r h1 (by omega) (by omega)
  have a : t.length - 1 - r + r + 1 = t.length := by omega
  have b : ((r : Int) + 1).toNat = r + 1 := by omega
  have c : (2 * (r : Int) + 2).toNat = 2 * r + 2 := by omega
  have p : (Deque.new (2 * (r : Int) + 2).toNat).pushBackI 0 = .ok d := by
    rw [← e0, c]
    exact pushBackI_eq (rep_new (by omega)) (by omega) 0
  rw [a] at e2
  unfold lemireI lemire
  rw [ints_bind _ (by ints_range), p, e0, b]
  simp only [Nat.zero_add] at e1 e1'
  rw [e1] at e1'
  simp only [bind, Except.bind, e1, e1']
  show (ints _ >>= _) = _
  rw [ints_bind _ (by ints_range), e2]

theorem keoghLUI_eq (t : List (Dbl K)) {b : Int} (h0 : t.length = 0 ∨ 0 ≤ b) (hb : -2 ^ 29 ≤ b) (hl : 3 * t.length < 2 ^ 31 - 1) : keoghLUI t b = keoghLU t b := by
  unfold keoghLUI keoghLU
  rw [ints_bind _ (by ints_range)]
  by_cases hz : t.length = 0
  · have hr : min b ((t.length : Int) - 1) ≤ -1 := by omega
    have hr' : -2 ^ 29 ≤ min b ((t.length : Int) - 1) := by omega
    generalize min b ((t.length : Int) - 1) = r at hr hr'
    have hcap : (2 * r + 2).toNat = 0 := by omega
    unfold lemireI lemire
    rw [ints_bind _ (by ints_range), hcap]
    rfl
  · obtain ⟨r, hr⟩ := Int.eq_ofNat_of_zero_le (by omega : 0 ≤ min b ((t.length : Int) - 1))
    rw [hr]
    exact lemireI_eq (by omega) (by omega)

end

/-! ### Warped distances -/

section
variable {K : Type} [Field K] [LinearOrder K] {M : DM K} {len : Res Unit} {a b : List (Dbl K)} {N : ℕ}

theorem fillI_eq (hl : len = .ok ()) (mt : Mat M) (i j : ℕ) (p : Option M.S) : mt.fillI len a b i j p = mt.fill a b i j p := by
  unfold Mat.fillI
  rw [hl]
  cases mt.fill a b i j p <;> rfl

variable (hl : len = .ok ()) (ha : a.length ≤ N) (hb : b.length ≤ N) (hN : N ≤ 2 ^ 30) {r : Int} (hr0 : 0 ≤ r) (hr1 : r ≤ (N : Int) - 1)
include hl ha hb hN hr0 hr1

theorem firstColI_eq (mt : Mat M) : firstColI len a b r mt = firstCol a b r mt := by
  unfold firstColI firstCol
  rw [ints_bind _ (by ints_range)]
  simp only [fillI_eq hl]

theorem firstRowI_eq (mt : Mat M) : firstRowI len a b r mt = firstRow a b r mt := by
  unfold firstRowI firstRow
  rw [ints_bind _ (by ints_range)]
  simp only [fillI_eq hl]

theorem cellStepI_eq {i : ℕ} (hi : i < N) {j : ℕ} (hj : j < N) (st : Mat M × Dbl K) :
    cellStepI len a b r i st j = cellStep a b r i st j := by
  unfold cellStepI cellStep
  simp only
  by_cases h : j = 0
  · rw [if_pos h, if_pos h]
  · rw [if_neg h, if_neg h, ints_bind _ (by ints_range)]
    simp only [fillI_eq hl, bind, Except.bind]
    cases Mat.fill a b st.1 i j _ <;> rfl

theorem rowLoopI_eq {i : ℕ} (hi : i < N) (mt : Mat M) : rowLoopI len a b r i mt = rowLoop a b r i mt := by
  unfold rowLoopI rowLoop
  rw [ints_bind _ (by ints_range)]
  apply foldlM_congr'
  intro j hj st
  have hj' : j < b.length := by
    unfold rowRange at hj
    exact List.mem_range.1 (List.mem_filter.1 hj).1
  exact cellStepI_eq hl ha hb hN hr0 hr1 hi (by omega) st

theorem rowsLoopI_eq (dropout : Dbl K) : ∀ (is : List ℕ) (_ : ∀ i ∈ is, i < N) (mt : Mat M),
    rowsLoopI len a b r dropout is mt = rowsLoop a b r dropout is mt
  | [], _, _ => rfl
  | i :: is, h, mt => by
    unfold rowsLoopI rowsLoop
    rw [rowLoopI_eq hl ha hb hN hr0 hr1 (h i (by simp))]
    simp only [bind, Except.bind]
    cases rowLoop a b r i mt with
    | error e => rfl
    | ok s =>
      simp only
      rw [rowsLoopI_eq dropout is (fun j hj => h j (by simp [hj]))]

end

section
variable {K : Type} [Field K] [LinearOrder K] [BandOps] {ratio : ℚ} {N : ℕ}

theorem bandInt_le (hr : 0 ≤ ratio) (hb : ⌊BandOps.mul ratio N⌋ < 2 ^ 31) {h : ℕ} (hN : h ≤ N) :
    bandInt ratio h = .ok (band ratio h) ∧ -1 ≤ band ratio h ∧ band ratio h ≤ (h : Int) - 1 ∧ (1 ≤ h → 0 ≤ band ratio h) := by
  have h2 := Int.floor_nonneg.2 (BandOps.nonneg ratio h hr)
  have h3 := Int.floor_le_floor (BandOps.mono ratio h N hr hN)
  refine ⟨?_, ?_, ?_, ?_⟩
  · unfold bandInt band
    rw [if_pos (by omega)]
  all_goals unfold band; omega

variable (hr : 0 ≤ ratio) (hb : ⌊BandOps.mul ratio N⌋ < 2 ^ 31)
include hr hb

theorem warpedI_eq (M : DM K) {len : Res Unit} (hl : len = .ok ()) (hN : N ≤ 2 ^ 30) {a b : List (Dbl K)} (ha : a.length ≤ N)
    (hb' : b.length ≤ N) (d : Dbl K) (mat : List (ℕ × ℕ)) :
    warpedDistanceI M len ratio a b d mat = warpedDistance M ratio a b d mat := by
  obtain ⟨e, h1, h2, h3⟩ := bandInt_le hr hb (h := max a.length b.length) (by omega)
  unfold warpedDistanceI warpedDistance
  simp only [e, bind, Except.bind]
  rw [hl]
  by_cases c1 : a.length = 1 ∧ b.length = 1
  · rw [if_pos c1, if_pos c1]
  · rw [if_neg c1, if_neg c1]
    by_cases c2 : a.length = 0 ∨ b.length = 0
    · rw [if_pos c2, if_pos c2]
    · rw [if_neg c2, if_neg c2]
      have h0 : 0 ≤ band ratio (max a.length b.length : ℕ) := h3 (by omega)
      have h4 : band ratio (max a.length b.length : ℕ) ≤ (N : Int) - 1 := by omega
      have i1 : matInitI M (.ok ()) a b = matInit M a b := by
        unfold matInitI matInit; exact fillI_eq rfl _ _ _ _
      rw [i1]
      cases matInit M a b with
      | error e => rfl
      | ok mt0 =>
        simp only
        rw [firstColI_eq rfl ha hb' hN h0 h4]
        cases firstCol a b (band ratio (max a.length b.length : ℕ)) mt0 with
        | error e => rfl
        | ok mt1 =>
          simp only
          rw [firstRowI_eq rfl ha hb' hN h0 h4]
          cases firstRow a b (band ratio (max a.length b.length : ℕ)) mt1 with
          | error e => rfl
          | ok mt2 =>
            simp only
            rw [rowsLoopI_eq rfl ha hb' hN h0 h4 d _ (by
              intro i hi
              rw [List.mem_range'_1] at hi
              omega)]
            cases rowsLoop a b (band ratio (max a.length b.length : ℕ)) d (List.range' 1 (a.length - 1)) mt2 with
            | error e => rfl
            | ok s =>
              obtain ⟨mt3, dr⟩ := s
              simp only
              cases traceLoop mt3.ncost (a.length - 1 + (b.length - 1)) (a.length - 1, b.length - 1) mat with
              | error e => rfl
              | ok m => rfl

omit [BandOps] hr hb in
theorem lenI_ok (m : Metric) {l1 l2 : ℕ} (h1 : l1 < 2 ^ 30) (h2 : l2 < 2 ^ 30) : m.lenI l1 l2 = .ok () := by
  have : ints [2 * (max l1 l2 : ℕ)] = .ok () := by
    have := ints_bind (α := Unit) (fun _ => .ok ()) (l := [2 * ((max l1 l2 : ℕ) : Int)]) (by ints_range)
    rw [← this]
    cases ints [2 * ((max l1 l2 : ℕ) : Int)] <;> rfl
  cases m <;> first | exact this | rfl

variable [HasSqrt K] (r : Dbl K → Dbl K)

theorem keoghLowerBoundI_eq {a b : List (Dbl K)} (ha : a.length ≤ N) (hb' : b.length ≤ N) (hN : N < 715827882) (d : Dbl K) :
    keoghLowerBoundI r ratio a b d = keoghLowerBoundW r ratio a b d := by
  obtain ⟨e, h1, h2, h3⟩ := bandInt_le hr hb (h := max a.length b.length) (by omega)
  unfold keoghLowerBoundI keoghLowerBoundW
  simp only [e, bind, Except.bind]
  rw [keoghLUI_eq a (by
    by_cases hz : a.length = 0
    · exact .inl hz
    · exact .inr (h3 (by omega))) (by omega) (by omega), lenI_ok .euclidean (by omega) (by omega)]

theorem crossKeoghI_eq {a b : List (Dbl K)} (ha : a.length ≤ N) (hb' : b.length ≤ N) (hN : N < 715827882) (d : Dbl K) :
    crossKeoghLowerBoundI r ratio a b d = crossKeoghLowerBoundW r ratio a b d := by
  unfold crossKeoghLowerBoundI crossKeoghLowerBoundW
  rw [keoghLowerBoundI_eq hr hb r ha hb' hN, keoghLowerBoundI_eq hr hb r hb' ha hN]

theorem cascadeI_eq {a b : List (Dbl K)} (ha : a.length ≤ N) (hb' : b.length ≤ N) (hN : N < 715827882) (d : Dbl K)
    (mat : List (ℕ × ℕ)) : cascadeDistanceI r ratio a b d mat = cascadeDistanceW r ratio a b d mat := by
  unfold cascadeDistanceI cascadeDistanceW kimLowerBoundI
  rw [crossKeoghI_eq hr hb r ha hb' hN, lenI_ok .euclidean (by omega) (by omega),
    warpedI_eq hr hb (euclideanW r) rfl (by omega) ha hb']
  simp only [bind, Except.bind]
  by_cases h : d < kimLowerBoundW r a b
  · rw [if_pos h, if_pos h]
  · rw [if_neg h, if_neg h]
    cases crossKeoghLowerBoundW r ratio a b d with
    | error e => rfl
    | ok lb => rfl

theorem evalI_eq (ref : DistRef) (hN : N < lengthLimit ref) {a b : List (Dbl K)} (ha : a.length ≤ N) (hb' : b.length ≤ N) (d : Dbl K) :
    ref.evalI r ratio a b d = ref.evalW r ratio a b d := by
  cases ref with
  | pairwise m => rfl
  | warped m =>
    have hN : N < 2 ^ 30 := hN
    unfold DistRef.evalI DistRef.evalW warpedValue
    simp only
    rw [warpedI_eq hr hb _ (lenI_ok m (by omega) (by omega)) (by omega) ha hb']
  | cascade =>
    unfold DistRef.evalI DistRef.evalW
    simp only
    rw [cascadeI_eq hr hb r ha hb' hN]

theorem matchingI_eq (ref : DistRef) (hN : N < lengthLimit ref) {a b : List (Dbl K)} (ha : a.length ≤ N) (hb' : b.length ≤ N) :
    ref.matchingI r ratio a b = ref.matchingW r ratio a b := by
  cases ref with
  | pairwise m => rfl
  | warped m =>
    have hN : N < 2 ^ 30 := hN
    unfold DistRef.matchingI DistRef.matchingW
    simp only
    rw [warpedI_eq hr hb _ (lenI_ok m (by omega) (by omega)) (by omega) ha hb']
  | cascade =>
    unfold DistRef.matchingI DistRef.matchingW
    simp only
    rw [cascadeI_eq hr hb r ha hb' hN]

theorem machine_agree (ref : DistRef) (hN : N < lengthLimit ref) :
    Agree (machineArith (K := K) r) (overflowArith r) ratio (fun pts => pts.length ≤ N) ref :=
  fun _ _ d ha hb' => evalI_eq hr hb r ref hN ha hb' d

end

end Genex
