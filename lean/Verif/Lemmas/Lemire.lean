import Verif.Lemmas.Ring
import Verif.Lemmas.Dbl
import Verif.Lemmas.Dtw
import Mathlib.Order.Interval.Finset.Nat
import Mathlib.Data.List.Nodup

/-! Invariants of `lower_upper_lemire`. -/

set_option linter.unusedSectionVars false

namespace Genex

open Deque

/-- Queue invariant.  `e` is the last index, every element is at least `w - 2r`.  If the values are ordered (`nn`), the
elements are sorted by `ge` and every index of the window `[w-2r, e]` is dominated by a later element. -/
structure QInv (nn : Prop) (ge : ℕ → ℕ → Prop) (r e w : ℕ) (xs : List ℕ) : Prop where
  sorted : xs.Pairwise (· < ·)
  last : xs.getLast? = some e
  low : ∀ x ∈ xs, w ≤ x + 2 * r
  mono : nn → xs.Pairwise ge
  dom : nn → ∀ j, w ≤ j + 2 * r → j ≤ e → ∃ x ∈ xs, j ≤ x ∧ ge x j

section
variable {nn : Prop} {ge : ℕ → ℕ → Prop} {r e w i : ℕ} {xs : List ℕ}

theorem QInv.le (Q : QInv nn ge r e w xs) : ∀ x ∈ xs, x ≤ e := by
  obtain ⟨ys, rfl⟩ := List.getLast?_eq_some_iff.1 Q.last
  intro x hx
  simp only [List.mem_append, List.mem_singleton] at hx
  rcases hx with hx | rfl
  · exact Nat.le_of_lt ((List.pairwise_append.1 Q.sorted).2.2 x hx e (by simp))
  · exact le_refl _

theorem QInv.length (Q : QInv nn ge r e w xs) : xs.length ≤ e + 1 - (w - 2 * r) := by
  have hn : xs.Nodup := Q.sorted.imp (fun h => Nat.ne_of_lt h)
  rw [← List.toFinset_card_of_nodup hn]
  have : xs.toFinset ⊆ Finset.Icc (w - 2 * r) e := by
    intro x hx
    have hx := List.mem_toFinset.1 hx
    have h1 := Q.low x hx
    have h2 := Q.le x hx
    simp only [Finset.mem_Icc]; omega
  have := Finset.card_le_card this
  rwa [Nat.card_Icc] at this

theorem QInv.ne_nil (Q : QInv nn ge r e w xs) : ∃ x ys, xs = x :: ys := by
  cases h : xs with
  | nil => have := Q.last; simp [h] at this
  | cons x ys => exact ⟨x, ys, rfl⟩

/-- The head is extreme in the window. -/
theorem QInv.head (Q : QInv nn ge r e w xs) {x : ℕ} {ys : List ℕ} (h : xs = x :: ys)
    (trans : nn → ∀ x y z, ge x y → ge y z → ge x z) (hn : nn) :
    ∀ j, w ≤ j + 2 * r → j ≤ e → ge x j := by
  intro j h1 h2
  obtain ⟨y, hy, -, hg⟩ := Q.dom hn j h1 h2
  rw [h] at hy
  rcases List.mem_cons.1 hy with rfl | hy
  · exact hg
  · have := Q.mono hn
    rw [h] at this
    exact trans hn _ _ _ ((List.pairwise_cons.1 this).1 y hy) hg

theorem QInv.push (Q : QInv nn ge r e w xs) (refl : nn → ∀ x, ge x x)
    (trans : nn → ∀ x y z, ge x y → ge y z → ge x z) (h : nn → ge e (e + 1)) (hw : w ≤ e + 1) :
    QInv nn ge r (e + 1) w (xs ++ [e + 1]) := by
  refine ⟨?_, by simp, ?_, ?_, ?_⟩
  · rw [List.pairwise_append]
    refine ⟨Q.sorted, by simp, fun a ha b hb => ?_⟩
    simp at hb; subst hb; have := Q.le a ha; omega
  · intro x hx
    simp only [List.mem_append, List.mem_singleton] at hx
    rcases hx with hx | rfl
    · exact Q.low x hx
    · omega
  · intro hn
    rw [List.pairwise_append]
    refine ⟨Q.mono hn, by simp, fun a ha b hb => ?_⟩
    simp at hb; subst hb
    obtain ⟨ys, rfl⟩ := List.getLast?_eq_some_iff.1 Q.last
    simp only [List.mem_append, List.mem_singleton] at ha
    rcases ha with ha | rfl
    · exact trans hn _ _ _ ((List.pairwise_append.1 (Q.mono hn)).2.2 a ha e (by simp)) (h hn)
    · exact h hn
  · intro hn j h1 h2
    by_cases hj : j = e + 1
    · exact ⟨e + 1, by simp, by omega, hj ▸ refl hn _⟩
    · obtain ⟨x, hx, a, b⟩ := Q.dom hn j h1 (by omega)
      exact ⟨x, by simp [hx], a, b⟩

theorem QInv.pop (Q : QInv nn ge r e w xs) (refl : nn → ∀ x, ge x x)
    (trans : nn → ∀ x y z, ge x y → ge y z → ge x z) (h : nn → ge (e + 1) e) (hw : w ≤ e + 1) {ys zs : List ℕ}
    (hx : xs = ys ++ zs ++ [e]) (hz : nn → ∀ z ∈ zs, ge (e + 1) z)
    (hy : nn → ∀ y, ys.getLast? = some y → ge y (e + 1)) :
    QInv nn ge r (e + 1) w (ys ++ [e + 1]) := by
  have hys : ∀ y ∈ ys, y ∈ xs := by intro y h; simp [hx, h]
  refine ⟨?_, by simp, ?_, ?_, ?_⟩
  · rw [List.pairwise_append]
    refine ⟨?_, by simp, fun a ha b hb => ?_⟩
    · have := Q.sorted; rw [hx, List.append_assoc] at this; exact (List.pairwise_append.1 this).1
    · simp at hb; subst hb; have := Q.le a (hys a ha); omega
  · intro x hx'
    simp only [List.mem_append, List.mem_singleton] at hx'
    rcases hx' with hx' | rfl
    · exact Q.low x (hys x hx')
    · omega
  · intro hn
    have hm : ys.Pairwise ge := by
      have := Q.mono hn; rw [hx, List.append_assoc] at this; exact (List.pairwise_append.1 this).1
    rw [List.pairwise_append]
    refine ⟨hm, by simp, fun a ha b hb => ?_⟩
    simp at hb; subst hb
    cases hl : ys.getLast? with
    | none => simp at hl; simp [hl] at ha
    | some y =>
      have h1 := hy hn y hl
      obtain ⟨us, rfl⟩ := List.getLast?_eq_some_iff.1 hl
      simp only [List.mem_append, List.mem_singleton] at ha
      rcases ha with ha | rfl
      · exact trans hn _ _ _ ((List.pairwise_append.1 hm).2.2 a ha y (by simp)) h1
      · exact h1
  · intro hn j h1 h2
    by_cases hj : j = e + 1
    · exact ⟨e + 1, by simp, by omega, hj ▸ refl hn _⟩
    · obtain ⟨x, hx', a, b⟩ := Q.dom hn j h1 (by omega)
      rw [hx] at hx'
      simp only [List.mem_append, List.mem_singleton] at hx'
      rcases hx' with (hx' | hx') | rfl
      · exact ⟨x, by simp [hx'], a, b⟩
      · exact ⟨e + 1, by simp, by omega, trans hn _ _ _ (hz hn x hx') b⟩
      · exact ⟨x + 1, by simp, by omega, trans hn _ _ _ (h hn) b⟩

theorem QInv.keep {x : ℕ} {ys : List ℕ} (Q : QInv nn ge r e w (x :: ys)) (h : w + 1 ≤ x + 2 * r) :
    QInv nn ge r e (w + 1) (x :: ys) := by
  refine ⟨Q.sorted, Q.last, ?_, Q.mono, fun hn j h1 h2 => Q.dom hn j (by omega) h2⟩
  intro y hy
  rcases List.mem_cons.1 hy with rfl | hy
  · exact h
  · have := (List.pairwise_cons.1 Q.sorted).1 y hy; omega

theorem QInv.drop {x : ℕ} {ys : List ℕ} (Q : QInv nn ge r e w (x :: ys)) (h : ¬ w + 1 ≤ x + 2 * r)
    (he : w + 1 ≤ e + 2 * r) : QInv nn ge r e (w + 1) ys := by
  have hl : x < e := by omega
  have hne : ys ≠ [] := by
    rintro rfl; have := Q.last; simp at this; omega
  refine ⟨(List.pairwise_cons.1 Q.sorted).2, ?_, ?_, fun hn => (List.pairwise_cons.1 (Q.mono hn)).2, ?_⟩
  · have := Q.last
    rwa [List.getLast?_cons_of_ne_nil hne] at this
  · intro y hy
    have := (List.pairwise_cons.1 Q.sorted).1 y hy
    have := Q.low x (by simp)
    omega
  · intro hn j h1 h2
    obtain ⟨y, hy, a, b⟩ := Q.dom hn j (by omega) h2
    rcases List.mem_cons.1 hy with rfl | hy
    · omega
    · exact ⟨y, hy, a, b⟩

end

section
variable {K : Type} [LinearOrder K]

/-- No value of the series is NaN. -/
def NoNaN (t : List (Dbl K)) : Prop := ∀ x ∈ t, x ≠ .nan

/-- Value at an index inside the series. -/
def tv (t : List (Dbl K)) (i : ℕ) : Dbl K := t.getD i .inf

/-- Order of the upper queue. -/
def geU (t : List (Dbl K)) (x y : ℕ) : Prop := tv t y ≤ tv t x
/-- Order of the lower queue. -/
def geL (t : List (Dbl K)) (x y : ℕ) : Prop := tv t x ≤ tv t y

theorem tv_ne_nan {t : List (Dbl K)} (h : NoNaN t) (i : ℕ) : tv t i ≠ .nan := by
  unfold tv
  rw [List.getD_eq_getElem?_getD]
  cases hi : t[i]? with
  | none => simp
  | some x => simpa using h x (List.mem_of_getElem? hi)

theorem tAt_ok {t : List (Dbl K)} {i : ℕ} (h : i < t.length) : tAt t i = .ok (tv t i) := by
  unfold tAt tv
  rw [List.getD_eq_getElem?_getD, List.getElem?_eq_getElem h]; rfl

theorem geU_refl {t : List (Dbl K)} (h : NoNaN t) (x : ℕ) : geU t x x := Dbl.le_refl (tv_ne_nan h x)
theorem geL_refl {t : List (Dbl K)} (h : NoNaN t) (x : ℕ) : geL t x x := Dbl.le_refl (tv_ne_nan h x)
theorem geU_trans {t : List (Dbl K)} (_ : NoNaN t) (x y z : ℕ) (a : geU t x y) (b : geU t y z) : geU t x z :=
  Dbl.le_trans b a
theorem geL_trans {t : List (Dbl K)} (_ : NoNaN t) (x y z : ℕ) (a : geL t x y) (b : geL t y z) : geL t x z :=
  Dbl.le_trans a b

/-- `x` is the extreme value of the window around `k`. -/
def WinOK (ge : ℕ → ℕ → Prop) (len r k x : ℕ) : Prop :=
  k ≤ x + r ∧ x ≤ k + r ∧ x < len ∧ ∀ j, j < len → k ≤ j + r → j ≤ k + r → ge x j

/-- The first `k` cells of an output array are right, the others are not written. -/
def OutOK (nn : Prop) (ge : ℕ → ℕ → Prop) (t : List (Dbl K)) (r k : ℕ) (out : OutArr K) : Prop :=
  (∀ j < k, ∃ x, out j = some (tv t x) ∧ (nn → WinOK ge t.length r j x)) ∧ ∀ j, k ≤ j → out j = none

theorem outSet_ok {nn : Prop} {ge : ℕ → ℕ → Prop} {t : List (Dbl K)} {r k : ℕ} {out : OutArr K}
    (O : OutOK nn ge t r k out) (hk : k < t.length) {x : ℕ} (hx : nn → WinOK ge t.length r k x)
    {i : Int} (hi : i = k) :
    ∃ o', outSet t.length out i (tv t x) = .ok o' ∧ OutOK nn ge t r (k + 1) o' := by
  subst hi
  unfold outSet
  rw [if_pos ⟨by omega, by omega⟩]
  refine ⟨_, rfl, ?_, ?_⟩
  · intro j hj
    by_cases h : j = k
    · subst h; exact ⟨x, by simp, hx⟩
    · obtain ⟨y, e, w⟩ := O.1 j (by omega)
      exact ⟨y, by simp [h, e], w⟩
  · intro j hj
    have : j ≠ k := by omega
    simp [this, O.2 j (by omega)]

/-- Loop invariant: `e` is the last index pushed, the next output cell is `k`, both queues hold the window
`[w - 2r, e]` and share no index but `e`. -/
structure LInv (t : List (Dbl K)) (r e w k : ℕ) (s : Lem K) (U L : List ℕ) : Prop where
  repU : Rep (2 * r + 2) s.du U
  repL : Rep (2 * r + 2) s.dl L
  qU : QInv (NoNaN t) (geU t) r e w U
  qL : QInv (NoNaN t) (geL t) r e w L
  common : ∀ x ∈ U, x ∈ L → x = e
  outU : OutOK (NoNaN t) (geU t) t r k s.u
  outL : OutOK (NoNaN t) (geL t) t r k s.l

/-- Writing one output cell. -/
theorem emit_ok (chk : Bool) {t : List (Dbl K)} {r e w k : ℕ} {s : Lem K} {U L : List ℕ}
    (I : LInv t r e w k s U L) {i : ℕ} (hi : i = k + r + 1) (hk : k < t.length) (hw : w = k + r)
    (he : e = min (k + r) (t.length - 1)) :
    ∃ s', s.emit chk t r i = .ok s' ∧ LInv t r e w (k + 1) s' U L := by
  obtain ⟨x, U', hU⟩ := I.qU.ne_nil
  obtain ⟨y, L', hL⟩ := I.qL.ne_nil
  have hx := I.qU.le x (by simp [hU])
  have hy := I.qL.le y (by simp [hL])
  have hx' := I.qU.low x (by simp [hU])
  have hy' := I.qL.low y (by simp [hL])
  have e1 := front_ok chk (hU ▸ I.repU)
  have e2 := front_ok chk (hL ▸ I.repL)
  have hi' : (i : Int) - (r : Int) - 1 = (k : ℕ) := by omega
  obtain ⟨u', e3, o3⟩ := outSet_ok I.outU hk (x := x) (i := (i : Int) - r - 1)
    (fun hn => ⟨by omega, by omega, by omega, fun j h1 h2 h3 => I.qU.head hU geU_trans hn j (by omega) (by omega)⟩)
    hi'
  obtain ⟨l', e4, o4⟩ := outSet_ok I.outL hk (x := y) (i := (i : Int) - r - 1)
    (fun hn => ⟨by omega, by omega, by omega, fun j h1 h2 h3 => I.qL.head hL geL_trans hn j (by omega) (by omega)⟩)
    hi'
  refine ⟨{ s with u := u', l := l' }, ?_, I.repU, I.repL, I.qU, I.qL, I.common, o3, o4⟩
  unfold Lem.emit
  simp only [e1, e2, bind, Except.bind]
  rw [tAt_ok (by omega : x < t.length), tAt_ok (by omega : y < t.length)]
  simp only [e3, e4]

theorem size_toNat {cap : ℕ} {d : Deque} {xs : List ℕ} (R : Rep cap d xs) : d.size.toNat = xs.length := by
  rw [R.size]; simp

/-- Appending index `e + 1`. -/
theorem insert_ok (chk : Bool) {t : List (Dbl K)} {r e k : ℕ} {s : Lem K} {U L : List ℕ}
    (I : LInv t r e e k s U L) (h : e + 1 < t.length) :
    ∃ s' U' L', s.insert chk t (e + 1) = .ok s' ∧ LInv t r (e + 1) e k s' U' L' := by
  have hti := tAt_ok (t := t) h
  have hte := tAt_ok (t := t) (i := e) (by omega)
  have hlU := I.qU.length
  have hlL := I.qL.length
  unfold Lem.insert
  simp only [hti, Nat.add_sub_cancel, hte, bind, Except.bind]
  by_cases hlt : tv t e < tv t (e + 1)
  · simp only [hlt, if_true]
    obtain ⟨U0, hU0⟩ := List.getLast?_eq_some_iff.1 I.qU.last
    obtain ⟨d1, e1, R1⟩ := popBack_ok chk (hU0 ▸ I.repU)
    obtain ⟨d2, ys, zs, e2, R2, hs, hz, hy⟩ := popWhile_ok chk (fun x => decide (tv t x < tv t (e + 1)))
      (fun x => do let tx ← tAt t x; .ok (decide (tx < tv t (e + 1)))) U0
      (fun x hx => by
        have := I.qU.le x (by simp [hU0, hx])
        simp [tAt_ok (t := t) (i := x) (by omega), bind, Except.bind]) d1.size.toNat d1 R1 (by rw [size_toNat R1])
    have hys : ys.length ≤ U0.length := by rw [hs]; simp
    have hUl : U.length = U0.length + 1 := by rw [hU0]; simp
    obtain ⟨d3, e3, R3⟩ := push_ok chk R2 (by omega) (e + 1)
    obtain ⟨d4, e4, R4⟩ := push_ok chk I.repL (by omega) (e + 1)
    refine ⟨{ s with du := d3, dl := d4 }, ys ++ [e + 1], L ++ [e + 1], ?_, R3, R4, ?_, ?_, ?_, I.outU, I.outL⟩
    · simp only [e1]
      simp only [bind, Except.bind] at e2
      simp only [e2, e3, e4]
    · refine I.qU.pop geU_refl geU_trans (fun _ => Dbl.le_of_lt hlt) (by omega) (ys := ys) (zs := zs)
        (by rw [hU0, hs]) ?_ ?_
      · intro _ z hz'
        exact Dbl.le_of_lt (of_decide_eq_true (hz z hz'))
      · intro hn y hy'
        have := of_decide_eq_false (hy y hy')
        exact (Dbl.not_lt (tv_ne_nan hn _) (tv_ne_nan hn _)).1 this
    · exact I.qL.push geL_refl geL_trans (fun _ => Dbl.le_of_lt hlt) (by omega)
    · intro x hx hx'
      simp only [List.mem_append, List.mem_singleton] at hx hx'
      rcases hx with hx | rfl
      · rcases hx' with hx' | rfl
        · exfalso
          have hxe := I.common x (by simp [hU0, hs, hx]) hx'
          have hst := I.qU.sorted
          rw [hU0] at hst
          have := (List.pairwise_append.1 hst).2.2 x (by simp [hs, hx]) e (by simp)
          omega
        · rfl
      · rfl
  · simp only [hlt, if_false]
    obtain ⟨L0, hL0⟩ := List.getLast?_eq_some_iff.1 I.qL.last
    obtain ⟨d1, e1, R1⟩ := popBack_ok chk (hL0 ▸ I.repL)
    obtain ⟨d2, ys, zs, e2, R2, hs, hz, hy⟩ := popWhile_ok chk (fun x => decide (tv t (e + 1) < tv t x))
      (fun x => do let tx ← tAt t x; .ok (decide (tv t (e + 1) < tx))) L0
      (fun x hx => by
        have := I.qL.le x (by simp [hL0, hx])
        simp [tAt_ok (t := t) (i := x) (by omega), bind, Except.bind]) d1.size.toNat d1 R1 (by rw [size_toNat R1])
    have hys : ys.length ≤ L0.length := by rw [hs]; simp
    have hLl : L.length = L0.length + 1 := by rw [hL0]; simp
    obtain ⟨d3, e3, R3⟩ := push_ok chk R2 (by omega) (e + 1)
    obtain ⟨d4, e4, R4⟩ := push_ok chk I.repU (by omega) (e + 1)
    have hle : NoNaN t → tv t (e + 1) ≤ tv t e := fun hn => (Dbl.not_lt (tv_ne_nan hn _) (tv_ne_nan hn _)).1 hlt
    refine ⟨{ s with du := d4, dl := d3 }, U ++ [e + 1], ys ++ [e + 1], ?_, R4, R3, ?_, ?_, ?_, I.outU, I.outL⟩
    · simp only [e1]
      simp only [bind, Except.bind] at e2
      simp only [e2, e3, e4]
    · exact I.qU.push geU_refl geU_trans hle (by omega)
    · refine I.qL.pop geL_refl geL_trans hle (by omega) (ys := ys) (zs := zs)
        (by rw [hL0, hs]) ?_ ?_
      · intro _ z hz'
        exact Dbl.le_of_lt (of_decide_eq_true (hz z hz'))
      · intro hn y hy'
        have := of_decide_eq_false (hy y hy')
        exact (Dbl.not_lt (tv_ne_nan hn _) (tv_ne_nan hn _)).1 this
    · intro x hx hx'
      simp only [List.mem_append, List.mem_singleton] at hx hx'
      rcases hx' with hx' | rfl
      · rcases hx with hx | rfl
        · exfalso
          have hxe := I.common x hx (by simp [hL0, hs, hx'])
          have hst := I.qL.sorted
          rw [hL0] at hst
          have := (List.pairwise_append.1 hst).2.2 x (by simp [hs, hx']) e (by simp)
          omega
        · rfl
      · rfl

/-- Dropping the expired front: at most one queue has one. -/
theorem expire_ok (chk : Bool) {t : List (Dbl K)} {r e k : ℕ} {s : Lem K} {U L : List ℕ}
    (I : LInv t r (e + 1) e k s U L) :
    ∃ s' U' L', s.expire chk r (e + 1) = .ok s' ∧ LInv t r (e + 1) (e + 1) k s' U' L' := by
  obtain ⟨x, U', rfl⟩ := I.qU.ne_nil
  obtain ⟨y, L', rfl⟩ := I.qL.ne_nil
  have e1 := front_ok chk I.repU
  have e2 := front_ok chk I.repL
  have hx' := I.qU.low x (by simp)
  have hy' := I.qL.low y (by simp)
  unfold Lem.expire
  simp only [e1, e2, bind, Except.bind]
  by_cases c1 : ((e + 1 : ℕ) : Int) = 2 * (r : Int) + 1 + (x : Int)
  · simp only [c1, if_true]
    obtain ⟨d, e3, R⟩ := popFront_ok chk I.repU
    have hy : e + 1 ≤ y + 2 * r := by
      by_contra hc
      have : y = x := by omega
      have := I.common x (by simp) (by simp [this])
      omega
    refine ⟨{ s with du := d }, U', y :: L', by simp only [e3], R, I.repL, I.qU.drop (by omega) (by omega),
      I.qL.keep hy, fun z h1 h2 => I.common z (by simp [h1]) h2, I.outU, I.outL⟩
  · simp only [c1, if_false]
    by_cases c2 : ((e + 1 : ℕ) : Int) = 2 * (r : Int) + 1 + (y : Int)
    · simp only [c2, if_true]
      obtain ⟨d, e3, R⟩ := popFront_ok chk I.repL
      refine ⟨{ s with dl := d }, x :: U', L', by simp only [e3], I.repU, R, I.qU.keep (by omega),
        I.qL.drop (by omega) (by omega), fun z h1 h2 => I.common z h1 (by simp [h2]), I.outU, I.outL⟩
    · simp only [c2, if_false]
      exact ⟨s, x :: U', y :: L', rfl, I.repU, I.repL, I.qU.keep (by omega), I.qL.keep (by omega), I.common, I.outU,
        I.outL⟩

/-- One round of the first loop. -/
theorem step_ok (chk : Bool) {t : List (Dbl K)} {r e : ℕ} {s : Lem K} {U L : List ℕ}
    (I : LInv t r e e (e - r) s U L) (h : e + 1 < t.length) :
    ∃ s' U' L', s.step chk t r (e + 1) = .ok s' ∧ LInv t r (e + 1) (e + 1) (e + 1 - r) s' U' L' := by
  unfold Lem.step
  simp only [bind, Except.bind]
  by_cases hr : (r : Int) < ((e + 1 : ℕ) : Int)
  · simp only [hr, if_true]
    obtain ⟨s1, e1, I1⟩ := emit_ok chk I (i := e + 1) (by omega) (by omega) (by omega) (by omega)
    obtain ⟨s2, U2, L2, e2, I2⟩ := insert_ok chk I1 h
    obtain ⟨s3, U3, L3, e3, I3⟩ := expire_ok chk I2
    refine ⟨s3, U3, L3, by simp only [e1, e2, e3], ?_⟩
    have : e + 1 - r = e - r + 1 := by omega
    rw [this]; exact I3
  · simp only [hr, if_false]
    obtain ⟨s2, U2, L2, e2, I2⟩ := insert_ok chk I h
    obtain ⟨s3, U3, L3, e3, I3⟩ := expire_ok chk I2
    refine ⟨s3, U3, L3, by simp only [e2, e3], ?_⟩
    have : e + 1 - r = e - r := by omega
    rw [this]; exact I3

/-- What holds after the second loop. -/
structure Done (t : List (Dbl K)) (r k : ℕ) (s : Lem K) : Prop where
  outU : OutOK (NoNaN t) (geU t) t r k s.u
  outL : OutOK (NoNaN t) (geL t) t r k s.l

/-- One round of the second loop. -/
theorem tail_ok (chk : Bool) {t : List (Dbl K)} {r k : ℕ} {s : Lem K} {U L : List ℕ}
    (I : LInv t r (t.length - 1) (k + r) k s U L) (hk : k < t.length) (hk' : t.length ≤ k + r + 1) :
    ∃ s', s.tail chk t r (k + r + 1) = .ok s' ∧ Done t r (k + 1) s' ∧
      (k + 1 < t.length → ∃ U' L', LInv t r (t.length - 1) (k + 1 + r) (k + 1) s' U' L') := by
  obtain ⟨s1, e1, I1⟩ := emit_ok chk I (i := k + r + 1) (by omega) hk rfl (by omega)
  obtain ⟨x, U', rfl⟩ := I.qU.ne_nil
  obtain ⟨y, L', rfl⟩ := I.qL.ne_nil
  have f1 := front_ok chk I1.repU
  have f2 := front_ok chk I1.repL
  have hx' := I.qU.low x (by simp)
  have hy' := I.qL.low y (by simp)
  have hw : k + 1 + r = k + r + 1 := by omega
  have ce : ∀ z : ℕ, (2 * (r : Int) + 1 ≤ ((k + r + 1 : ℕ) : Int) - (z : Int)) ↔ ¬ (k + r + 1 ≤ z + 2 * r) := by
    intro z; push_cast; omega
  unfold Lem.tail
  simp only [e1, f1, bind, Except.bind]
  simp only [ce]
  obtain ⟨du, gU, RU⟩ := popFront_ok chk I1.repU
  obtain ⟨dl, gL, RL⟩ := popFront_ok chk I1.repL
  by_cases c1 : k + r + 1 ≤ x + 2 * r <;> by_cases c2 : k + r + 1 ≤ y + 2 * r
  · simp only [c1, c2, not_true_eq_false, if_false, f2]
    refine ⟨s1, rfl, ⟨I1.outU, I1.outL⟩, fun _ => ⟨x :: U', y :: L', I1.repU, I1.repL, ?_, ?_, I1.common, I1.outU, I1.outL⟩⟩
    · rw [hw]; exact I1.qU.keep c1
    · rw [hw]; exact I1.qL.keep c2
  · simp only [c1, c2, not_true_eq_false, not_false_eq_true, if_false, if_true, f2, gL]
    refine ⟨_, rfl, ⟨I1.outU, I1.outL⟩, fun hl => ⟨x :: U', L', I1.repU, RL, ?_, ?_,
      fun z h1 h2 => I1.common z h1 (by simp [h2]), I1.outU, I1.outL⟩⟩
    · rw [hw]; exact I1.qU.keep c1
    · rw [hw]; exact I1.qL.drop c2 (by omega)
  · simp only [c1, c2, not_true_eq_false, not_false_eq_true, if_false, if_true, f2, gU]
    refine ⟨_, rfl, ⟨I1.outU, I1.outL⟩, fun hl => ⟨U', y :: L', RU, I1.repL, ?_, ?_,
      fun z h1 h2 => I1.common z (by simp [h1]) h2, I1.outU, I1.outL⟩⟩
    · rw [hw]; exact I1.qU.drop c1 (by omega)
    · rw [hw]; exact I1.qL.keep c2
  · simp only [c1, c2, not_false_eq_true, if_true, f2, gU, gL]
    refine ⟨_, rfl, ⟨I1.outU, I1.outL⟩, fun hl => ⟨U', L', RU, RL, ?_, ?_,
      fun z h1 h2 => I1.common z (by simp [h1]) (by simp [h2]), I1.outU, I1.outL⟩⟩
    · rw [hw]; exact I1.qU.drop c1 (by omega)
    · rw [hw]; exact I1.qL.drop c2 (by omega)

theorem loop1_ok (chk : Bool) {t : List (Dbl K)} {r : ℕ} (n : ℕ) : ∀ {e : ℕ} {s : Lem K} {U L : List ℕ},
    LInv t r e e (e - r) s U L → e + n < t.length →
    ∃ s' U' L', (List.range' (e + 1) n).foldlM (Lem.step chk t r) s = .ok s' ∧
      LInv t r (e + n) (e + n) (e + n - r) s' U' L' := by
  induction n with
  | zero => intro e s U L I _; exact ⟨s, U, L, rfl, I⟩
  | succ n ih =>
    intro e s U L I h
    obtain ⟨s1, U1, L1, e1, I1⟩ := step_ok chk I (by omega)
    obtain ⟨s2, U2, L2, e2, I2⟩ := ih I1 (by omega)
    refine ⟨s2, U2, L2, ?_, ?_⟩
    · rw [List.range'_succ, List.foldlM_cons, e1]; exact e2
    · have : e + 1 + n = e + (n + 1) := by omega
      rw [this] at I2; exact I2

theorem loop2_ok (chk : Bool) {t : List (Dbl K)} {r : ℕ} (n : ℕ) : ∀ {k : ℕ} {s : Lem K} {U L : List ℕ},
    LInv t r (t.length - 1) (k + r) k s U L → k + n + 1 = t.length → t.length ≤ k + r + 1 →
    ∃ s', (List.range' (k + r + 1) (n + 1)).foldlM (Lem.tail chk t r) s = .ok s' ∧ Done t r t.length s' := by
  induction n with
  | zero =>
    intro k s U L I h h'
    obtain ⟨s1, e1, D, -⟩ := tail_ok chk I (by omega) h'
    refine ⟨s1, ?_, ?_⟩
    · rw [List.range'_succ, List.foldlM_cons, e1]; rfl
    · rw [← h]; exact D
  | succ n ih =>
    intro k s U L I h h'
    obtain ⟨s1, e1, D, N⟩ := tail_ok chk I (by omega) h'
    obtain ⟨U', L', I'⟩ := N (by omega)
    obtain ⟨s2, e2, D2⟩ := ih I' (by omega) (by omega)
    refine ⟨s2, ?_, D2⟩
    rw [List.range'_succ, List.foldlM_cons, e1]
    have : k + 1 + r + 1 = k + r + 1 + 1 := by omega
    rw [this] at e2; exact e2

theorem rep_first (chk : Bool) (r : ℕ) : ∃ d, (Deque.new (2 * (r : Int) + 2).toNat).pushBack chk 0 = .ok d ∧
    Rep (2 * r + 2) d [0] := by
  have : (2 * (r : Int) + 2).toNat = 2 * r + 2 := by omega
  rw [this]
  simpa using push_ok chk (rep_new (cap := 2 * r + 2) (by omega)) (by simp) 0

/-- Both arrays are completely written, with the extreme values of the windows if no value is NaN. -/
theorem lemire_done (chk : Bool) (t : List (Dbl K)) (r : ℕ) (h : r < t.length) :
    ∃ lo up, lemire chk t r = .ok (lo, up) ∧ OutOK (NoNaN t) (geL t) t r t.length lo ∧
      OutOK (NoNaN t) (geU t) t r t.length up := by
  obtain ⟨d, e0, R0⟩ := rep_first chk r
  have Q : ∀ ge : ℕ → ℕ → Prop, (NoNaN t → ∀ x, ge x x) → QInv (NoNaN t) ge r 0 0 [0] := by
    intro ge hge
    refine ⟨by simp, by simp, by simp, by simp, fun hn j _ hj => ⟨0, by simp, by omega, ?_⟩⟩
    have : j = 0 := by omega
    subst this; exact hge hn _
  have I0 : LInv t r 0 0 (0 - r) { du := d, dl := d, u := fun _ => none, l := fun _ => none } [0] [0] :=
    ⟨R0, R0, Q _ geU_refl, Q _ geL_refl, by simp, ⟨by simp, by simp⟩, ⟨by simp, by simp⟩⟩
  obtain ⟨s1, U, L, e1, I1⟩ := loop1_ok chk (t.length - 1) I0 (by omega)
  have h1 : LInv t r (t.length - 1) ((t.length - 1 - r) + r) (t.length - 1 - r) s1 U L := by
    have a : 0 + (t.length - 1) = t.length - 1 := by omega
    have b : t.length - 1 - r + r = t.length - 1 := by omega
    rw [b]; rw [a] at I1; exact I1
  obtain ⟨s2, e2, D⟩ := loop2_ok chk r h1 (by omega) (by omega)
  refine ⟨s2.l, s2.u, ?_, D.outL, D.outU⟩
  unfold lemire
  have a : t.length - 1 - r + r + 1 = t.length := by omega
  have b : ((r : Int) + 1).toNat = r + 1 := by omega
  rw [a] at e2
  simp only [e0, bind, Except.bind, b]
  simp only [Nat.zero_add] at e1
  rw [e1]
  simp only
  rw [e2]

end

end Genex
