import Verif.Lemmas.UcrRounded
import Verif.Lemmas.UcrScan

/-! The bounds and one window of the scan in rounded arithmetic. -/

set_option linter.unusedSectionVars false

namespace Genex.Ucr

open Dbl Spec

variable {K : Type} [Field K] [LinearOrder K] [IsStrictOrderedRing K] {fl : K → K} {u θ : K}

/-! ## Sums from below -/

/-- A float that is at most `X` but for `n` roundings. -/
structure Upto (fl : K → K) (u : K) (n : ℕ) (X x : K) : Prop where
  float : fl x = x
  nonneg : 0 ≤ x
  le : x ≤ (1 + u) ^ n * X

theorem Upto.zero (h : FloatOps fl u θ) {n : ℕ} {X : K} (hX : 0 ≤ X) : Upto fl u n X 0 :=
  ⟨h.toRounding.zero, le_rfl, mul_nonneg (pow_nonneg (by linarith [h.u_nonneg]) _) hX⟩

theorem Upto.base {x : K} (h1 : fl x = x) (h2 : 0 ≤ x) : Upto fl u 0 x x := ⟨h1, h2, by simp⟩

theorem Upto.add (h : FloatOps fl u θ) {n : ℕ} {X x y : K} (hx : Upto fl u n X x) (hy : fl y = y) (hy0 : 0 ≤ y) :
    Upto fl u (n + 1) (X + y) (fl (x + y)) := by
  have hu := h.u_nonneg
  refine ⟨h.toRounding.idem _, h.toRounding.nonneg (add_nonneg hx.nonneg hy0), ?_⟩
  have h1 := add_upper h hx.float hy (add_nonneg hx.nonneg hy0)
  have h2 : y ≤ (1 + u) ^ n * y := le_mul_of_one_le_left hy0 (one_le_pow_add hu n)
  calc _ ≤ _ := h1
    _ ≤ (1 + u) * ((1 + u) ^ n * X + (1 + u) ^ n * y) := mul_le_mul_of_nonneg_left (add_le_add hx.le h2) (by linarith)
    _ = _ := by ring

theorem Upto.mono (hu : 0 ≤ u) {n n' : ℕ} {X X' x : K} (hx : Upto fl u n X x) (hn : n ≤ n') (hX : X ≤ X') : Upto fl u n' X' x := by
  refine ⟨hx.float, hx.nonneg, hx.le.trans ?_⟩
  have hX0 : 0 ≤ X := by
    by_contra hc
    have : (1 + u) ^ n * X < 0 := mul_neg_of_pos_of_neg (pow_pos (by linarith) _) (_root_.not_le.1 hc)
    linarith [hx.le, hx.nonneg]
  exact mul_le_mul (pow_add_mono hu hn) hX hX0 (pow_nonneg (by linarith) _)

theorem min_float {x y : K} (hx : fl x = x) (hy : fl y = y) : fl (min x y) = min x y := by
  rcases min_choice x y with e | e <;> rw [e] <;> assumption

/-! ## Kim -/

theorem lbKimR_ok (h : FloatOps fl u θ) {t : Arr K} {a b : List K} {m : ℕ} {j : Int} {mean std : Dbl K} {bsf : K} (hm : 3 ≤ m) (hb : b.length = m)
    (hz : ∀ k : ℕ, k < m → zAtR (rnd fl) t mean std (k + j) = .ok (fin (a.getD k 0))) :
    ∃ v, lbKimR (rnd fl) t (lift b) j m mean std (fin bsf) = .ok (fin v) ∧ v ≤ (1 + u) ^ 5 * kimAll (cellBy fl a b) m := by
  have z0 := hz 0 (by omega)
  have z1 := hz 1 (by omega)
  have z2 := hz 2 (by omega)
  have y0 := hz (m - 1) (by omega)
  have y1 := hz (m - 2) (by omega)
  have y2 := hz (m - 3) (by omega)
  have q0 := rd_lift b (i := 0) (by omega)
  have q1 := rd_lift b (i := 1) (by omega)
  have q2 := rd_lift b (i := 2) (by omega)
  have p0 := rd_lift b (i := m - 1) (by omega)
  have p1 := rd_lift b (i := m - 2) (by omega)
  have p2 := rd_lift b (i := m - 3) (by omega)
  have e0 : ((0 : ℕ) : Int) + j = j := by simp
  have e1 : ((1 : ℕ) : Int) + j = j + 1 := by push_cast; ring
  have e2 : ((2 : ℕ) : Int) + j = j + 2 := by push_cast; ring
  have c1 : ((m - 1 : ℕ) : Int) = m - 1 := by omega
  have c2 : ((m - 2 : ℕ) : Int) = m - 2 := by omega
  have c3 : ((m - 3 : ℕ) : Int) = m - 3 := by omega
  rw [e0] at z0
  rw [e1] at z1
  rw [e2] at z2
  rw [c1] at y0 p0
  rw [c2] at y1 p1
  rw [c3] at y2 p2
  simp only [Nat.cast_zero, Nat.cast_one, Nat.cast_ofNat] at q0 q1 q2
  have hu := h.u_nonneg
  have hc := cellBy_nonneg h.toRounding a b
  have hf : ∀ i j, fl (cellBy fl a b i j) = cellBy fl a b i j := fun i j => sqBy_float h.toRounding _ _
  have n1 := kim1_nonneg hc
  have n2 := kim2_nonneg hc m
  have n3 := kim3_nonneg hc
  have n4 := kim4_nonneg hc m
  have f1 : fl (kim1 (cellBy fl a b)) = kim1 (cellBy fl a b) := min_float (min_float (hf ..) (hf ..)) (hf ..)
  have f2 : fl (kim2 (cellBy fl a b) m) = kim2 (cellBy fl a b) m := min_float (min_float (hf ..) (hf ..)) (hf ..)
  have f3 : fl (kim3 (cellBy fl a b)) = kim3 (cellBy fl a b) := min_float (min_float (min_float (min_float (hf ..) (hf ..)) (hf ..)) (hf ..)) (hf ..)
  have f4 : fl (kim4 (cellBy fl a b) m) = kim4 (cellBy fl a b) m := min_float (min_float (min_float (min_float (hf ..) (hf ..)) (hf ..)) (hf ..)) (hf ..)
  have u1 := (Upto.base (u := u) (hf 0 0) (hc 0 0)).add h (hf (m - 1) (m - 1)) (hc _ _)
  have u2 := u1.add h f1 n1
  have u3 := u2.add h f2 n2
  have u4 := u3.add h f3 n3
  have u5 := u4.add h f4 n4
  unfold lbKimR
  simp only [z0, y0, q0, p0, bind, Except.bind, sqR_fin, fin_add_fin, rnd]
  split_ifs with h'
  · exact ⟨_, rfl, (u1.mono hu (by omega) (by unfold kimAll; linarith)).le⟩
  simp only [z1, q1, sqR_fin, mn_fin, fin_add_fin, rnd]
  split_ifs with h'
  · exact ⟨_, rfl, (u2.mono hu (by omega) (by unfold kimAll; linarith)).le⟩
  simp only [y1, p1, sqR_fin, mn_fin, fin_add_fin, rnd]
  split_ifs with h'
  · exact ⟨_, rfl, (u3.mono hu (by omega) (by unfold kimAll; linarith)).le⟩
  simp only [z2, q2, sqR_fin, mn_fin, fin_add_fin, rnd]
  split_ifs with h'
  · exact ⟨_, rfl, (u4.mono hu (by omega) (by unfold kimAll; linarith)).le⟩
  simp only [y2, p2, sqR_fin, mn_fin, fin_add_fin, rnd]
  exact ⟨_, rfl, (u5.mono hu (by omega) (by unfold kimAll; linarith)).le⟩

/-- Infinite, or not a number. -/
def Off (d : Dbl K) : Prop := d = inf ∨ d = nan

theorem Off.add {x y : Dbl K} (hx : Off x) (hy : Off y) : Off (rnd fl (x + y)) := by
  rcases hx with rfl | rfl <;> rcases hy with rfl | rfl
  · exact .inl rfl
  · exact .inr rfl
  · exact .inr rfl
  · exact .inr rfl

theorem Off.mn {x y : Dbl K} (hx : Off x) (hy : Off y) : Off (mn x y) := by
  unfold Ucr.mn; split_ifs <;> assumption

theorem Off.not_lt {x : Dbl K} (hx : Off x) (b : K) : ¬ x < fin b := by
  rcases hx with rfl | rfl <;> simp

/-- What a division by 0 or by no number gives. -/
def OffZ (d : Dbl K) : Prop := d = inf ∨ d = ninf ∨ d = nan

theorem OffZ.sq {x : Dbl K} (hx : OffZ x) (q : K) : Off (sqR (rnd fl) x (fin q)) := by
  unfold sqR
  rcases hx with rfl | rfl | rfl
  · exact .inl rfl
  · exact .inl rfl
  · exact .inr rfl

theorem lbKimR_off {t : Arr K} {b : List K} {m : ℕ} {j : Int} {mean std : Dbl K} {bsf : Dbl K} (hm : 3 ≤ m) (hb : b.length = m)
    (hz : ∀ k : ℕ, k < m → ∃ z, zAtR (rnd fl) t mean std (k + j) = .ok z ∧ OffZ z) :
    ∃ v, lbKimR (rnd fl) t (lift b) j m mean std bsf = .ok v ∧ Off v := by
  obtain ⟨x0, z0, g0⟩ := hz 0 (by omega)
  obtain ⟨x1, z1, g1⟩ := hz 1 (by omega)
  obtain ⟨x2, z2, g2⟩ := hz 2 (by omega)
  obtain ⟨w0, y0, k0⟩ := hz (m - 1) (by omega)
  obtain ⟨w1, y1, k1⟩ := hz (m - 2) (by omega)
  obtain ⟨w2, y2, k2⟩ := hz (m - 3) (by omega)
  have q0 := rd_lift b (i := 0) (by omega)
  have q1 := rd_lift b (i := 1) (by omega)
  have q2 := rd_lift b (i := 2) (by omega)
  have p0 := rd_lift b (i := m - 1) (by omega)
  have p1 := rd_lift b (i := m - 2) (by omega)
  have p2 := rd_lift b (i := m - 3) (by omega)
  have e0 : ((0 : ℕ) : Int) + j = j := by simp
  have e1 : ((1 : ℕ) : Int) + j = j + 1 := by push_cast; ring
  have e2 : ((2 : ℕ) : Int) + j = j + 2 := by push_cast; ring
  have c1 : ((m - 1 : ℕ) : Int) = m - 1 := by omega
  have c2 : ((m - 2 : ℕ) : Int) = m - 2 := by omega
  have c3 : ((m - 3 : ℕ) : Int) = m - 3 := by omega
  rw [e0] at z0
  rw [e1] at z1
  rw [e2] at z2
  rw [c1] at y0 p0
  rw [c2] at y1 p1
  rw [c3] at y2 p2
  simp only [Nat.cast_zero, Nat.cast_one, Nat.cast_ofNat] at q0 q1 q2
  unfold lbKimR
  simp only [z0, y0, q0, p0, bind, Except.bind]
  have u1 := (g0.sq (fl := fl) (b.getD 0 0)).add (fl := fl) (k0.sq (fl := fl) (b.getD (m - 1) 0))
  split_ifs with h'
  · exact ⟨_, rfl, u1⟩
  simp only [z1, q1]
  have u2 := u1.add (fl := fl) (((g1.sq (fl := fl) (b.getD 0 0)).mn (g0.sq (fl := fl) (b.getD 1 0))).mn (g1.sq (fl := fl) (b.getD 1 0)))
  split_ifs with h'
  · exact ⟨_, rfl, u2⟩
  simp only [y1, p1]
  have u3 := u2.add (fl := fl) (((k1.sq (fl := fl) (b.getD (m - 1) 0)).mn (k0.sq (fl := fl) (b.getD (m - 2) 0))).mn (k1.sq (fl := fl) (b.getD (m - 2) 0)))
  split_ifs with h'
  · exact ⟨_, rfl, u3⟩
  simp only [z2, q2]
  have u4 := u3.add (fl := fl) (((((g0.sq (fl := fl) (b.getD 2 0)).mn (g1.sq (fl := fl) (b.getD 2 0))).mn (g2.sq (fl := fl) (b.getD 2 0))).mn
    (g2.sq (fl := fl) (b.getD 1 0))).mn (g2.sq (fl := fl) (b.getD 0 0)))
  split_ifs with h'
  · exact ⟨_, rfl, u4⟩
  simp only [y2, p2]
  exact ⟨_, rfl, u4.add (fl := fl) (((((k0.sq (fl := fl) (b.getD (m - 3) 0)).mn (k1.sq (fl := fl) (b.getD (m - 3) 0))).mn (k2.sq (fl := fl) (b.getD (m - 3) 0))).mn
    (k2.sq (fl := fl) (b.getD (m - 2) 0))).mn (k2.sq (fl := fl) (b.getD (m - 1) 0)))⟩

/-! ## Keogh -/

/-- The square of the distance from an interval. -/
def excessBy (fl : K → K) (lo up x : K) : K := if up < x then sqBy fl x up else if x < lo then sqBy fl x lo else 0

theorem excessBy_nonneg (h : Rounding fl) (lo up x : K) : 0 ≤ excessBy fl lo up x := by
  unfold excessBy; split_ifs <;> first | exact sqBy_nonneg h _ _ | exact le_rfl

theorem excessBy_float (h : Rounding fl) (lo up x : K) : fl (excessBy fl lo up x) = excessBy fl lo up x := by
  unfold excessBy; split_ifs <;> first | exact sqBy_float h _ _ | exact h.zero

theorem sqBy_abs (h : Rounding fl) (x y : K) : sqBy fl x y = fl (fl |x - y| * fl |x - y|) := by
  unfold sqBy; rw [← h.abs, abs_mul_abs_self]

theorem sqBy_mono (h : Rounding fl) {x y x' y' : K} (hle : |x - y| ≤ |x' - y'|) : sqBy fl x y ≤ sqBy fl x' y' := by
  rw [sqBy_abs h, sqBy_abs h]
  have h1 := h.mono _ _ hle
  have h0 := h.nonneg (abs_nonneg (x - y))
  exact h.mono _ _ (mul_le_mul h1 h1 h0 (h0.trans h1))

theorem excessBy_le (h : Rounding fl) {lo up x y : K} (h1 : lo ≤ y) (h2 : y ≤ up) : excessBy fl lo up x ≤ sqBy fl x y := by
  unfold excessBy
  split_ifs with h3 h4
  · apply sqBy_mono h
    rw [abs_of_pos (by linarith), abs_of_pos (by linarith)]
    linarith
  · apply sqBy_mono h
    rw [abs_of_neg (by linarith), abs_of_neg (by linarith)]
    linarith
  · exact sqBy_nonneg h _ _

theorem sqBy_comm (h : Rounding fl) (x y : K) : sqBy fl x y = sqBy fl y x :=
  _root_.le_antisymm (sqBy_mono h (by rw [abs_sub_comm])) (sqBy_mono h (by rw [abs_sub_comm]))

/-- What a loop of Keogh's bound leaves. -/
structure KeoghOutB (fl : K → K) (u : K) (e : ℕ → K) (is : List ℕ) (lb bsf : K) (cb : Arr K) (v : K) (cb' : Arr K) : Prop where
  le : ∀ n X, Upto fl u n X lb → Upto fl u (n + is.length) (X + (is.map e).sum) v
  len : cb'.length = cb.length
  full : v < bsf → ∀ o ∈ is, cb'[o]? = some (some (fin (e o)))
  same : ∀ o, o ∉ is → cb'[o]? = cb[o]?

section
variable (h : FloatOps fl u θ)
include h

theorem KeoghOutB.stop {e : ℕ → K} (he : ∀ k, 0 ≤ e k) (is : List ℕ) {lb bsf : K} (hl : ¬ lb < bsf) (cb : Arr K) :
    KeoghOutB fl u e is lb bsf cb lb cb :=
  ⟨fun n X hX => hX.mono h.u_nonneg (by omega) (by
    have : 0 ≤ (is.map e).sum := List.sum_nonneg (by intro x hx; obtain ⟨k, -, rfl⟩ := List.mem_map.1 hx; exact he k)
    linarith), rfl, fun h' => absurd h' hl, fun _ _ => rfl⟩

theorem KeoghOutB.nil {e : ℕ → K} {lb bsf : K} (cb : Arr K) : KeoghOutB fl u e [] lb bsf cb lb cb :=
  ⟨fun n X hX => by simpa using hX, rfl, by simp, fun _ _ => rfl⟩

theorem KeoghOutB.cons {e : ℕ → K} {is : List ℕ} {o : ℕ} {lb bsf : K} {cb cb' : Arr K} {v : K} (he : 0 ≤ e o) (hf : fl (e o) = e o)
    (hn : (o :: is).Nodup) (ho : o < cb.length)
    (hk : KeoghOutB fl u e is (fl (lb + e o)) bsf (cb.set o (some (fin (e o)))) v cb') : KeoghOutB fl u e (o :: is) lb bsf cb v cb' := by
  refine ⟨fun n X hX => ?_, by rw [hk.len]; simp, ?_, ?_⟩
  · have := hk.le _ _ (hX.add h hf he)
    rw [List.map_cons, List.sum_cons, ← add_assoc X, show n + (o :: is).length = n + 1 + is.length by simp; omega]
    exact this
  · intro hv x hx
    rcases List.mem_cons.1 hx with rfl | hx
    · rw [hk.same x (List.nodup_cons.1 hn).1, List.getElem?_set_self ho]
    · exact hk.full hv x hx
  · intro x hx
    simp only [List.mem_cons, not_or] at hx
    rw [hk.same x hx.2, List.getElem?_set_ne (Ne.symm hx.1)]

theorem keoghQR_ok {t uo lo : Arr K} {j : Int} {mean std : Dbl K} {bsf : K} {up low z : ℕ → K} (is : List ℕ) :
    ∀ {i : ℕ} {lb : K} {cb : Arr K}, is.Nodup →
      (∀ n o, is[n]? = some o → o < cb.length ∧ uo[i + n]? = some (some (fin (up o))) ∧ lo[i + n]? = some (some (fin (low o))) ∧
        zAtR (rnd fl) t mean std (o + j) = .ok (fin (z o))) →
      ∃ v cb', keoghQR (rnd fl) t uo lo j mean std (fin bsf) is i (fin lb) cb = .ok (fin v, cb') ∧
        KeoghOutB fl u (fun k => excessBy fl (low k) (up k) (z k)) is lb bsf cb v cb' := by
  induction is with
  | nil => intro i lb cb _ _; exact ⟨lb, cb, rfl, .nil h cb⟩
  | cons o is ih =>
    intro i lb cb hn hh
    unfold keoghQR
    simp only [fin_lt_fin]
    split_ifs with hlt
    · obtain ⟨h1, h2, h3, h4⟩ := hh 0 o rfl
      simp only [h4, bind, Except.bind]
      have hd : (if up o < z o then fin (sqBy fl (z o) (up o)) else if z o < low o then fin (sqBy fl (z o) (low o)) else 0) =
          fin (excessBy fl (low o) (up o) (z o)) := by
        unfold excessBy; split_ifs <;> rfl
      have h2' := rd_some h2
      have h3' := rd_some h3
      simp only [Nat.add_zero] at h2' h3'
      simp only [h2', h3', fin_lt_fin, sqR_fin, hd, wr_ok _ h1, fin_add_fin, rnd]
      obtain ⟨v, cb', e, hv⟩ := ih (i := i + 1) (lb := fl (lb + excessBy fl (low o) (up o) (z o)))
        (cb := cb.set o (some (fin (excessBy fl (low o) (up o) (z o))))) (List.nodup_cons.1 hn).2 (by
          intro n o' hn'
          have := hh (n + 1) o' hn'
          rw [show i + 1 + n = i + (n + 1) by omega]
          simpa using this)
      exact ⟨v, cb', e, .cons h (excessBy_nonneg h.toRounding _ _ _) (excessBy_float h.toRounding _ _ _) hn h1 hv⟩
    · exact ⟨lb, cb, rfl, .stop h (fun k => excessBy_nonneg h.toRounding _ _ _) _ hlt cb⟩

theorem keoghDR_ok {qo l ub : Arr K} {I : Int} {mean std : Dbl K} {bsf : K} {up low z : ℕ → K} (is : List ℕ) :
    ∀ {i : ℕ} {lb : K} {cb : Arr K}, is.Nodup →
      (∀ n o, is[n]? = some o → o < cb.length ∧ zAtR (rnd fl) ub mean std (I + o) = .ok (fin (up o)) ∧ zAtR (rnd fl) l mean std (I + o) = .ok (fin (low o)) ∧
        qo[i + n]? = some (some (fin (z o)))) →
      ∃ v cb', keoghDR (rnd fl) qo l ub I mean std (fin bsf) is i (fin lb) cb = .ok (fin v, cb') ∧
        KeoghOutB fl u (fun k => excessBy fl (low k) (up k) (z k)) is lb bsf cb v cb' := by
  induction is with
  | nil => intro i lb cb _ _; exact ⟨lb, cb, rfl, .nil h cb⟩
  | cons o is ih =>
    intro i lb cb hn hh
    unfold keoghDR
    simp only [fin_lt_fin]
    split_ifs with hlt
    · obtain ⟨h1, h2, h3, h4⟩ := hh 0 o rfl
      have h4' := rd_some h4
      simp only [Nat.add_zero] at h4'
      have hd : (if up o < z o then fin (sqBy fl (z o) (up o)) else if z o < low o then fin (sqBy fl (z o) (low o)) else 0) =
          fin (excessBy fl (low o) (up o) (z o)) := by
        unfold excessBy; split_ifs <;> rfl
      simp only [h2, h3, h4', bind, Except.bind, fin_lt_fin, sqR_fin, hd, wr_ok _ h1, fin_add_fin, rnd]
      obtain ⟨v, cb', e, hv⟩ := ih (i := i + 1) (lb := fl (lb + excessBy fl (low o) (up o) (z o)))
        (cb := cb.set o (some (fin (excessBy fl (low o) (up o) (z o))))) (List.nodup_cons.1 hn).2 (by
          intro n o' hn'
          have := hh (n + 1) o' hn'
          rw [show i + 1 + n = i + (n + 1) by omega]
          simpa using this)
      exact ⟨v, cb', e, .cons h (excessBy_nonneg h.toRounding _ _ _) (excessBy_float h.toRounding _ _ _) hn h1 hv⟩
    · exact ⟨lb, cb, rfl, .stop h (fun k => excessBy_nonneg h.toRounding _ _ _) _ hlt cb⟩

end

theorem keogh_arrayB {e : ℕ → K} {is : List ℕ} {m : ℕ} (h : is.Perm (List.range m)) {lb bsf v : K} {cb cb' : Arr K}
    (hc : cb.length = m) (ho : KeoghOutB fl u e is lb bsf cb v cb') (hv : v < bsf) : cb' = lift ((List.range m).map e) := by
  apply List.ext_getElem?
  intro k
  by_cases hk : k < m
  · rw [ho.full hv k (h.mem_iff.2 (List.mem_range.2 hk))]
    simp [lift, hk]
  · rw [List.getElem?_eq_none (by rw [ho.len]; omega), List.getElem?_eq_none (by simp [lift]; omega)]

/-- The sums from the end. -/
def suffixBy (fl : K → K) : List K → List K
  | [] => []
  | [x] => [x]
  | x :: xs => fl ((suffixBy fl xs).getD 0 0 + x) :: suffixBy fl xs

theorem suffixBy_length (c : List K) : (suffixBy fl c).length = c.length := by
  induction c with
  | nil => rfl
  | cons x xs ih =>
    cases xs with
    | nil => rfl
    | cons y ys => simp only [suffixBy, List.length_cons] at ih ⊢; rw [ih]

theorem cumulateR_ok (c : List K) : cumulateR (rnd fl) (lift c) = .ok (lift (suffixBy fl c)) := by
  induction c with
  | nil => rfl
  | cons x xs ih =>
    cases xs with
    | nil => simp [lift, cumulateR, rd, suffixBy, bind, Except.bind]
    | cons y ys =>
      have e : lift (x :: y :: ys) = some (fin x) :: lift (y :: ys) := rfl
      have e2 : lift (y :: ys) = some (fin y) :: lift ys := rfl
      have e3 := rd_lift (suffixBy fl (y :: ys)) (i := 0) (by rw [suffixBy_length]; simp)
      rw [e]
      rw [e2] at ih ⊢
      unfold cumulateR
      rw [ih]
      simp only [bind, Except.bind]
      simp only [Nat.cast_zero] at e3
      rw [e3]
      simp [rd, suffixBy, lift, rnd]

theorem suffixBy_upto (h : FloatOps fl u θ) (c : List K) (hc : ∀ x ∈ c, fl x = x ∧ 0 ≤ x) (k : ℕ) :
    Upto fl u c.length ((c.drop k).sum) ((suffixBy fl c).getD k 0) := by
  induction c generalizing k with
  | nil => simpa [suffixBy] using Upto.zero (n := 0) h le_rfl
  | cons x xs ih =>
    have hx := hc x (by simp)
    cases xs with
    | nil =>
      cases k with
      | zero => simpa [suffixBy] using (Upto.base (u := u) hx.1 hx.2).mono h.u_nonneg (show 0 ≤ 1 by omega) le_rfl
      | succ k => simpa [suffixBy] using Upto.zero (n := 1) h le_rfl
    | cons y ys =>
      have ih := ih (fun z hz => hc z (by simp [hz]))
      cases k with
      | zero =>
        have := (ih 0).add h hx.1 hx.2
        simp only [List.drop_zero] at this ⊢
        rw [List.sum_cons, add_comm x]
        exact this
      | succ k => exact (ih k).mono h.u_nonneg (by simp) le_rfl

/-- The sums from the end are what `dtw` needs. -/
theorem Under.restB (h : FloatOps fl u θ) {a b : List K} {m r : ℕ} {rows : Bool} {e : ℕ → K} (hU : Under (cellBy fl a b) r rows e m)
    (he : ∀ k, fl (e k) = e k ∧ 0 ≤ e k) : RestB fl u a b m r (suffixBy fl ((List.range m).map e)) := by
  have hs := suffixBy_upto h ((List.range m).map e) (by intro x hx; obtain ⟨k, -, rfl⟩ := List.mem_map.1 hx; exact he k)
  refine ⟨fun k => (hs k).float, fun k => (hs k).nonneg, fun i hi p hp hb => ?_⟩
  obtain ⟨j, q, h1, h2, h3⟩ := hU.rest (cellBy_nonneg h.toRounding a b) hi hp hb
  refine ⟨j, q, _, h1, h2, h3, Finset.sum_nonneg (fun k _ => (he k).2), ?_⟩
  have := (hs (i + r + 1)).le
  rwa [← suffix_getD, suffix_eq, List.length_map, List.length_range] at this

theorem zAtR_ok {t : Arr K} {i : Int} {x μ σ : K} (h : rd t i = .ok (fin x)) (hσ : σ ≠ 0) :
    zAtR (rnd fl) t (fin μ) (fin σ) i = .ok (fin (fl (fl (x - μ) / σ))) := by
  unfold zAtR
  rw [h]
  simp only [bind, Except.bind, fin_sub_fin, rnd, fin_div_fin hσ]

/-- What `stdOfR` can be besides a positive number. -/
theorem zAtR_off {t : Arr K} {i : Int} {x μ : K} {std : Dbl K} (h : rd t i = .ok (fin x)) (hσ : std = fin 0 ∨ std = nan) :
    ∃ z, zAtR (rnd fl) t (fin μ) std i = .ok z ∧ OffZ z := by
  unfold zAtR
  rw [h]
  simp only [bind, Except.bind, fin_sub_fin, rnd]
  refine ⟨_, rfl, ?_⟩
  rcases hσ with rfl | rfl
  · have : (fin (fl (x - μ)) : Dbl K) / fin 0 = Dbl.div (fin (fl (x - μ))) (fin 0) := rfl
    rw [this]
    simp only [Dbl.div, if_true]
    unfold OffZ
    split_ifs <;> simp [rnd]
  · exact .inr (.inr rfl)

variable [HasSqrt K] [LawfulSqrt K]

theorem meanR_ok {m : ℕ} (hm : 1 ≤ m) (S : K) : rnd fl ((fin S : Dbl K) / ofNat m) = fin (meanOf fl m S) := by
  have : (m : K) ≠ 0 := by
    have : (0 : K) < m := by exact_mod_cast hm
    exact this.ne'
  unfold ofNat meanOf
  rw [fin_div_fin this]
  rfl

theorem devOf_nonneg (h : Rounding fl) (m : ℕ) (S S2 : K) : 0 ≤ devOf fl m S S2 := by
  unfold devOf
  split_ifs with hlt
  · exact le_rfl
  · exact h.nonneg (LawfulSqrt.sqrt_nonneg (_root_.not_lt.1 hlt))

theorem stdR_pos {m : ℕ} (hm : 1 ≤ m) {S S2 : K} (hd : 0 < devOf fl m S S2) : stdOfR (rnd fl) m (fin S) (fin S2) = fin (devOf fl m S S2) := by
  unfold stdOfR
  rw [meanR_ok hm S, meanR_ok hm S2, fin_mul_fin, rnd, fin_sub_fin, rnd]
  unfold devOf at hd ⊢
  split_ifs at hd ⊢ with hlt
  · exact absurd hd (lt_irrefl _)
  · have : Dbl.sqrt (fin (fl (meanOf fl m S2 - fl (meanOf fl m S * meanOf fl m S)))) = fin (HasSqrt.sqrt (fl (meanOf fl m S2 - fl (meanOf fl m S * meanOf fl m S)))) := by
      simp only [Dbl.sqrt]
      exact if_neg hlt
    rw [this]
    rfl

theorem stdR_off (h : Rounding fl) {m : ℕ} (hm : 1 ≤ m) {S S2 : K} (hd : ¬ 0 < devOf fl m S S2) :
    stdOfR (rnd fl) m (fin S) (fin S2) = fin 0 ∨ stdOfR (rnd fl) m (fin S) (fin S2) = nan := by
  have hz := _root_.le_antisymm (_root_.not_lt.1 hd) (devOf_nonneg h m S S2)
  unfold stdOfR
  rw [meanR_ok hm S, meanR_ok hm S2, fin_mul_fin, rnd, fin_sub_fin, rnd]
  simp only [Dbl.sqrt]
  unfold devOf at hz
  split_ifs at hz ⊢ with hlt hlt2 hlt2
  · exact .inr rfl
  · exact absurd hlt hlt2
  · exact absurd hlt2 hlt
  · left
    show fin _ = fin _
    rw [hz.symm]
    rw [hz]
    exact congrArg fin hz

end Genex.Ucr
