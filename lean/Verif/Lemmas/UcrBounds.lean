import Verif.Lemmas.UcrDtw
import Mathlib.Algebra.BigOperators.Intervals
import Mathlib.Algebra.Order.BigOperators.Group.Finset

/-! The lower bounds of genex/lib/trillionDTW.cpp. -/

set_option linter.unusedSectionVars false
set_option linter.unnecessarySeqFocus false

namespace Genex.Ucr

open Dbl Spec

variable {K : Type} [Field K] [LinearOrder K] [IsStrictOrderedRing K]

/-- Squared difference of two points. -/
def cell (a b : List K) (i j : ℕ) : K := (a.getD i 0 - b.getD j 0) ^ 2

theorem cell_nonneg (a b : List K) (i j : ℕ) : 0 ≤ cell a b i j := sq_nonneg _

/-- The parts of the bound of Kim: cells with largest index 1 and 2, and the same from the end. -/
def front1 (a b : List K) : K := min (min (cell a b 1 0) (cell a b 0 1)) (cell a b 1 1)
def back1 (a b : List K) (m : ℕ) : K :=
  min (min (cell a b (m - 2) (m - 1)) (cell a b (m - 1) (m - 2))) (cell a b (m - 2) (m - 2))
def front2 (a b : List K) : K :=
  min (min (min (min (cell a b 0 2) (cell a b 1 2)) (cell a b 2 2)) (cell a b 2 1)) (cell a b 2 0)
def back2 (a b : List K) (m : ℕ) : K :=
  min (min (min (min (cell a b (m - 1) (m - 3)) (cell a b (m - 2) (m - 3))) (cell a b (m - 3) (m - 3))) (cell a b (m - 3) (m - 2)))
    (cell a b (m - 3) (m - 1))

/-- All of it. -/
def kimSum (a b : List K) (m : ℕ) : K :=
  cell a b 0 0 + cell a b (m - 1) (m - 1) + front1 a b + back1 a b m + front2 a b + back2 a b m

theorem lbKim_ok {t : Arr K} {a b : List K} {m : ℕ} {j : Int} {mean std : Dbl K} {bsf : K} (hm : 3 ≤ m) (hb : b.length = m)
    (hz : ∀ k : ℕ, k < m → zAt t mean std (k + j) = .ok (fin (a.getD k 0))) :
    ∃ v, lbKim t (lift b) j m mean std (fin bsf) = .ok (fin v) ∧ v ≤ kimSum a b m := by
  have z0 := hz 0 (by omega)
  have z1 := hz 1 (by omega)
  have z2 := hz 2 (by omega)
  have y0 := hz (m - 1) (by omega)
  have y1 := hz (m - 2) (by omega)
  have y2 := hz (m - 3) (by omega)
  have q0 := rd_lift b (i := 0) (by omega)
  have q1 := rd_lift b (i := 1) (by omega)
  have q2 := rd_lift b (i := 2) (by omega)
  have p0 := rd_lift b (i := m - 1) (by omega)
  have p1 := rd_lift b (i := m - 2) (by omega)
  have p2 := rd_lift b (i := m - 3) (by omega)
  have e0 : ((0 : ℕ) : Int) + j = j := by simp
  have e1 : ((1 : ℕ) : Int) + j = j + 1 := by push_cast; ring
  have e2 : ((2 : ℕ) : Int) + j = j + 2 := by push_cast; ring
  have c1 : ((m - 1 : ℕ) : Int) = m - 1 := by omega
  have c2 : ((m - 2 : ℕ) : Int) = m - 2 := by omega
  have c3 : ((m - 3 : ℕ) : Int) = m - 3 := by omega
  rw [e0] at z0
  rw [e1] at z1
  rw [e2] at z2
  rw [c1] at y0 p0
  rw [c2] at y1 p1
  rw [c3] at y2 p2
  simp only [Nat.cast_zero, Nat.cast_one, Nat.cast_ofNat] at q0 q1 q2
  have n0 : 0 ≤ front1 a b := le_min (le_min (cell_nonneg ..) (cell_nonneg ..)) (cell_nonneg ..)
  have n1 : 0 ≤ back1 a b m := le_min (le_min (cell_nonneg ..) (cell_nonneg ..)) (cell_nonneg ..)
  have n2 : 0 ≤ front2 a b := le_min (le_min (le_min (le_min (cell_nonneg ..) (cell_nonneg ..)) (cell_nonneg ..)) (cell_nonneg ..))
    (cell_nonneg ..)
  have n3 : 0 ≤ back2 a b m := le_min (le_min (le_min (le_min (cell_nonneg ..) (cell_nonneg ..)) (cell_nonneg ..)) (cell_nonneg ..))
    (cell_nonneg ..)
  unfold lbKim kimSum
  simp only [z0, y0, q0, p0, bind, Except.bind, sq_fin, fin_add_fin]
  split_ifs with h
  · exact ⟨_, rfl, by unfold cell at *; linarith⟩
  simp only [z1, q1, sq_fin, mn_fin, fin_add_fin]
  split_ifs with h
  · refine ⟨_, rfl, ?_⟩
    change cell a b 0 0 + cell a b (m - 1) (m - 1) + front1 a b ≤ _
    linarith
  simp only [y1, p1, sq_fin, mn_fin, fin_add_fin]
  split_ifs with h
  · refine ⟨_, rfl, ?_⟩
    change cell a b 0 0 + cell a b (m - 1) (m - 1) + front1 a b + back1 a b m ≤ _
    linarith
  simp only [z2, q2, sq_fin, mn_fin, fin_add_fin]
  split_ifs with h
  · refine ⟨_, rfl, ?_⟩
    change cell a b 0 0 + cell a b (m - 1) (m - 1) + front1 a b + back1 a b m + front2 a b ≤ _
    linarith
  simp only [y2, p2, sq_fin, mn_fin, fin_add_fin]
  exact ⟨_, rfl, le_refl _⟩

/-- The bound of Kim, for series that are long enough. -/
theorem kimSum_le (a b : List K) {m : ℕ} (hm : 6 ≤ m) {p : List (ℕ × ℕ)} (hp : PathTo (m - 1, m - 1) p) :
    kimSum a b m ≤ sqCost a b p := by
  let g : ℕ → K := fun k => if k = 0 then cell a b 0 0 else if k = 1 then front1 a b else if k = 2 then front2 a b else 0
  let h : ℕ → K := fun k => if k = m - 1 then cell a b (m - 1) (m - 1) else if k = m - 2 then back1 a b m else
    if k = m - 3 then back2 a b m else 0
  have n0 : 0 ≤ front1 a b := le_min (le_min (cell_nonneg ..) (cell_nonneg ..)) (cell_nonneg ..)
  have n1 : 0 ≤ back1 a b m := le_min (le_min (cell_nonneg ..) (cell_nonneg ..)) (cell_nonneg ..)
  have n2 : 0 ≤ front2 a b := le_min (le_min (le_min (le_min (cell_nonneg ..) (cell_nonneg ..)) (cell_nonneg ..)) (cell_nonneg ..))
    (cell_nonneg ..)
  have n3 : 0 ≤ back2 a b m := le_min (le_min (le_min (le_min (cell_nonneg ..) (cell_nonneg ..)) (cell_nonneg ..)) (cell_nonneg ..))
    (cell_nonneg ..)
  have hg : ∀ k, 0 ≤ g k := by
    intro k; simp only [g]; split_ifs <;> first | exact cell_nonneg .. | assumption | exact le_refl _
  have hh : ∀ k, 0 ≤ h k := by
    intro k; simp only [h]; split_ifs <;> first | exact cell_nonneg .. | assumption | exact le_refl _
  have key : ∀ i j, i ≤ m - 1 → j ≤ m - 1 → g (max i j) + h (min i j) ≤ cell a b i j := by
    intro i j hi hj
    by_cases h2 : max i j ≤ 2
    · have e : h (min i j) = 0 := by
        simp only [h]; rw [if_neg (by omega), if_neg (by omega), if_neg (by omega)]
      rw [e, add_zero]
      obtain ⟨hi2, hj2⟩ := max_le_iff.1 h2
      have ci : i = 0 ∨ i = 1 ∨ i = 2 := by omega
      have cj : j = 0 ∨ j = 1 ∨ j = 2 := by omega
      rcases ci with rfl | rfl | rfl <;> rcases cj with rfl | rfl | rfl <;> simp [g, front1, front2]
    · have e : g (max i j) = 0 := by
        simp only [g]; rw [if_neg (by omega), if_neg (by omega), if_neg (by omega)]
      rw [e, zero_add]
      by_cases h3 : m - 3 ≤ min i j
      · obtain ⟨hi3, hj3⟩ := le_min_iff.1 h3
        have ci : i = m - 1 ∨ i = m - 2 ∨ i = m - 3 := by omega
        have cj : j = m - 1 ∨ j = m - 2 ∨ j = m - 3 := by omega
        have d1 : m - 2 ≠ m - 1 := by omega
        have d2 : m - 3 ≠ m - 1 := by omega
        have d3 : m - 3 ≠ m - 2 := by omega
        have l1 : m - 2 ≤ m - 1 := by omega
        have l2 : m - 3 ≤ m - 1 := by omega
        have l3 : m - 3 ≤ m - 2 := by omega
        rcases ci with rfl | rfl | rfl <;> rcases cj with rfl | rfl | rfl <;>
          simp [h, back1, back2, d1, d2, d3, l1, l2, l3]
      · simp only [h]; rw [if_neg (by omega), if_neg (by omega), if_neg (by omega)]
        exact cell_nonneg ..
  let φ : ℕ × ℕ → K := fun c => ∑ k ∈ Finset.range (max c.1 c.2 + 1), g k + ∑ k ∈ Finset.range (min c.1 c.2 + 1), h k
  have hφ : φ (m - 1, m - 1) ≤ sqCost a b p := by
    apply PathTo.potential hp
    · have := key 0 0 (by omega) (by omega)
      simpa [φ, cell] using this
    · intro c d hs hd
      have hb := hp.bound d hd
      have := key d.1 d.2 hb.1 hb.2
      have mono : ∀ (f : ℕ → K) (_ : ∀ k, 0 ≤ f k) (x y : ℕ), (y = x ∨ y = x + 1) →
          ∑ k ∈ Finset.range (y + 1), f k ≤ ∑ k ∈ Finset.range (x + 1), f k + f y := by
        intro f hf x y hxy
        rcases hxy with rfl | rfl
        · have := hf y; linarith
        · rw [Finset.sum_range_succ f (x + 1)]
      have m1 := mono g hg (max c.1 c.2) (max d.1 d.2) (by rcases hs with h | h | h <;> rw [h] <;> simp only <;> omega)
      have m2 := mono h hh (min c.1 c.2) (min d.1 d.2) (by rcases hs with h | h | h <;> rw [h] <;> simp only <;> omega)
      simp only [φ]
      unfold cell at this
      linarith
  refine le_trans ?_ hφ
  simp only [φ, max_self, min_self]
  have e1 : m - 1 + 1 = 3 + (m - 3) := by omega
  have e2 : m - 1 + 1 = (m - 3) + 3 := by omega
  have s1 : ∑ k ∈ Finset.range (m - 1 + 1), g k = cell a b 0 0 + front1 a b + front2 a b := by
    rw [e1, Finset.sum_range_add, Finset.sum_eq_zero (s := Finset.range (m - 3)), add_zero]
    · simp [Finset.sum_range_succ, g]
    · intro x _
      simp only [g]; rw [if_neg (by omega), if_neg (by omega), if_neg (by omega)]
  have s2 : ∑ k ∈ Finset.range (m - 1 + 1), h k = back2 a b m + back1 a b m + cell a b (m - 1) (m - 1) := by
    rw [e2, Finset.sum_range_add, Finset.sum_eq_zero (s := Finset.range (m - 3)), zero_add]
    · have a1 : m - 3 + 1 = m - 2 := by omega
      have a2 : m - 3 + 2 = m - 1 := by omega
      have d1 : m - 2 ≠ m - 1 := by omega
      have d2 : m - 3 ≠ m - 1 := by omega
      have d3 : m - 3 ≠ m - 2 := by omega
      simp [Finset.sum_range_succ, h, a1, a2, d1, d2, d3]
    · intro x hx
      have := Finset.mem_range.1 hx
      simp only [h]; rw [if_neg (by omega), if_neg (by omega), if_neg (by omega)]
  rw [s1, s2]
  unfold kimSum
  linarith

/-! ## Keogh -/

/-- What a loop of Keogh's bound leaves: the sum, and the terms if the sum is below the best. -/
structure KeoghOut (e : ℕ → K) (is : List ℕ) (lb bsf : K) (cb : Arr K) (v : K) (cb' : Arr K) : Prop where
  le : v ≤ lb + (is.map e).sum
  len : cb'.length = cb.length
  full : v < bsf → ∀ o ∈ is, cb'[o]? = some (some (fin (e o)))
  same : ∀ o, o ∉ is → cb'[o]? = cb[o]?

theorem KeoghOut.stop {e : ℕ → K} (he : ∀ k, 0 ≤ e k) (is : List ℕ) {lb bsf : K} (h : ¬ lb < bsf) (cb : Arr K) :
    KeoghOut e is lb bsf cb lb cb :=
  ⟨by
    have : 0 ≤ (is.map e).sum := List.sum_nonneg (by intro x hx; obtain ⟨k, -, rfl⟩ := List.mem_map.1 hx; exact he k)
    linarith, rfl, fun h' => absurd h' h, fun _ _ => rfl⟩

theorem KeoghOut.nil {e : ℕ → K} {lb bsf : K} (cb : Arr K) : KeoghOut e [] lb bsf cb lb cb :=
  ⟨by simp, rfl, by simp, fun _ _ => rfl⟩

theorem KeoghOut.cons {e : ℕ → K} {is : List ℕ} {o : ℕ} {lb bsf : K} {cb cb' : Arr K} {v : K} (hn : (o :: is).Nodup) (ho : o < cb.length)
    (h : KeoghOut e is (lb + e o) bsf (cb.set o (some (fin (e o)))) v cb') : KeoghOut e (o :: is) lb bsf cb v cb' := by
  refine ⟨by have := h.le; simp only [List.map_cons, List.sum_cons]; linarith, by rw [h.len]; simp, ?_, ?_⟩
  · intro hv x hx
    rcases List.mem_cons.1 hx with rfl | hx
    · rw [h.same x (List.nodup_cons.1 hn).1, List.getElem?_set_self ho]
    · exact h.full hv x hx
  · intro x hx
    simp only [List.mem_cons, not_or] at hx
    rw [h.same x hx.2, List.getElem?_set_ne (Ne.symm hx.1)]

theorem keoghQ_ok {t uo lo : Arr K} {j : Int} {mean std : Dbl K} {bsf : K} {up low z : ℕ → K} (is : List ℕ) :
    ∀ {i : ℕ} {lb : K} {cb : Arr K}, is.Nodup →
      (∀ n o, is[n]? = some o → o < cb.length ∧ uo[i + n]? = some (some (fin (up o))) ∧ lo[i + n]? = some (some (fin (low o))) ∧
        zAt t mean std (o + j) = .ok (fin (z o))) →
      ∃ v cb', keoghQ t uo lo j mean std (fin bsf) is i (fin lb) cb = .ok (fin v, cb') ∧
        KeoghOut (fun k => excess (low k) (up k) (z k)) is lb bsf cb v cb' := by
  induction is with
  | nil => intro i lb cb _ _; exact ⟨lb, cb, rfl, .nil cb⟩
  | cons o is ih =>
    intro i lb cb hn h
    unfold keoghQ
    simp only [fin_lt_fin]
    split_ifs with hlt
    · obtain ⟨h1, h2, h3, h4⟩ := h 0 o rfl
      simp only [h4, bind, Except.bind]
      have hd : (if up o < z o then fin ((z o - up o) ^ 2) else if z o < low o then fin ((z o - low o) ^ 2) else 0) =
          fin (excess (low o) (up o) (z o)) := by
        unfold excess; split_ifs <;> rfl
      have h2' := rd_some h2
      have h3' := rd_some h3
      simp only [Nat.add_zero] at h2' h3'
      simp only [h2', h3', fin_lt_fin, sq_fin, hd, wr_ok _ h1, fin_add_fin]
      obtain ⟨v, cb', e, hv⟩ := ih (i := i + 1) (lb := lb + excess (low o) (up o) (z o))
        (cb := cb.set o (some (fin (excess (low o) (up o) (z o))))) (List.nodup_cons.1 hn).2 (by
          intro n o' hn'
          have := h (n + 1) o' hn'
          rw [show i + 1 + n = i + (n + 1) by omega]
          simpa using this)
      exact ⟨v, cb', e, .cons hn h1 hv⟩
    · exact ⟨lb, cb, rfl, .stop (fun k => excess_nonneg _ _ _) _ hlt cb⟩

theorem keoghD_ok {qo l u : Arr K} {I : Int} {mean std : Dbl K} {bsf : K} {up low z : ℕ → K} (is : List ℕ) :
    ∀ {i : ℕ} {lb : K} {cb : Arr K}, is.Nodup →
      (∀ n o, is[n]? = some o → o < cb.length ∧ zAt u mean std (I + o) = .ok (fin (up o)) ∧ zAt l mean std (I + o) = .ok (fin (low o)) ∧
        qo[i + n]? = some (some (fin (z o)))) →
      ∃ v cb', keoghD qo l u I mean std (fin bsf) is i (fin lb) cb = .ok (fin v, cb') ∧
        KeoghOut (fun k => excess (low k) (up k) (z k)) is lb bsf cb v cb' := by
  induction is with
  | nil => intro i lb cb _ _; exact ⟨lb, cb, rfl, .nil cb⟩
  | cons o is ih =>
    intro i lb cb hn h
    unfold keoghD
    simp only [fin_lt_fin]
    split_ifs with hlt
    · obtain ⟨h1, h2, h3, h4⟩ := h 0 o rfl
      have h4' := rd_some h4
      simp only [Nat.add_zero] at h4'
      have hd : (if up o < z o then fin ((z o - up o) ^ 2) else if z o < low o then fin ((z o - low o) ^ 2) else 0) =
          fin (excess (low o) (up o) (z o)) := by
        unfold excess; split_ifs <;> rfl
      simp only [h2, h3, h4', bind, Except.bind, fin_lt_fin, sq_fin, hd, wr_ok _ h1, fin_add_fin]
      obtain ⟨v, cb', e, hv⟩ := ih (i := i + 1) (lb := lb + excess (low o) (up o) (z o))
        (cb := cb.set o (some (fin (excess (low o) (up o) (z o))))) (List.nodup_cons.1 hn).2 (by
          intro n o' hn'
          have := h (n + 1) o' hn'
          rw [show i + 1 + n = i + (n + 1) by omega]
          simpa using this)
      exact ⟨v, cb', e, .cons hn h1 hv⟩
    · exact ⟨lb, cb, rfl, .stop (fun k => excess_nonneg _ _ _) _ hlt cb⟩

theorem range_sum (e : ℕ → K) (m : ℕ) : ((List.range m).map e).sum = ∑ k ∈ Finset.range m, e k := by
  induction m with
  | zero => simp
  | succ m ih => rw [List.range_succ, List.map_append, List.sum_append, ih, Finset.sum_range_succ]; simp

/-- The coordinate of a cell that a bound goes along. -/
def along (rows : Bool) (c : ℕ × ℕ) : ℕ := if rows then c.1 else c.2

theorem along_step (rows : Bool) {c d : ℕ × ℕ} (h : Step c d) : along rows d = along rows c ∨ along rows d = along rows c + 1 := by
  cases rows <;> rcases h with h | h | h <;> rw [h] <;> simp [along]

/-- Terms that are below every cell of their row or column in the band. -/
def Below (a b : List K) (r : ℕ) (rows : Bool) (e : ℕ → K) (m : ℕ) : Prop :=
  ∀ i j, i < m → j < m → i ≤ j + r → j ≤ i + r → e (along rows (i, j)) ≤ cell a b i j

theorem Below.sum_le {a b : List K} {r m : ℕ} {rows : Bool} {e : ℕ → K} (h : Below a b r rows e m) (hm : 1 ≤ m)
    {p : List (ℕ × ℕ)} (hp : PathTo (m - 1, m - 1) p) (hb : InBand r p) : ((List.range m).map e).sum ≤ sqCost a b p := by
  have hφ := PathTo.potential hp a b (fun c => ∑ k ∈ Finset.range (along rows c + 1), e k)
    (by
      have := h 0 0 (by omega) (by omega) (by omega) (by omega)
      cases rows <;> simpa [along, cell] using this)
    (by
      intro c d hs hd
      have hbd := hp.bound d hd
      have hin := hb d hd
      have := h d.1 d.2 (by simp only at hbd; omega) (by simp only at hbd; omega) hin.1 hin.2
      simp only [cell] at this
      rcases along_step rows hs with e1 | e1
      · rw [e1]; linarith [sq_nonneg (a.getD d.1 0 - b.getD d.2 0)]
      · rw [e1, Finset.sum_range_succ e (along rows c + 1), ← e1]; linarith)
  have e1 : along rows (m - 1, m - 1) + 1 = m := by cases rows <;> simp [along] <;> omega
  rw [e1] at hφ
  rwa [range_sum]

/-- The sums of the terms from the end bound what is left of a path. -/
theorem Below.rest {a b : List K} {r m : ℕ} {rows : Bool} {e : ℕ → K} (h : Below a b r rows e m)
    {cb : List K} (hc : ∀ k < m, cb.getD k 0 = ∑ x ∈ Finset.Ico k m, e x) : Rest a b m r cb := by
  intro i hi p hp hb
  obtain ⟨j, q, h1, h2, h3⟩ := PathTo.split hp a b hb (fun c => ∑ k ∈ Finset.Ico (i + r + 1) (along rows c + 1), e k) i
    (by simp only; omega)
    (by
      intro j hj
      rw [Finset.Ico_eq_empty (by cases rows <;> simp [along] <;> omega), Finset.sum_empty])
    (by
      intro c d hs hd _
      have hbd := hp.bound d hd
      have hin := hb d hd
      have := h d.1 d.2 (by simp only at hbd; omega) (by simp only at hbd; omega) hin.1 hin.2
      simp only [cell] at this
      have hsq := sq_nonneg (a.getD d.1 0 - b.getD d.2 0)
      rcases along_step rows hs with e1 | e1
      · rw [e1]; linarith
      · by_cases hle : i + r + 1 ≤ along rows c + 1
        · rw [e1, Finset.sum_Ico_succ_top hle, ← e1]; linarith
        · rw [Finset.Ico_eq_empty (by omega), Finset.Ico_eq_empty (by omega), Finset.sum_empty]; linarith)
  refine ⟨j, q, h1, h2, ?_⟩
  have e1 : along rows (m - 1, m - 1) + 1 = m := by cases rows <;> simp [along] <;> omega
  rw [e1] at h3
  rwa [hc _ hi]

/-- The sums from the end. -/
def suffix (c : List K) : List K := match c with
  | [] => []
  | x :: xs => (x + xs.sum) :: suffix xs

theorem suffix_length (c : List K) : (suffix c).length = c.length := by
  induction c with
  | nil => rfl
  | cons x xs ih => simp [suffix, ih]

theorem suffix_getD (c : List K) (k : ℕ) : (suffix c).getD k 0 = (c.drop k).sum := by
  induction c generalizing k with
  | nil => simp [suffix]
  | cons x xs ih =>
    cases k with
    | zero => simp [suffix]
    | succ k => simpa [suffix] using ih k

theorem cumulate_ok (c : List K) : cumulate (lift c) = .ok (lift (suffix c)) := by
  induction c with
  | nil => rfl
  | cons x xs ih =>
    cases xs with
    | nil => simp [lift, cumulate, rd, suffix, bind, Except.bind]
    | cons y ys =>
      have e : lift (x :: y :: ys) = some (fin x) :: lift (y :: ys) := rfl
      have e2 : lift (y :: ys) = some (fin y) :: lift ys := rfl
      rw [e]
      rw [e2] at ih ⊢
      unfold cumulate
      rw [ih]
      simp only [bind, Except.bind]
      have e3 : rd (lift (suffix (y :: ys))) 0 = .ok (fin (y + ys.sum)) := by
        simp [suffix, lift, rd]
      rw [e3]
      simp [rd, suffix, lift, add_comm]

theorem suffix_eq {e : ℕ → K} (m k : ℕ) : (suffix ((List.range m).map e)).getD k 0 = ∑ x ∈ Finset.Ico k m, e x := by
  rw [suffix_getD, Finset.sum_Ico_eq_sum_range, ← range_sum, ← List.map_drop, List.range_eq_range', List.drop_range',
    List.range'_eq_map_range, List.map_map]
  simp [Function.comp_def]

end Genex.Ucr
