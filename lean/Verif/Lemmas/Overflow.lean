import Verif.Model.Overflow
import Verif.Spec.Overflow
import Verif.Lemmas.LockStep
import Verif.Lemmas.Rounded

/-! Data in range do not overflow (lemmas for C87). -/

set_option linter.unusedSectionVars false

namespace Genex

open Dbl Spec

variable {K : Type} [Field K] [LinearOrder K] [IsStrictOrderedRing K] {rd : K → K}

theorem sumOf_fixed (h : Rounding rd) (c : K) (k : ℕ) : rd (sumOf rd c k) = sumOf rd c k := by
  cases k with
  | zero => exact h.zero
  | succ k => exact h.idem _

theorem sumOf_le_succ (h : Rounding rd) {c : K} (hc : 0 ≤ c) (k : ℕ) : sumOf rd c k ≤ sumOf rd c (k + 1) :=
  h.add_le (sumOf_fixed h c k) hc

theorem sumOf_mono (h : Rounding rd) {c : K} (hc : 0 ≤ c) {k l : ℕ} (hkl : k ≤ l) : sumOf rd c k ≤ sumOf rd c l := by
  induction hkl with
  | refl => exact le_rfl
  | step _ ih => exact ih.trans (sumOf_le_succ h hc _)

theorem rndMax_eq {X x : K} (h : |rd x| ≤ X) : rndMax rd X (fin x) = fin (rd x) := by
  rw [abs_le] at h
  simp only [rndMax]
  rw [if_neg (_root_.not_lt.2 h.2), if_neg (_root_.not_lt.2 h.1)]

/-- A number of size at most `X` stays there. -/
theorem rndMax_of_le (hr : Rounding rd) {X x : K} (hX : rd X = X) (h : |x| ≤ X) : rndMax rd X (fin x) = fin (rd x) := by
  refine rndMax_eq ?_
  rw [hr.abs, ← hX]
  exact hr.mono _ _ h

theorem within_sub (hr : Rounding rd) {B y z : K} (hy : |y| ≤ B) (hz : |z| ≤ B) : |rd (y - z)| ≤ rd (2 * B) := by
  rw [hr.abs]
  refine hr.mono _ _ ?_
  rw [abs_le] at hy hz ⊢
  constructor <;> linarith

/-- The greatest rounded square of a difference. -/
def sqMax (rd : K → K) (B : K) : K := rd (rd (2 * B) * rd (2 * B))

theorem sqMax_nonneg (hr : Rounding rd) (B : K) : 0 ≤ sqMax rd B := hr.nonneg (mul_self_nonneg _)

theorem sqR_le (hr : Rounding rd) {B y z : K} (hy : |y| ≤ B) (hz : |z| ≤ B) : sqR rd y z ≤ sqMax rd B := by
  have := within_sub hr hy hz
  refine hr.mono _ _ ?_
  rw [← abs_mul_abs_self]
  exact mul_self_le_mul_self (abs_nonneg _) this

theorem diff_le_of_sq (hr : Rounding rd) {B X : K} (hX1 : 1 ≤ X) (h : sqMax rd B ≤ X) : rd (2 * B) ≤ X := by
  by_cases h1 : rd (2 * B) ≤ 1
  · exact h1.trans hX1
  · rw [_root_.not_le] at h1
    have : rd (2 * B) ≤ sqMax rd B := by
      have := hr.mono (rd (2 * B)) (rd (2 * B) * rd (2 * B)) (by nlinarith)
      rwa [hr.idem] at this
    exact this.trans h

theorem eucDistW_eq (hr : Rounding rd) {B X : K} (hX1 : 1 ≤ X) (h : sqMax rd B ≤ X) {y z : K} (hy : |y| ≤ B)
    (hz : |z| ≤ B) : eucDistW (rndMax rd X) (fin y) (fin z) = fin (sqR rd y z) := by
  unfold eucDistW
  rw [fin_sub_fin, rndMax_eq ((within_sub hr hy hz).trans (diff_le_of_sq hr hX1 h)), fin_mul_fin, rndMax_eq]
  · rfl
  · have := sqR_le hr hy hz
    rw [show rd (rd (y - z) * rd (y - z)) = sqR rd y z from rfl, abs_of_nonneg (sqR_nonneg hr _ _)]
    exact this.trans h

theorem eucNormDTWW_eq [HasSqrt K] [LawfulSqrt K] (hr : Rounding rd) {X : K} (hX : rd X = X) (hX1 : 1 ≤ X) {x : K} (h0 : 0 ≤ x) (hx : x ≤ X) {m n : ℕ}
    (hmn : 1 ≤ max m n) : eucNormDTWW (rndMax rd X) (fin x) m n = eucNormDTWR rd (fin x) m n := by
  unfold eucNormDTWW eucNormDTWR
  have hs0 := LawfulSqrt.sqrt_nonneg h0
  have hs : HasSqrt.sqrt x ≤ X := by
    by_cases h1 : HasSqrt.sqrt x ≤ 1
    · exact h1.trans hX1
    · rw [_root_.not_le] at h1
      have := LawfulSqrt.mul_self h0
      nlinarith
  rw [sqrt_fin h0, rndMax_of_le hr hX (by rwa [abs_of_nonneg hs0]), rnd_fin]
  have hd := maxlen_pos (K := K) hmn
  simp only [Dbl.ofNat]
  rw [fin_div_fin (ne_of_gt hd), rnd_fin, rndMax_of_le hr hX]
  have h1 : 0 ≤ rd (HasSqrt.sqrt x) := hr.nonneg hs0
  have h2 : rd (HasSqrt.sqrt x) ≤ X := by have := hr.mono _ _ hs; rwa [hX] at this
  rw [abs_of_nonneg (div_nonneg h1 hd.le)]
  refine (div_le_self h1 ?_).trans h2
  have : 1 ≤ 2 * max m n := by omega
  exact_mod_cast this

/-! ## Bounds that overflow -/

/-- The same number, or an infinity for a number beyond `X`. -/
def Over (rd : K → K) (X : K) (u v : Dbl K) : Prop :=
  u = v ∨ ∃ p, u = fin p ∧ rd p = p ∧ ((v = .inf ∧ X < p) ∨ (v = .ninf ∧ p < -X))

theorem over_rnd (hr : Rounding rd) (X : K) (d : Dbl K) : Over rd X (rnd rd d) (rndMax rd X d) := by
  cases d with
  | fin x =>
    simp only [rndMax, rnd_fin]
    split
    · exact .inr ⟨_, rfl, hr.idem _, .inl ⟨rfl, by assumption⟩⟩
    · split
      · exact .inr ⟨_, rfl, hr.idem _, .inr ⟨rfl, by assumption⟩⟩
      · exact .inl rfl
  | inf => exact .inl rfl
  | ninf => exact .inl rfl
  | nan => exact .inl rfl

theorem over_mul (hr : Rounding rd) {X : K} (hX1 : 1 ≤ X) {u v : Dbl K} (h : Over rd X u v) {L : K} (hL : 1 ≤ L) :
    Over rd X (rnd rd (u * fin L)) (rndMax rd X (v * fin L)) := by
  rcases h with rfl | ⟨p, rfl, hp, ⟨rfl, h⟩ | ⟨rfl, h⟩⟩
  · exact over_rnd hr X _
  · have e : (Dbl.inf : Dbl K) * fin L = .inf := by
      show infTimes true L = _
      unfold infTimes
      rw [if_neg (by linarith), if_pos (by linarith)]
      rfl
    rw [e, fin_mul_fin, rnd_fin]
    refine .inr ⟨_, rfl, hr.idem _, .inl ⟨rfl, ?_⟩⟩
    have := hr.mono p (p * L) (by nlinarith)
    rw [hp] at this
    linarith
  · have e : (Dbl.ninf : Dbl K) * fin L = .ninf := by
      show infTimes false L = _
      unfold infTimes
      rw [if_neg (by linarith), if_pos (by linarith)]
      rfl
    rw [e, fin_mul_fin, rnd_fin]
    refine .inr ⟨_, rfl, hr.idem _, .inr ⟨rfl, ?_⟩⟩
    have := hr.mono (p * L) p (by nlinarith)
    rw [hp] at this
    linarith

theorem over_sq (hr : Rounding rd) {X : K} (hX1 : 1 ≤ X) {u v : Dbl K} (h : Over rd X u v) :
    Over rd X (rnd rd (u * u)) (rndMax rd X (v * v)) := by
  rcases h with rfl | ⟨p, rfl, hp, ⟨rfl, h⟩ | ⟨rfl, h⟩⟩
  · exact over_rnd hr X _
  · refine .inr ⟨rd (p * p), rfl, hr.idem _, .inl ⟨rfl, ?_⟩⟩
    have := hr.mono p (p * p) (by nlinarith)
    rw [hp] at this
    linarith
  · refine .inr ⟨rd (p * p), rfl, hr.idem _, .inl ⟨rfl, ?_⟩⟩
    have := hr.mono (-p) (p * p) (by nlinarith)
    rw [hr.neg, hp] at this
    linarith

theorem over_lt {X : K} {u v : Dbl K} (h : Over rd X u v) {x : K} (hx : |x| ≤ X) :
    (v < fin x ↔ u < fin x) ∧ (fin x < v ↔ fin x < u) := by
  rw [abs_le] at hx
  rcases h with rfl | ⟨p, rfl, -, ⟨rfl, h⟩ | ⟨rfl, h⟩⟩
  · exact ⟨Iff.rfl, Iff.rfl⟩
  · simp only [fin_lt_fin, fin_lt_inf, true_iff, inf_lt, false_iff]
    exact ⟨by linarith, by linarith⟩
  · simp only [fin_lt_fin]
    refine ⟨⟨fun _ => by linarith, fun _ => ?_⟩, ⟨fun hh => ?_, fun hh => by linarith⟩⟩
    · trivial
    · exact hh.elim

/-! ## The metrics -/

theorem len_ge_one {m n : ℕ} (h : 1 ≤ max m n) : (1 : K) ≤ ((max m n : ℕ) : K) := by exact_mod_cast h

/-- The accumulators of sums that stay in range. -/
def OkSum (rd : K → K) (c : K) (k : ℕ) (s : Dbl K) : Prop := ∃ x, s = fin x ∧ 0 ≤ x ∧ x ≤ sumOf rd c k ∧ rd x = x

theorem okSum_zero (hr : Rounding rd) (c : K) : OkSum rd c 0 0 := ⟨0, rfl, le_rfl, le_rfl, hr.zero⟩

theorem okSum_succ (hr : Rounding rd) {c : K} (hc : 0 ≤ c) {k : ℕ} {s : Dbl K} (h : OkSum rd c k s) : OkSum rd c (k + 1) s := by
  obtain ⟨x, rfl, h1, h2, h3⟩ := h
  exact ⟨x, rfl, h1, h2.trans (sumOf_le_succ hr hc k), h3⟩

theorem okSum_add (hr : Rounding rd) {c X : K} (hc : 0 ≤ c) {N k : ℕ} (hN : sumOf rd c N ≤ X) (hk : k < N) {x q : K} (hx : OkSum rd c k (fin x))
    (hq0 : 0 ≤ q) (hq : q ≤ c) : OkSum rd c (k + 1) (fin (rd (x + q))) ∧ rndMax rd X (fin (x + q)) = fin (rd (x + q)) := by
  obtain ⟨x', e, h1, h2, h3⟩ := hx
  cases e
  have h4 : rd (x + q) ≤ sumOf rd c (k + 1) := hr.mono _ _ (by linarith)
  refine ⟨⟨_, rfl, hr.nonneg (by linarith), h4, hr.idem _⟩, rndMax_eq ?_⟩
  rw [abs_of_nonneg (hr.nonneg (by linarith))]
  exact h4.trans ((sumOf_mono hr hc (by omega)).trans hN)

section
variable (hr : Rounding rd) {X B : K} (hX : rd X = X) (hX1 : 1 ≤ X) {m n : ℕ} (hmn : 1 ≤ max m n)
include hr hX hX1 hmn

theorem sim_euclidean [HasSqrt K] [LawfulSqrt K] (hN : sumOf rd (sqMax rd B) (m + n) ≤ X) :
    LSim (euclideanR rd) (euclideanW (rndMax rd X)) id (OkSum rd (sqMax rd B)) (Below B) m n := by
  have hc := sqMax_nonneg hr B
  have hcX : sqMax rd B ≤ X := by
    have h1 : sumOf rd (sqMax rd B) 1 = sqMax rd B := by
      simp only [sumOf, zero_add, sqMax, hr.idem]
    rw [← h1]
    exact (sumOf_mono hr hc (by omega)).trans hN
  have hle : ∀ {k : ℕ} {x : K}, k ≤ m + n → x ≤ sumOf rd (sqMax rd B) k → x ≤ X := fun hk hx =>
    hx.trans ((sumOf_mono hr hc hk).trans hN)
  have hL := len_ge_one (K := K) hmn
  refine ⟨rfl, rfl, fun s hs => ?_, okSum_zero hr _, fun k s => okSum_succ hr hc, ?_, ?_, ?_, ?_⟩
  · cases hs
    exact okSum_zero hr _
  · rintro k s x y ⟨x, rfl, hx⟩ ⟨y, rfl, hy⟩ ⟨t, rfl, h1, h2, h3⟩ hk
    have h4 := okSum_add hr hc hN hk ⟨t, rfl, h1, h2, h3⟩ (sqR_nonneg hr x y) (sqR_le hr hx hy)
    simp only [euclideanR, euclideanW, id, eucDistR_fin, fin_add_fin, rnd_fin, eucDistW_eq hr hX1 hcX hx hy]
    exact h4
  · rintro k s ⟨t, rfl, h1, h2, h3⟩ hk
    exact eucNormDTWW_eq hr hX hX1 h1 (hle hk h2) hmn
  · rintro k s ⟨t, rfl, h1, h2, h3⟩ hk
    have ht := hle hk h2
    simp only [euclideanR, euclideanW, id, Dbl.ofNat]
    rw [fin_div_fin (by linarith), rnd_fin]
    have h4 : 0 ≤ t / ((max m n : ℕ) : K) := div_nonneg h1 (by linarith)
    have h5 : t / ((max m n : ℕ) : K) ≤ X := (div_le_self h1 hL).trans ht
    rw [rndMax_of_le hr hX (by rwa [abs_of_nonneg h4])]
    have h6 : 0 ≤ rd (t / ((max m n : ℕ) : K)) := hr.nonneg h4
    have h7 : rd (t / ((max m n : ℕ) : K)) ≤ X := by have := hr.mono _ _ h5; rwa [hX] at this
    rw [sqrt_fin h6, rnd_fin]
    have hs0 := LawfulSqrt.sqrt_nonneg h6
    have hs : HasSqrt.sqrt (rd (t / ((max m n : ℕ) : K))) ≤ X := by
      by_cases h1 : HasSqrt.sqrt (rd (t / ((max m n : ℕ) : K))) ≤ 1
      · exact h1.trans hX1
      · rw [_root_.not_le] at h1
        have := LawfulSqrt.mul_self h6
        nlinarith
    exact rndMax_of_le hr hX (by rwa [abs_of_nonneg hs0])
  · rintro k s d ⟨t, rfl, h1, h2, h3⟩ hk
    have ht := hle hk h2
    have h4 := over_lt (over_mul hr hX1 (over_sq hr hX1 (.inl rfl : Over rd X d d)) hL) (x := t) (by rwa [abs_of_nonneg h1])
    simp only [dropTest, euclideanR, euclideanW, id, Dbl.ofNat, decide_eq_decide]
    exact h4.1

theorem sim_manhattan (hN : sumOf rd (rd (2 * B)) (m + n) ≤ X) (hB : 0 ≤ B) :
    LSim (manhattanR rd) (manhattanW (rndMax rd X)) id (OkSum rd (rd (2 * B))) (Below B) m n := by
  have hc : 0 ≤ rd (2 * B) := hr.nonneg (by linarith)
  have hcX : rd (2 * B) ≤ X := by
    have h1 : sumOf rd (rd (2 * B)) 1 = rd (2 * B) := by
      simp only [sumOf, zero_add, hr.idem]
    rw [← h1]
    exact (sumOf_mono hr hc (by omega)).trans hN
  have hle : ∀ {k : ℕ} {x : K}, k ≤ m + n → x ≤ sumOf rd (rd (2 * B)) k → x ≤ X := fun hk hx =>
    hx.trans ((sumOf_mono hr hc hk).trans hN)
  have hL := len_ge_one (K := K) hmn
  have hnorm : ∀ (k : ℕ) (s : Dbl K) (L : K), 1 ≤ L → OkSum rd (rd (2 * B)) k s → k ≤ m + n →
      rndMax rd X (s / fin L) = rnd rd (s / fin L) := by
    rintro k s L hL ⟨t, rfl, h1, h2, h3⟩ hk
    have ht := hle hk h2
    rw [fin_div_fin (by linarith), rnd_fin, rndMax_of_le hr hX]
    rw [abs_of_nonneg (div_nonneg h1 (by linarith))]
    exact (div_le_self h1 hL).trans ht
  refine ⟨rfl, rfl, fun s hs => ?_, okSum_zero hr _, fun k s => okSum_succ hr hc, ?_, ?_, ?_, ?_⟩
  · cases hs
    exact okSum_zero hr _
  · rintro k s x y ⟨x, rfl, hx⟩ ⟨y, rfl, hy⟩ ⟨t, rfl, h1, h2, h3⟩ hk
    have hd := within_sub hr hx hy
    have h4 := okSum_add hr hc hN hk ⟨t, rfl, h1, h2, h3⟩ (abs_nonneg (rd (x - y))) hd
    simp only [manhattanR, manhattanW, id, fin_sub_fin, rnd_fin, rndMax_eq (hd.trans hcX), abs_fin, fin_add_fin]
    exact h4
  · intro k s hs hk
    refine hnorm k s _ ?_ hs hk
    have : 1 ≤ 2 * max m n := by omega
    exact_mod_cast this
  · intro k s hs hk
    exact hnorm k s _ hL hs hk
  · intro k (s : Dbl K) d hs hk
    have := hnorm k s _ hL hs hk
    show decide (d < rndMax rd X ((s : Dbl K) / fin ((max m n : ℕ) : K))) = decide (d < rnd rd ((s : Dbl K) / fin ((max m n : ℕ) : K)))
    rw [this]

omit hX hX1 hmn in
theorem sim_chebyshev (hN : rd (2 * B) ≤ X) (m n : ℕ) :
    LSim (chebyshevR rd) (chebyshevW (rndMax rd X)) id (fun _ _ => True) (Below B) m n := by
  refine ⟨rfl, rfl, fun s hs => trivial, trivial, fun k s _ => trivial, ?_, ?_, ?_, ?_⟩
  · rintro k s x y ⟨x, rfl, hx⟩ ⟨y, rfl, hy⟩ - -
    simp only [chebyshevR, chebyshevW, id, fin_sub_fin, rnd_fin, rndMax_eq ((within_sub hr hx hy).trans hN), and_self]
  · intro k s _ _; rfl
  · intro k s _ _; rfl
  · intro k s d _ _; rfl

omit hX hmn in
theorem keoghLoop_eq (hcX : sqMax rd B ≤ X) {N : ℕ} (hN : sumOf rd (sqMax rd B) N ≤ X) {lower upper : OutArr K} {lo up : ℕ → K} {b : List K}
    (hb : ∀ x ∈ b, |x| ≤ B) {u v : Dbl K} (huv : Over rd X u v) (l : List ℕ)
    (hl : ∀ i ∈ l, outGet lower i = .ok (fin (lo i)) ∧ outGet upper i = .ok (fin (up i)) ∧ |lo i| ≤ B ∧ |up i| ≤ B ∧ i < b.length)
    {k : ℕ} (hk : k + l.length ≤ N) {x : K} (hx : OkSum rd (sqMax rd B) k (fin x)) :
    ∃ y, OkSum rd (sqMax rd B) N (fin y) ∧ keoghLoopR rd lower upper (b.map fin) u l (fin x) = .ok (fin y) ∧
      keoghLoopW (rndMax rd X) lower upper (b.map fin) v l (fin x) = .ok (fin y) := by
  have hc := sqMax_nonneg hr B
  have hup : ∀ {k : ℕ} {x : K}, k ≤ N → OkSum rd (sqMax rd B) k (fin x) → OkSum rd (sqMax rd B) N (fin x) := by
    rintro k x hk ⟨x', e, h1, h2, h3⟩
    exact ⟨x', e, h1, h2.trans (sumOf_mono hr hc hk), h3⟩
  induction l generalizing k x with
  | nil => exact ⟨x, hup (by simpa using hk) hx, rfl, rfl⟩
  | cons i l ih =>
    simp only [List.length_cons] at hk
    obtain ⟨g1, g2, g3, g4, g5⟩ := hl i (by simp)
    have hxX : |x| ≤ X := by
      obtain ⟨x', e, h1, h2, -⟩ := hx
      cases e
      rw [abs_of_nonneg h1]
      exact h2.trans ((sumOf_mono hr hc (by omega)).trans hN)
    have hlt := (over_lt huv hxX).2
    have hbi : |b.getD i 0| ≤ B := by
      rw [List.getD_eq_getElem?_getD, List.getElem?_eq_getElem g5]
      exact hb _ (List.getElem_mem _)
    simp only [keoghLoopR, keoghLoopW]
    by_cases h1 : fin x < u
    · rw [if_pos h1, if_pos (hlt.2 h1)]
      simp only [g1, g2, bind, Except.bind, at'_map b i g5, fin_lt_fin]
      have hrec : ∀ z : K, |z| ≤ B → ∃ y, OkSum rd (sqMax rd B) N (fin y) ∧
          keoghLoopR rd lower upper (b.map fin) u l (rnd rd (fin x + eucDistR rd (fin (b.getD i 0)) (fin z))) = .ok (fin y) ∧
          keoghLoopW (rndMax rd X) lower upper (b.map fin) v l
            (rndMax rd X (fin x + eucDistW (rndMax rd X) (fin (b.getD i 0)) (fin z))) = .ok (fin y) := by
        intro z hz
        rw [eucDistW_eq hr hX1 hcX hbi hz, eucDistR_fin, fin_add_fin, rnd_fin]
        obtain ⟨h4, h5⟩ := okSum_add hr hc hN (by omega : k < N) hx (sqR_nonneg hr (b.getD i 0) z) (sqR_le hr hbi hz)
        rw [h5]
        exact ih (fun j hj => hl j (by simp [hj])) (by omega) h4
      by_cases h2 : up i < b.getD i 0
      · rw [if_pos h2, if_pos h2]
        exact hrec _ g4
      · rw [if_neg h2, if_neg h2]
        by_cases h3 : b.getD i 0 < lo i
        · rw [if_pos h3, if_pos h3]
          exact hrec _ g3
        · rw [if_neg h3, if_neg h3]
          exact ih (fun j hj => hl j (by simp [hj])) (k := k) (by omega) hx
    · rw [if_neg h1, if_neg (fun h => h1 (hlt.1 h))]
      exact ⟨x, hup (by omega) hx, rfl, rfl⟩

omit hmn in
theorem keogh_eq [HasSqrt K] [LawfulSqrt K] [BandOps] {ratio : ℚ} (hq : 0 ≤ ratio) (a b : List K) (ha : 1 ≤ a.length) (hb : 1 ≤ b.length)
    (hN : sumOf rd (sqMax rd B) (a.length + b.length) ≤ X) (haB : ∀ x ∈ a, |x| ≤ B) (hbB : ∀ x ∈ b, |x| ≤ B) (d : Dbl K) :
    keoghLowerBoundW (rndMax rd X) ratio (a.map fin) (b.map fin) d = keoghLowerBoundR rd ratio (a.map fin) (b.map fin) d := by
  have hc := sqMax_nonneg hr B
  have hcX : sqMax rd B ≤ X := by
    have h1 : sumOf rd (sqMax rd B) 1 = sqMax rd B := by
      simp only [sumOf, zero_add, sqMax, hr.idem]
    rw [← h1]
    exact (sumOf_mono hr hc (by omega)).trans hN
  have hbw := band_eq_bandWidth hq (len := max a.length b.length) (by omega)
  set w := bandWidth ratio (max a.length b.length) with hw
  have hmin : min (band ratio (max a.length b.length : ℕ)) (((a.map fin).length : Int) - 1) =
      ((min w (a.length - 1) : ℕ) : Int) := by
    rw [hbw]; simp only [List.length_map]; omega
  obtain ⟨lower, upper, e, henv⟩ := envelope_fin false a (min w (a.length - 1)) (by omega)
  choose! lo up h1 h2 h3 h4 using henv
  have hL := len_ge_one (K := K) (show 1 ≤ max a.length b.length by omega)
  have huv := over_sq hr hX1 (over_mul hr hX1 (over_rnd hr X (d * fin 2)) hL)
  have hwin : ∀ i, ∀ z ∈ window a (min w (a.length - 1)) i, |z| ≤ B := by
    rintro i z ⟨k, hk, -⟩
    exact haB _ (List.mem_of_getElem? hk)
  obtain ⟨y, ⟨y', ey, y1, y2, -⟩, k1, k2⟩ := keoghLoop_eq hr hX1 hcX (N := a.length + b.length) hN (lower := lower) (upper := upper) (lo := lo) (up := up) (b := b) hbB
    huv (List.range (min a.length b.length))
    (fun i hi => by
      rw [List.mem_range] at hi
      exact ⟨by simp [outGet, h1 i (by omega)], by simp [outGet, h2 i (by omega)], hwin i _ (h3 i (by omega)).1, hwin i _ (h4 i (by omega)).1, by omega⟩)
    (k := 0) (by simp) (okSum_zero hr _)
  cases ey
  have e2 : (Dbl.ofNat 2 : Dbl K) = fin 2 := by simp [Dbl.ofNat]
  unfold keoghLowerBoundR keoghLowerBoundW keoghLU
  simp only [List.length_map] at hmin ⊢
  simp only [hmin, e, bind, Except.bind]
  rw [e2, zero_def]
  simp only [Dbl.ofNat]
  rw [k1, k2]
  simp only
  rw [eucNormDTWW_eq hr hX hX1 y1 (y2.trans hN) (by omega)]

omit hmn in
theorem kim_eq [HasSqrt K] [LawfulSqrt K] (a b : List K) (ha : 1 ≤ a.length) (hb : 1 ≤ b.length)
    (hN : sumOf rd (sqMax rd B) (a.length + b.length) ≤ X) (haB : ∀ x ∈ a, |x| ≤ B) (hbB : ∀ x ∈ b, |x| ≤ B) :
    kimLowerBoundW (rndMax rd X) (a.map fin) (b.map fin) = kimLowerBoundR rd (a.map fin) (b.map fin) := by
  have hc := sqMax_nonneg hr B
  have h1e : sumOf rd (sqMax rd B) 1 = sqMax rd B := by
    simp only [sumOf, zero_add, sqMax, hr.idem]
  have hcX : sqMax rd B ≤ X := by
    rw [← h1e]
    exact (sumOf_mono hr hc (by omega)).trans hN
  have hget : ∀ (l : List K) (i : ℕ), i < l.length → (∀ x ∈ l, |x| ≤ B) → at' (l.map fin) i = fin (l.getD i 0) ∧ |l.getD i 0| ≤ B := by
    intro l i hi hl
    refine ⟨at'_map l i hi, ?_⟩
    rw [List.getD_eq_getElem?_getD, List.getElem?_eq_getElem hi]
    exact hl _ (List.getElem_mem _)
  obtain ⟨a1, a2⟩ := hget a 0 (by omega) haB
  obtain ⟨b1, b2⟩ := hget b 0 (by omega) hbB
  obtain ⟨a3, a4⟩ := hget a (a.length - 1) (by omega) haB
  obtain ⟨b3, b4⟩ := hget b (b.length - 1) (by omega) hbB
  unfold kimLowerBoundW kimLowerBoundR
  simp only [List.length_map]
  by_cases h1 : min a.length b.length = 1
  · rw [if_pos h1, if_pos h1, a1, b1, eucDistR_fin, eucDistW_eq hr hX1 hcX a2 b2]
    exact eucNormDTWW_eq hr hX hX1 (sqR_nonneg hr _ _) ((sqR_le hr a2 b2).trans hcX) (by omega)
  · rw [if_neg h1, if_neg h1, if_pos (by omega), if_pos (by omega), a1, b1, a3, b3, eucDistR_fin, eucDistR_fin,
      eucDistW_eq hr hX1 hcX a2 b2, eucDistW_eq hr hX1 hcX a4 b4, fin_add_fin, rnd_fin]
    have hs : OkSum rd (sqMax rd B) 1 (fin (sqR rd (a.getD 0 0) (b.getD 0 0))) :=
      ⟨_, rfl, sqR_nonneg hr _ _, by rw [h1e]; exact sqR_le hr a2 b2, hr.idem _⟩
    obtain ⟨⟨y, ey, y1, y2, -⟩, k2⟩ := okSum_add hr hc hN (show 1 < a.length + b.length by omega) hs
      (sqR_nonneg hr (a.getD (a.length - 1) 0) (b.getD (b.length - 1) 0)) (sqR_le hr a4 b4)
    rw [k2]
    cases ey
    exact eucNormDTWW_eq hr hX hX1 y1 (y2.trans ((sumOf_mono hr hc (by omega)).trans hN)) (by omega)

end

end Genex
