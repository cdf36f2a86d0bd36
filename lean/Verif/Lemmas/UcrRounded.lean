import Verif.Model.UcrRounded
import Verif.Spec.UcrRounded
import Verif.Lemmas.UcrPath
import Verif.Lemmas.RoundedError
import Verif.Lemmas.UcrWindow

/-! The distance and the bounds of genex/lib/trillionDTW.cpp in rounded arithmetic. -/

set_option linter.unusedSectionVars false

namespace Genex.Ucr

open Dbl Spec

variable {K : Type} [Field K] [LinearOrder K] [IsStrictOrderedRing K] {fl : K → K} {u θ : K}

/-! ## Costs -/

/-- The cost of a cell. -/
def cellBy (fl : K → K) (a b : List K) (i j : ℕ) : K := sqBy fl (a.getD i 0) (b.getD j 0)

theorem sqR_fin (x y : K) : sqR (rnd fl) (fin x) (fin y) = fin (sqBy fl x y) := by
  simp only [sqR, fin_sub_fin, rnd, fin_mul_fin, sqBy]

theorem sqBy_nonneg (h : Rounding fl) (x y : K) : 0 ≤ sqBy fl x y := h.nonneg (mul_self_nonneg _)

theorem sqBy_float (h : Rounding fl) (x y : K) : fl (sqBy fl x y) = sqBy fl x y := h.idem _

theorem cellBy_nonneg (h : Rounding fl) (a b : List K) (i j : ℕ) : 0 ≤ cellBy fl a b i j := sqBy_nonneg h _ _

theorem sqCostBy_snoc (a b : List K) (p : List (ℕ × ℕ)) (c : ℕ × ℕ) :
    sqCostBy fl a b (p ++ [c]) = fl (sqCostBy fl a b p + cellBy fl a b c.1 c.2) := by
  simp [sqCostBy, cellBy]

theorem sqCostBy_single (h : Rounding fl) (a b : List K) : sqCostBy fl a b [(0, 0)] = cellBy fl a b 0 0 := by
  simp only [sqCostBy, List.foldl_cons, List.foldl_nil, zero_add]
  exact sqBy_float h _ _

theorem sqCostBy_float (h : Rounding fl) (a b : List K) (p : List (ℕ × ℕ)) : fl (sqCostBy fl a b p) = sqCostBy fl a b p := by
  induction p using List.reverseRecOn with
  | nil => simp [sqCostBy, h.zero]
  | append_singleton p c _ => rw [sqCostBy_snoc, h.idem]

theorem sqCostBy_nonneg (h : Rounding fl) (a b : List K) (p : List (ℕ × ℕ)) : 0 ≤ sqCostBy fl a b p := by
  induction p using List.reverseRecOn with
  | nil => simp [sqCostBy]
  | append_singleton p c ih => rw [sqCostBy_snoc]; exact h.nonneg (add_nonneg ih (cellBy_nonneg h _ _ _ _))

theorem cellBy_le_cost (h : Rounding fl) (a b : List K) {c : ℕ × ℕ} {p : List (ℕ × ℕ)} (hp : PathTo c p) :
    cellBy fl a b 0 0 ≤ sqCostBy fl a b p := by
  induction hp using PathTo.rec' with
  | base => rw [sqCostBy_single h]
  | step c d p hp hs ih =>
    rw [sqCostBy_snoc]
    exact ih.trans (h.add_le (sqCostBy_float h a b p) (cellBy_nonneg h _ _ _ _))

theorem add_upper (h : FloatOps fl u θ) {x y : K} (hx : fl x = x) (hy : fl y = y) (h0 : 0 ≤ x + y) : fl (x + y) ≤ (1 + u) * (x + y) := by
  have := abs_le.1 (h.add x y hx hy)
  rw [abs_of_nonneg h0] at this
  linarith [this.2]

theorem add_lower (h : FloatOps fl u θ) {x y : K} (hx : fl x = x) (hy : fl y = y) (h0 : 0 ≤ x + y) : (1 - u) * (x + y) ≤ fl (x + y) := by
  have := abs_le.1 (h.add x y hx hy)
  rw [abs_of_nonneg h0] at this
  linarith [this.1]

theorem one_le_pow_add (hu : 0 ≤ u) (n : ℕ) : 1 ≤ (1 + u) ^ n := one_le_pow₀ (by linarith)

theorem pow_add_mono (hu : 0 ≤ u) {n k : ℕ} (h : n ≤ k) : (1 + u) ^ n ≤ (1 + u) ^ k := pow_le_pow_right₀ (by linarith) h

theorem pow_sub_anti (hu : 0 ≤ u) (hu1 : u ≤ 1) {n k : ℕ} (h : n ≤ k) : (1 - u) ^ k ≤ (1 - u) ^ n :=
  pow_le_pow_of_le_one (by linarith) (by linarith) h

theorem sqCostBy_upper (h : FloatOps fl u θ) (a b : List K) (p : List (ℕ × ℕ)) :
    sqCostBy fl a b p ≤ (1 + u) ^ p.length * cells (cellBy fl a b) p := by
  have hu := h.u_nonneg
  induction p using List.reverseRecOn with
  | nil => simp [sqCostBy, cells]
  | append_singleton p c ih =>
    have hc := cellBy_nonneg h.toRounding a b c.1 c.2
    rw [sqCostBy_snoc, cells_snoc, List.length_append, List.length_singleton]
    have h1 := add_upper h (sqCostBy_float h.toRounding a b p) (sqBy_float h.toRounding _ _ : fl (cellBy fl a b c.1 c.2) = _)
      (add_nonneg (sqCostBy_nonneg h.toRounding a b p) hc)
    have h2 := one_le_pow_add hu p.length
    have h3 : cellBy fl a b c.1 c.2 ≤ (1 + u) ^ p.length * cellBy fl a b c.1 c.2 := le_mul_of_one_le_left hc h2
    calc _ ≤ _ := h1
      _ ≤ (1 + u) * ((1 + u) ^ p.length * cells (cellBy fl a b) p + (1 + u) ^ p.length * cellBy fl a b c.1 c.2) :=
        mul_le_mul_of_nonneg_left (add_le_add ih h3) (by linarith)
      _ = _ := by ring

theorem sqCostBy_lower (h : FloatOps fl u θ) (hu1 : u ≤ 1) (a b : List K) (p : List (ℕ × ℕ)) :
    (1 - u) ^ p.length * cells (cellBy fl a b) p ≤ sqCostBy fl a b p := by
  have hu := h.u_nonneg
  induction p using List.reverseRecOn with
  | nil => simp [sqCostBy, cells]
  | append_singleton p c ih =>
    have hc := cellBy_nonneg h.toRounding a b c.1 c.2
    rw [sqCostBy_snoc, cells_snoc, List.length_append, List.length_singleton]
    have h1 := add_lower h (sqCostBy_float h.toRounding a b p) (sqBy_float h.toRounding _ _ : fl (cellBy fl a b c.1 c.2) = _)
      (add_nonneg (sqCostBy_nonneg h.toRounding a b p) hc)
    have h2 : (1 - u) ^ p.length ≤ 1 := pow_le_one₀ (by linarith) (by linarith)
    have h3 : (1 - u) ^ p.length * cellBy fl a b c.1 c.2 ≤ cellBy fl a b c.1 c.2 := mul_le_of_le_one_left hc h2
    calc _ = (1 - u) * ((1 - u) ^ p.length * cells (cellBy fl a b) p + (1 - u) ^ p.length * cellBy fl a b c.1 c.2) := by ring
      _ ≤ (1 - u) * (sqCostBy fl a b p + cellBy fl a b c.1 c.2) := mul_le_mul_of_nonneg_left (add_le_add ih h3) (by linarith)
      _ ≤ _ := h1

theorem path_len {m : ℕ} (hm : 1 ≤ m) {p : List (ℕ × ℕ)} (hp : PathTo (m - 1, m - 1) p) : p.length ≤ 2 * m := by
  have := hp.length_le
  simp only at this
  omega

/-- Something that is at most the cells of a path, but for a factor, is at most its cost, but for a factor. -/
theorem cells_to_cost (h : FloatOps fl u θ) (hu1 : u ≤ 1) {a b : List K} {m N : ℕ} (hm : 1 ≤ m) {p : List (ℕ × ℕ)} (hp : PathTo (m - 1, m - 1) p) {x : K}
    (hx : x ≤ (1 + u) ^ N * cells (cellBy fl a b) p) : (1 - u) ^ (2 * m) * x ≤ (1 + u) ^ N * sqCostBy fl a b p := by
  have hu := h.u_nonneg
  have h1 := sqCostBy_lower h hu1 a b p
  have h2 := pow_sub_anti hu hu1 (path_len hm hp)
  have h3 := cells_nonneg (cellBy_nonneg h.toRounding a b) p
  have h4 : (0 : K) ≤ (1 - u) ^ (2 * m) := pow_nonneg (by linarith) _
  have h5 : (0 : K) ≤ (1 + u) ^ N := pow_nonneg (by linarith) _
  calc _ ≤ (1 - u) ^ (2 * m) * ((1 + u) ^ N * cells (cellBy fl a b) p) := mul_le_mul_of_nonneg_left hx h4
    _ = (1 + u) ^ N * ((1 - u) ^ (2 * m) * cells (cellBy fl a b) p) := by ring
    _ ≤ (1 + u) ^ N * ((1 - u) ^ p.length * cells (cellBy fl a b) p) :=
      mul_le_mul_of_nonneg_left (mul_le_mul_of_nonneg_right h2 h3) h5
    _ ≤ _ := mul_le_mul_of_nonneg_left h1 h5

/-! ## The distance -/

/-- The value of a cell. -/
structure CellB (fl : K → K) (a b : List K) (r i j : ℕ) (v : K) : Prop where
  float : fl v = v
  nonneg : 0 ≤ v
  le : ∀ p, PathTo (i, j) p → InBand r p → v ≤ sqCostBy fl a b p
  reached : (∃ p, PathTo (i, j) p ∧ InBand r p ∧ sqCostBy fl a b p = v) ∨ 10 ^ 20 ≤ v

/-- The value of a neighbour that may be missing. -/
def NbB (fl : K → K) (a b : List K) (r i j : ℕ) (ok : Prop) (x : K) : Prop := (ok ∧ CellB fl a b r i j x) ∨ (¬ ok ∧ x = 10 ^ 20)

section
variable (hf : Rounding fl) (hbig : fl (10 ^ 20) = 10 ^ 20)
include hf hbig

theorem NbB.float {a b : List K} {r i j : ℕ} {ok : Prop} {x : K} (h : NbB fl a b r i j ok x) : fl x = x ∧ 0 ≤ x := by
  rcases h with ⟨-, h⟩ | ⟨-, rfl⟩
  · exact ⟨h.float, h.nonneg⟩
  · exact ⟨hbig, by positivity⟩

theorem cellB_step {a b : List K} {r i j : ℕ} (h0 : ¬ (i = 0 ∧ j = 0)) (hb : i ≤ j + r ∧ j ≤ i + r) {x y z : K}
    (hx : NbB fl a b r (i - 1) j (1 ≤ i ∧ j ≤ i - 1 + r) x) (hy : NbB fl a b r i (j - 1) (1 ≤ j ∧ i ≤ j - 1 + r) y)
    (hz : NbB fl a b r (i - 1) (j - 1) (1 ≤ i ∧ 1 ≤ j) z) :
    CellB fl a b r i j (fl (min (min x y) z + cellBy fl a b i j)) := by
  have hsq := cellBy_nonneg hf a b i j
  have nx := hx.float hf hbig
  have ny := hy.float hf hbig
  have nz := hz.float hf hbig
  refine ⟨hf.idem _, hf.nonneg (add_nonneg (le_min (le_min nx.2 ny.2) nz.2) hsq), ?_, ?_⟩
  · intro p hp hin
    rcases hp.cases with ⟨e, -⟩ | ⟨q, d, rfl, hq, hs⟩
    · simp only [Prod.mk.injEq] at e; exact absurd e h0
    · rw [sqCostBy_snoc]
      have hq' := (inBand_snoc.1 hin).1
      have hd := hq' d (List.mem_of_getLast? hq.last)
      obtain ⟨d1, d2⟩ := d
      simp only at hd
      have : min (min x y) z ≤ sqCostBy fl a b q := by
        rcases hs with h | h | h <;> simp only [Prod.mk.injEq] at h <;> obtain ⟨rfl, rfl⟩ := h
        · rcases hz with ⟨-, hz⟩ | ⟨hn, -⟩
          · exact (min_le_right _ _).trans (hz.le q (by simpa using hq) hq')
          · exact absurd ⟨by omega, by omega⟩ hn
        · rcases hx with ⟨-, hx⟩ | ⟨hn, -⟩
          · exact (min_le_left _ _).trans ((min_le_left _ _).trans (hx.le q (by simpa using hq) hq'))
          · exact absurd ⟨by omega, by omega⟩ hn
        · rcases hy with ⟨-, hy⟩ | ⟨hn, -⟩
          · exact (min_le_left _ _).trans ((min_le_right _ _).trans (hy.le q (by simpa using hq) hq'))
          · exact absurd ⟨by omega, by omega⟩ hn
      exact hf.mono _ _ (by simpa using this)
  · have key : ∀ {i' j' : ℕ} {ok : Prop} {w : K}, NbB fl a b r i' j' ok w → (ok → Step (i', j') (i, j)) →
        (∃ p, PathTo (i, j) p ∧ InBand r p ∧ sqCostBy fl a b p = fl (w + cellBy fl a b i j)) ∨ 10 ^ 20 ≤ fl (w + cellBy fl a b i j) := by
      intro i' j' ok w hw hst
      have big : 10 ^ 20 ≤ w → 10 ^ 20 ≤ fl (w + cellBy fl a b i j) := fun h => by
        have := hf.mono (10 ^ 20) (w + cellBy fl a b i j) (by linarith)
        rwa [hbig] at this
      rcases hw with ⟨ho, hw⟩ | ⟨-, rfl⟩
      · rcases hw.reached with ⟨p, hp, hin, rfl⟩ | hw
        · exact .inl ⟨p ++ [(i, j)], hp.snoc (hst ho), inBand_snoc.2 ⟨hin, hb⟩, by rw [sqCostBy_snoc]⟩
        · exact .inr (big hw)
      · exact .inr (big le_rfl)
    have kx := key hx (fun ho => .inr (.inl (Prod.ext (by simp only; omega) rfl)))
    have ky := key hy (fun ho => .inr (.inr (Prod.ext rfl (by simp only; omega))))
    have kz := key hz (fun ho => .inl (by simp only [Prod.mk.injEq]; omega))
    rcases min_choice (min x y) z with e | e <;> rw [e]
    · rcases min_choice x y with e' | e' <;> rw [e'] <;> assumption
    · exact kz

theorem cellB_first (a b : List K) (r : ℕ) : CellB fl a b r 0 0 (cellBy fl a b 0 0) :=
  ⟨sqBy_float hf _ _, cellBy_nonneg hf _ _ _ _, fun _ hp _ => cellBy_le_cost hf a b hp,
    .inl ⟨_, PathTo.single, by intro c hc; simp at hc; subst hc; simp, sqCostBy_single hf a b⟩⟩

/-- The array of a row: all cells of the row in the band before the column `j`. -/
def RowB (fl : K → K) (a b : List K) (m r i j : ℕ) (c : Arr K) (mc : Option K) : Prop :=
  c.length = 2 * r + 1 ∧ ∀ j', j' < j → j' < m → i ≤ j' + r → j' ≤ i + r →
    ∃ v, c[j' + r - i]? = some (some (fin v)) ∧ CellB fl a b r i j' v ∧ ∀ x ∈ mc, x ≤ v

structure CellInvB (fl : K → K) (a b : List K) (m r i j : ℕ) (s : Row K) : Prop where
  k : s.k + i = j + r
  row : ∃ mc, s.minCost = fin mc ∧ fl mc = mc ∧ 0 ≤ mc ∧ RowB fl a b m r i j s.cost (some mc)

theorem RowB.set {a b : List K} {m r i j : ℕ} {c : Arr K} {mc mc' v : K} (h : RowB fl a b m r i j c (some mc)) {k : ℕ}
    (hk : k + i = j + r) (hk' : k < 2 * r + 1) (hv : CellB fl a b r i j v) (hm : mc' ≤ mc ∨ (i = 0 ∧ j = 0)) (hm' : mc' ≤ v) :
    RowB fl a b m r i (j + 1) (c.set k (some (fin v))) (some mc') := by
  refine ⟨by simp [h.1], fun j' h1 h2 h3 h4 => ?_⟩
  by_cases e : j' = j
  · subst e
    refine ⟨v, ?_, hv, by simpa using hm'⟩
    have : j' + r - i = k := by omega
    rw [this, List.getElem?_set_self (by rw [h.1]; exact hk')]
  · obtain ⟨w, h5, h6, h7⟩ := h.2 j' (by omega) h2 h3 h4
    refine ⟨w, ?_, h6, ?_⟩
    · rw [List.getElem?_set_ne (by omega)]; exact h5
    · rcases hm with hm | ⟨-, rfl⟩
      · intro x hx; simp at hx; subst hx
        exact hm.trans (h7 mc (by simp))
      · omega

theorem dtwCellR_ok {a b : List K} {m r i j : ℕ} (ha : a.length = m) (hb : b.length = m) (hi : i < m) (hj : j < m)
    (hij : i ≤ j + r ∧ j ≤ i + r) {prev : Arr K} (hp : 1 ≤ i → RowB fl a b m r (i - 1) m prev none) {s : Row K}
    (hs : CellInvB fl a b m r i j s) : ∃ s', dtwCellR (rnd fl) (lift a) (lift b) prev r i s j = .ok s' ∧ CellInvB fl a b m r i (j + 1) s' := by
  obtain ⟨hk, mc, hmc, hmf, hm0, hrow⟩ := hs
  have hkl : s.k < s.cost.length := by rw [hrow.1]; omega
  by_cases h0 : i = 0 ∧ j = 0
  · obtain ⟨rfl, rfl⟩ := h0
    unfold dtwCellR
    have ea := rd_lift a (i := 0) (by omega)
    have eb := rd_lift b (i := 0) (by omega)
    simp only [Nat.cast_zero] at ea eb
    simp only [and_self, if_true, ea, eb, bind, Except.bind, sqR_fin, wr_ok _ hkl]
    have hv := cellB_first hf hbig a b r
    refine ⟨_, rfl, by simp only; omega, _, rfl, hv.float, hv.nonneg, ?_⟩
    exact hrow.set hf hbig (by omega) (by rw [← hrow.1]; exact hkl) hv (.inr ⟨rfl, rfl⟩) le_rfl
  · have ey : ∃ y, nbr ((j : Int) - 1 < 0 ∨ (s.k : Int) - 1 < 0) s.cost (s.k - 1) = .ok (fin y) ∧
        NbB fl a b r i (j - 1) (1 ≤ j ∧ i ≤ j - 1 + r) y := by
      by_cases hc : (j : Int) - 1 < 0 ∨ (s.k : Int) - 1 < 0
      · rw [nbr, if_pos hc]
        exact ⟨_, rfl, .inr ⟨by omega, rfl⟩⟩
      · rw [nbr, if_neg hc]
        obtain ⟨v, e, hv, -⟩ := hrow.2 (j - 1) (by omega) (by omega) (by omega) (by omega)
        refine ⟨v, ?_, .inl ⟨by omega, hv⟩⟩
        have : j - 1 + r - i = s.k - 1 := by omega
        rw [this] at e
        have e' := rd_some e
        rw [Nat.cast_sub (by omega)] at e'
        exact e'
    have ex : ∃ x, nbr ((i : Int) - 1 < 0 ∨ 2 * r < s.k + 1) prev (s.k + 1) = .ok (fin x) ∧
        NbB fl a b r (i - 1) j (1 ≤ i ∧ j ≤ i - 1 + r) x := by
      by_cases hc : (i : Int) - 1 < 0 ∨ 2 * r < s.k + 1
      · rw [nbr, if_pos hc]
        exact ⟨_, rfl, .inr ⟨by omega, rfl⟩⟩
      · rw [nbr, if_neg hc]
        obtain ⟨v, e, hv, -⟩ := (hp (by omega)).2 j (by omega) (by omega) (by omega) (by omega)
        refine ⟨v, ?_, .inl ⟨by omega, hv⟩⟩
        have : j + r - (i - 1) = s.k + 1 := by omega
        rw [this] at e
        exact rd_some e
    have ez : ∃ z, nbr ((i : Int) - 1 < 0 ∨ (j : Int) - 1 < 0) prev s.k = .ok (fin z) ∧
        NbB fl a b r (i - 1) (j - 1) (1 ≤ i ∧ 1 ≤ j) z := by
      by_cases hc : (i : Int) - 1 < 0 ∨ (j : Int) - 1 < 0
      · rw [nbr, if_pos hc]
        exact ⟨_, rfl, .inr ⟨by omega, rfl⟩⟩
      · rw [nbr, if_neg hc]
        obtain ⟨v, e, hv, -⟩ := (hp (by omega)).2 (j - 1) (by omega) (by omega) (by omega) (by omega)
        refine ⟨v, ?_, .inl ⟨by omega, hv⟩⟩
        have : j - 1 + r - (i - 1) = s.k := by omega
        rw [this] at e
        exact rd_some e
    obtain ⟨y, ey, hy⟩ := ey
    obtain ⟨x, ex, hx⟩ := ex
    obtain ⟨z, ez, hz⟩ := ez
    have hv := cellB_step hf hbig h0 hij hx hy hz
    unfold cellBy at hv
    unfold dtwCellR
    rw [if_neg h0]
    simp only [ey, ex, ez, bind, Except.bind, rd_lift a (show i < a.length by omega), rd_lift b (show j < b.length by omega),
      sqR_fin, mn_fin, fin_add_fin, rnd, wr_ok _ hkl, hmc, fin_lt_fin]
    split_ifs with hlt
    · exact ⟨_, rfl, by simp only; omega, _, rfl, hv.float, hv.nonneg,
        hrow.set hf hbig (by omega) (by rw [← hrow.1]; exact hkl) hv (.inl hlt.le) le_rfl⟩
    · exact ⟨_, rfl, by simp only; omega, _, rfl, hmf, hm0,
        hrow.set hf hbig (by omega) (by rw [← hrow.1]; exact hkl) hv (.inl le_rfl) (_root_.not_lt.1 hlt)⟩

theorem rowR_ok {a b : List K} {m r i : ℕ} (ha : a.length = m) (hb : b.length = m) (hi : i < m) {prev cost : Arr K}
    (hc : cost.length = 2 * r + 1) (hp : 1 ≤ i → RowB fl a b m r (i - 1) m prev none) :
    ∃ s, (List.range' (i - r) (min (m - 1) (i + r) + 1 - (i - r))).foldlM (dtwCellR (rnd fl) (lift a) (lift b) prev r i) ⟨r - i, cost, big⟩ = .ok s ∧
      CellInvB fl a b m r i (min (m - 1) (i + r) + 1) s := by
  obtain ⟨s, e, h⟩ := foldlM_range'_inv (dtwCellR (rnd fl) (lift a) (lift b) prev r i) (CellInvB fl a b m r i) (i - r)
    (min (m - 1) (i + r) + 1 - (i - r)) ⟨r - i, cost, big⟩
    ⟨by simp only; omega, _, rfl, hbig, by positivity, hc, fun j' h1 h2 h3 h4 => by omega⟩
    (fun j s h1 h2 hs => dtwCellR_ok hf hbig ha hb hi (by omega) ⟨by omega, by omega⟩ hp hs)
  refine ⟨s, e, ?_⟩
  have : i - r + (min (m - 1) (i + r) + 1 - (i - r)) = min (m - 1) (i + r) + 1 := by omega
  rwa [this] at h

end

/-- What the array `cb` is used for: what is still to be paid after the row `i`. -/
structure RestB (fl : K → K) (u : K) (a b : List K) (m r : ℕ) (cb : List K) : Prop where
  float : ∀ k, fl (cb.getD k 0) = cb.getD k 0
  nonneg : ∀ k, 0 ≤ cb.getD k 0
  rest : ∀ i, i + r + 1 < m → ∀ p, PathTo (m - 1, m - 1) p → InBand r p →
    ∃ j q S, PathTo (i, j) q ∧ InBand r q ∧ cells (cellBy fl a b) q + S ≤ cells (cellBy fl a b) p ∧ 0 ≤ S ∧ cb.getD (i + r + 1) 0 ≤ (1 + u) ^ m * S

/-- The result of `dtw`: the least cost, if it is below `bsf`. -/
structure AnswerB (fl : K → K) (u : K) (a b : List K) (m r : ℕ) (bsf : K) (v : K) : Prop where
  found : v < bsf → IsLeast (bandedCosts m m r (sqCostBy fl a b)) v
  given : ¬ v < bsf → ∀ p, PathTo (m - 1, m - 1) p → InBand r p → bsf ≤ (1 + u) ^ (3 * m) * cells (cellBy fl a b) p

section
variable (h : FloatOps fl u θ) (hbig : fl (10 ^ 20) = 10 ^ 20)
include h hbig

theorem dtwRowsR_ok {a b cb : List K} {m r : ℕ} (ha : a.length = m) (hb : b.length = m) (hcb : cb.length = m) (hm : 1 ≤ m)
    {bsf : K} (hbsf : bsf ≤ 10 ^ 20) (hr : RestB fl u a b m r cb) (rows : ℕ) : ∀ {i k : ℕ} {cost prev : Arr K}, i + rows = m →
      cost.length = 2 * r + 1 → prev.length = 2 * r + 1 → (1 ≤ i → RowB fl a b m r (i - 1) m prev none) → (i = m → k = r + 1) →
      ∃ v, dtwRowsR (rnd fl) (lift a) (lift b) (lift cb) m r (fin bsf) rows i k cost prev = .ok (fin v) ∧ AnswerB fl u a b m r bsf v := by
  have hu := h.u_nonneg
  induction rows with
  | zero =>
    intro i k cost prev hi hc hpl hp hk
    obtain rfl : i = m := by omega
    obtain rfl := hk rfl
    obtain ⟨v, e, hv, -⟩ := (hp hm).2 (i - 1) (by omega) (by omega) (by omega) (by omega)
    have : i - 1 + r - (i - 1) = r := by omega
    rw [this] at e
    refine ⟨v, ?_, ?_, ?_⟩
    · unfold dtwRowsR
      have : ((r + 1 : ℕ) : Int) - 1 = (r : ℕ) := by push_cast; ring
      rw [this]
      exact rd_some e
    · intro hlt
      rcases hv.reached with ⟨q, hq1, hq2, hq3⟩ | hv2
      · refine ⟨⟨q, alignment_iff.2 hq1, hq2, hq3⟩, ?_⟩
        rintro w ⟨p, hp1, hp2, rfl⟩
        exact hv.le p (alignment_iff.1 hp1) hp2
      · linarith
    · intro hlt p hp1 hp2
      have h1 := hv.le p hp1 hp2
      have h2 := sqCostBy_upper h a b p
      have h3 := pow_add_mono hu (show p.length ≤ 3 * i by have := path_len hm hp1; omega)
      have h4 := mul_le_mul_of_nonneg_right h3 (cells_nonneg (cellBy_nonneg h.toRounding a b) p)
      linarith [_root_.not_lt.1 hlt]
  | succ rows ih =>
    intro i k cost prev hi hc hpl hp hk
    obtain ⟨s, e, hs⟩ := rowR_ok h.toRounding hbig ha hb (show i < m by omega) hc hp
    obtain ⟨hsk, mc, hmc, hmf, hm0, hrow⟩ := hs
    unfold dtwRowsR
    rw [e]
    simp only [bind, Except.bind]
    have next : ∃ v, dtwRowsR (rnd fl) (lift a) (lift b) (lift cb) m r (fin bsf) rows (i + 1) s.k prev s.cost = .ok (fin v) ∧
        AnswerB fl u a b m r bsf v := by
      refine ih (by omega) hpl hrow.1 (fun _ => ?_) (fun h => by omega)
      refine ⟨hrow.1, fun j' h1 h2 h3 h4 => ?_⟩
      have e1 : i + 1 - 1 = i := by omega
      rw [e1] at h3 h4 ⊢
      obtain ⟨v, h5, h6, -⟩ := hrow.2 j' (by omega) h2 h3 h4
      exact ⟨v, h5, h6, by simp⟩
    split_ifs with h1
    · have : ((i : Int) + r + 1) = ((i + r + 1 : ℕ) : Int) := by push_cast; ring
      rw [this, rd_lift cb (by omega)]
      simp only [hmc, fin_add_fin, rnd, fin_le_fin]
      split_ifs with h2
      · refine ⟨_, rfl, fun hlt => absurd hlt (_root_.not_lt.2 h2), fun _ p hp1 hp2 => h2.trans ?_⟩
        obtain ⟨j, q, S, hq1, hq2, hq3, hS0, hS⟩ := hr.rest i (by omega) p hp1 hp2
        have hj := hq2 _ (List.mem_of_getLast? hq1.last)
        simp only at hj
        obtain ⟨v, -, h6, h7⟩ := hrow.2 j (by omega) (by omega) (by omega) (by omega)
        have h8 := h6.le q hq1 hq2
        have h9 := h7 mc (by simp)
        have hql := hq1.length_le
        simp only at hql
        have h10 := sqCostBy_upper h a b q
        have h11 := mul_le_mul_of_nonneg_right (pow_add_mono hu (show q.length ≤ 2 * m by omega)) (cells_nonneg (cellBy_nonneg h.toRounding a b) q)
        have h12 := mul_le_mul_of_nonneg_right (pow_add_mono hu (show m ≤ 2 * m by omega)) hS0
        have h13 := add_upper h hmf (hr.float (i + r + 1)) (add_nonneg hm0 (hr.nonneg _))
        have hP : (0 : K) ≤ (1 + u) ^ (2 * m) := pow_nonneg (by linarith) _
        have h14 : mc + cb.getD (i + r + 1) 0 ≤ (1 + u) ^ (2 * m) * cells (cellBy fl a b) p := by
          have := mul_le_mul_of_nonneg_left hq3 hP
          rw [mul_add] at this
          linarith
        calc _ ≤ _ := h13
          _ ≤ (1 + u) * ((1 + u) ^ (2 * m) * cells (cellBy fl a b) p) := mul_le_mul_of_nonneg_left h14 (by linarith)
          _ = (1 + u) ^ (2 * m + 1) * cells (cellBy fl a b) p := by ring
          _ ≤ _ := mul_le_mul_of_nonneg_right (pow_add_mono hu (by omega)) (cells_nonneg (cellBy_nonneg h.toRounding a b) p)
      · exact next
    · exact next

theorem dtwR_ok {a b cb : List K} {m r : ℕ} (ha : a.length = m) (hb : b.length = m) (hcb : cb.length = m) (hm : 1 ≤ m)
    {bsf : K} (hbsf : bsf ≤ 10 ^ 20) (hr : RestB fl u a b m r cb) :
    ∃ v, dtwR (rnd fl) (lift a) (lift b) (lift cb) m r (fin bsf) = .ok (fin v) ∧ AnswerB fl u a b m r bsf v :=
  dtwRowsR_ok h hbig ha hb hcb hm hbsf hr m (by omega) (by simp) (by simp) (fun h => by omega) (fun h => by omega)

end

end Genex.Ucr
