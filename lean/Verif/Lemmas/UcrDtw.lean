import Verif.Model.Ucr
import Verif.Lemmas.LowerBounds

/-! `dtw` of genex/lib/trillionDTW.cpp. -/

set_option linter.unusedSectionVars false

namespace Genex.Ucr

open Dbl Spec

variable {K : Type} [Field K] [LinearOrder K] [IsStrictOrderedRing K]

/-- An array that holds finite numbers. -/
def lift (a : List K) : Arr K := a.map fun x => some (fin x)

@[simp] theorem lift_length (a : List K) : (lift a).length = a.length := by simp [lift]

theorem rd_lift (a : List K) {i : ℕ} (h : i < a.length) : rd (lift a) (i : Int) = .ok (fin (a.getD i 0)) := by
  simp [rd, lift, List.getD, h]

theorem rd_some {c : Arr K} {k : ℕ} {v : Dbl K} (h : c[k]? = some (some v)) : rd c (k : Int) = .ok v := by
  simp [rd, h]

theorem wr_ok {c : Arr K} {k : ℕ} (v : Dbl K) (h : k < c.length) : wr c (k : Int) v = .ok (c.set k (some v)) := by
  simp [wr, h]

theorem mn_fin (x y : K) : mn (fin x) (fin y) = fin (min x y) := by
  unfold mn
  simp only [fin_lt_fin]
  split_ifs with h
  · rw [min_eq_left h.le]
  · rw [min_eq_right (_root_.not_lt.1 h)]

theorem sq_fin (x y : K) : sq (fin x) (fin y) = fin ((x - y) ^ 2) := by
  unfold sq; rw [fin_sub_fin, fin_mul_fin, pow_two]

theorem big_eq : (big : Dbl K) = fin (10 ^ 20) := rfl

theorem big_pos : (0 : K) < 10 ^ 20 := by positivity

/-- The value of a cell: no more than the cost of any path to it, and the cost of one unless it is huge. -/
def CellV (a b : List K) (r i j : ℕ) (v : K) : Prop :=
  (∀ p, PathTo (i, j) p → InBand r p → v ≤ sqCost a b p) ∧
    ((∃ p, PathTo (i, j) p ∧ InBand r p ∧ sqCost a b p = v) ∨ 10 ^ 20 ≤ v)

/-- The value of a neighbour that may be missing. -/
def Nb (a b : List K) (r i j : ℕ) (ok : Prop) (x : K) : Prop := (ok ∧ CellV a b r i j x) ∨ (¬ ok ∧ x = 10 ^ 20)

theorem InBand.left {r : ℕ} {p q : List (ℕ × ℕ)} (h : InBand r (p ++ q)) : InBand r p := fun c hc => h c (by simp [hc])

theorem inBand_snoc {r : ℕ} {p : List (ℕ × ℕ)} {c : ℕ × ℕ} : InBand r (p ++ [c]) ↔ InBand r p ∧ c.1 ≤ c.2 + r ∧ c.2 ≤ c.1 + r := by
  constructor
  · intro h; exact ⟨InBand.left h, h c (by simp)⟩
  · rintro ⟨h, h'⟩ x hx
    simp at hx
    rcases hx with hx | rfl
    · exact h x hx
    · exact h'

theorem cell_step {a b : List K} {r i j : ℕ} (h0 : ¬ (i = 0 ∧ j = 0)) (hb : i ≤ j + r ∧ j ≤ i + r) {x y z : K}
    (hx : Nb a b r (i - 1) j (1 ≤ i ∧ j ≤ i - 1 + r) x) (hy : Nb a b r i (j - 1) (1 ≤ j ∧ i ≤ j - 1 + r) y)
    (hz : Nb a b r (i - 1) (j - 1) (1 ≤ i ∧ 1 ≤ j) z) :
    CellV a b r i j (min (min x y) z + (a.getD i 0 - b.getD j 0) ^ 2) := by
  have hsq : 0 ≤ (a.getD i 0 - b.getD j 0) ^ 2 := sq_nonneg _
  constructor
  · intro p hp hin
    rcases hp.cases with ⟨e, -⟩ | ⟨q, d, rfl, hq, hs⟩
    · simp only [Prod.mk.injEq] at e; exact absurd e h0
    · rw [sqCost_snoc]
      have hq' := (inBand_snoc.1 hin).1
      have hd := hq' d (List.mem_of_getLast? hq.last)
      obtain ⟨d1, d2⟩ := d
      simp only at hd
      have : min (min x y) z ≤ sqCost a b q := by
        rcases hs with h | h | h <;> simp only [Prod.mk.injEq] at h <;> obtain ⟨rfl, rfl⟩ := h
        · rcases hz with ⟨-, hz⟩ | ⟨hn, -⟩
          · exact (min_le_right _ _).trans (hz.1 q (by simpa using hq) hq')
          · exact absurd ⟨by omega, by omega⟩ hn
        · rcases hx with ⟨-, hx⟩ | ⟨hn, -⟩
          · exact (min_le_left _ _).trans ((min_le_left _ _).trans (hx.1 q (by simpa using hq) hq'))
          · exact absurd ⟨by omega, by omega⟩ hn
        · rcases hy with ⟨-, hy⟩ | ⟨hn, -⟩
          · exact (min_le_left _ _).trans ((min_le_right _ _).trans (hy.1 q (by simpa using hq) hq'))
          · exact absurd ⟨by omega, by omega⟩ hn
      simpa using this
  · have key : ∀ {i' j' : ℕ} {ok : Prop} {w : K}, Nb a b r i' j' ok w → (ok → Step (i', j') (i, j)) →
        (∃ p, PathTo (i, j) p ∧ InBand r p ∧ sqCost a b p = w + (a.getD i 0 - b.getD j 0) ^ 2) ∨
          10 ^ 20 ≤ w + (a.getD i 0 - b.getD j 0) ^ 2 := by
      intro i' j' ok w hw hst
      rcases hw with ⟨ho, -, hw⟩ | ⟨-, rfl⟩
      · rcases hw with ⟨p, hp, hin, rfl⟩ | hw
        · exact .inl ⟨p ++ [(i, j)], hp.snoc (hst ho), inBand_snoc.2 ⟨hin, hb⟩, by rw [sqCost_snoc]⟩
        · right; linarith
      · right; linarith
    have kx := key hx (fun ho => .inr (.inl (Prod.ext (by simp only; omega) rfl)))
    have ky := key hy (fun ho => .inr (.inr (Prod.ext rfl (by simp only; omega))))
    have kz := key hz (fun ho => .inl (by simp only [Prod.mk.injEq]; omega))
    rcases min_choice (min x y) z with e | e <;> rw [e]
    · rcases min_choice x y with e' | e' <;> rw [e'] <;> assumption
    · exact kz

theorem cell_first (a b : List K) (r : ℕ) : CellV a b r 0 0 ((a.getD 0 0 - b.getD 0 0) ^ 2) := by
  constructor
  · intro p hp _
    exact hp.first_le a b
  · exact .inl ⟨_, PathTo.single, by intro c hc; simp at hc; subst hc; simp, by simp [sqCost, diffs]⟩

/-- The array of a row: all cells of the row in the band before the column `j`. -/
def RowV (a b : List K) (m r i j : ℕ) (c : Arr K) (mc : Option K) : Prop :=
  c.length = 2 * r + 1 ∧ ∀ j', j' < j → j' < m → i ≤ j' + r → j' ≤ i + r →
    ∃ v, c[j' + r - i]? = some (some (fin v)) ∧ CellV a b r i j' v ∧ ∀ x ∈ mc, x ≤ v

structure CellInv (a b : List K) (m r i j : ℕ) (s : Row K) : Prop where
  k : s.k + i = j + r
  row : ∃ mc, s.minCost = fin mc ∧ RowV a b m r i j s.cost (some mc)

theorem RowV.set {a b : List K} {m r i j : ℕ} {c : Arr K} {mc mc' v : K} (h : RowV a b m r i j c (some mc)) {k : ℕ}
    (hk : k + i = j + r) (hk' : k < 2 * r + 1) (hv : CellV a b r i j v) (hm : mc' ≤ mc ∨ (i = 0 ∧ j = 0)) (hm' : mc' ≤ v) :
    RowV a b m r i (j + 1) (c.set k (some (fin v))) (some mc') := by
  refine ⟨by simp [h.1], fun j' h1 h2 h3 h4 => ?_⟩
  by_cases e : j' = j
  · subst e
    refine ⟨v, ?_, hv, by simpa using hm'⟩
    have : j' + r - i = k := by omega
    rw [this, List.getElem?_set_self (by rw [h.1]; exact hk')]
  · obtain ⟨w, h5, h6, h7⟩ := h.2 j' (by omega) h2 h3 h4
    refine ⟨w, ?_, h6, ?_⟩
    · rw [List.getElem?_set_ne (by omega)]; exact h5
    · rcases hm with hm | ⟨-, rfl⟩
      · intro x hx; simp at hx; subst hx
        exact hm.trans (h7 mc (by simp))
      · omega

theorem dtwCell_ok {a b : List K} {m r i j : ℕ} (ha : a.length = m) (hb : b.length = m) (hi : i < m) (hj : j < m)
    (hij : i ≤ j + r ∧ j ≤ i + r) {prev : Arr K} (hp : 1 ≤ i → RowV a b m r (i - 1) m prev none) {s : Row K}
    (hs : CellInv a b m r i j s) : ∃ s', dtwCell (lift a) (lift b) prev r i s j = .ok s' ∧ CellInv a b m r i (j + 1) s' := by
  obtain ⟨hk, mc, hmc, hrow⟩ := hs
  have hkl : s.k < s.cost.length := by rw [hrow.1]; omega
  by_cases h0 : i = 0 ∧ j = 0
  · obtain ⟨rfl, rfl⟩ := h0
    unfold dtwCell
    have ea := rd_lift a (i := 0) (by omega)
    have eb := rd_lift b (i := 0) (by omega)
    simp only [Nat.cast_zero] at ea eb
    simp only [and_self, if_true, ea, eb, bind, Except.bind, sq_fin, wr_ok _ hkl]
    refine ⟨_, rfl, by simp only; omega, _, rfl, ?_⟩
    exact hrow.set (by omega) (by rw [← hrow.1]; exact hkl) (cell_first a b r) (.inr ⟨rfl, rfl⟩) le_rfl
  · -- the three neighbours
    have ey : ∃ y, nbr ((j : Int) - 1 < 0 ∨ (s.k : Int) - 1 < 0) s.cost (s.k - 1) = .ok (fin y) ∧
        Nb a b r i (j - 1) (1 ≤ j ∧ i ≤ j - 1 + r) y := by
      by_cases hc : (j : Int) - 1 < 0 ∨ (s.k : Int) - 1 < 0
      · rw [nbr, if_pos hc]
        exact ⟨_, rfl, .inr ⟨by omega, rfl⟩⟩
      · rw [nbr, if_neg hc]
        obtain ⟨v, e, hv, -⟩ := hrow.2 (j - 1) (by omega) (by omega) (by omega) (by omega)
        refine ⟨v, ?_, .inl ⟨by omega, hv⟩⟩
        have : j - 1 + r - i = s.k - 1 := by omega
        rw [this] at e
        have e' := rd_some e
        rw [Nat.cast_sub (by omega)] at e'
        exact e'
    have ex : ∃ x, nbr ((i : Int) - 1 < 0 ∨ 2 * r < s.k + 1) prev (s.k + 1) = .ok (fin x) ∧
        Nb a b r (i - 1) j (1 ≤ i ∧ j ≤ i - 1 + r) x := by
      by_cases hc : (i : Int) - 1 < 0 ∨ 2 * r < s.k + 1
      · rw [nbr, if_pos hc]
        exact ⟨_, rfl, .inr ⟨by omega, rfl⟩⟩
      · rw [nbr, if_neg hc]
        obtain ⟨v, e, hv, -⟩ := (hp (by omega)).2 j (by omega) (by omega) (by omega) (by omega)
        refine ⟨v, ?_, .inl ⟨by omega, hv⟩⟩
        have : j + r - (i - 1) = s.k + 1 := by omega
        rw [this] at e
        exact rd_some e
    have ez : ∃ z, nbr ((i : Int) - 1 < 0 ∨ (j : Int) - 1 < 0) prev s.k = .ok (fin z) ∧
        Nb a b r (i - 1) (j - 1) (1 ≤ i ∧ 1 ≤ j) z := by
      by_cases hc : (i : Int) - 1 < 0 ∨ (j : Int) - 1 < 0
      · rw [nbr, if_pos hc]
        exact ⟨_, rfl, .inr ⟨by omega, rfl⟩⟩
      · rw [nbr, if_neg hc]
        obtain ⟨v, e, hv, -⟩ := (hp (by omega)).2 (j - 1) (by omega) (by omega) (by omega) (by omega)
        refine ⟨v, ?_, .inl ⟨by omega, hv⟩⟩
        have : j - 1 + r - (i - 1) = s.k := by omega
        rw [this] at e
        exact rd_some e
    obtain ⟨y, ey, hy⟩ := ey
    obtain ⟨x, ex, hx⟩ := ex
    obtain ⟨z, ez, hz⟩ := ez
    have hv := cell_step h0 hij hx hy hz
    unfold dtwCell
    rw [if_neg h0]
    simp only [ey, ex, ez, bind, Except.bind, rd_lift a (show i < a.length by omega), rd_lift b (show j < b.length by omega),
      sq_fin, mn_fin, fin_add_fin, wr_ok _ hkl, hmc, fin_lt_fin]
    split_ifs with hlt
    · exact ⟨_, rfl, by simp only; omega, _, rfl, hrow.set (by omega) (by rw [← hrow.1]; exact hkl) hv (.inl hlt.le) le_rfl⟩
    · exact ⟨_, rfl, by simp only; omega, _, rfl,
        hrow.set (by omega) (by rw [← hrow.1]; exact hkl) hv (.inl le_rfl) (_root_.not_lt.1 hlt)⟩

theorem row_ok {a b : List K} {m r i : ℕ} (ha : a.length = m) (hb : b.length = m) (hi : i < m) {prev cost : Arr K}
    (hc : cost.length = 2 * r + 1) (hp : 1 ≤ i → RowV a b m r (i - 1) m prev none) :
    ∃ s, (List.range' (i - r) (min (m - 1) (i + r) + 1 - (i - r))).foldlM (dtwCell (lift a) (lift b) prev r i) ⟨r - i, cost, big⟩ = .ok s ∧
      CellInv a b m r i (min (m - 1) (i + r) + 1) s := by
  obtain ⟨s, e, h⟩ := foldlM_range'_inv (dtwCell (lift a) (lift b) prev r i) (CellInv a b m r i) (i - r)
    (min (m - 1) (i + r) + 1 - (i - r)) ⟨r - i, cost, big⟩
    ⟨by simp only; omega, _, rfl, hc, fun j' h1 h2 h3 h4 => by omega⟩
    (fun j s h1 h2 hs => dtwCell_ok ha hb hi (by omega) ⟨by omega, by omega⟩ hp hs)
  refine ⟨s, e, ?_⟩
  have : i - r + (min (m - 1) (i + r) + 1 - (i - r)) = min (m - 1) (i + r) + 1 := by omega
  rwa [this] at h

/-- What the array `cb` is used for: what is still to be paid after the row `i`. -/
def Rest (a b : List K) (m r : ℕ) (cb : List K) : Prop :=
  ∀ i, i + r + 1 < m → ∀ p, PathTo (m - 1, m - 1) p → InBand r p →
    ∃ j q, PathTo (i, j) q ∧ InBand r q ∧ sqCost a b q + cb.getD (i + r + 1) 0 ≤ sqCost a b p

/-- The result of `dtw`. -/
def Answer (a b : List K) (m r : ℕ) (bsf : K) (v : K) : Prop :=
  ∀ D, IsLeast (bandedCosts m m r (sqCost a b)) D → (v < bsf ∨ D < bsf) → v = D

theorem dtwRows_ok {a b cb : List K} {m r : ℕ} (ha : a.length = m) (hb : b.length = m) (hcb : cb.length = m) (hm : 1 ≤ m)
    {bsf : K} (hbig : bsf ≤ 10 ^ 20) (hr : Rest a b m r cb) (rows : ℕ) : ∀ {i k : ℕ} {cost prev : Arr K}, i + rows = m →
      cost.length = 2 * r + 1 → prev.length = 2 * r + 1 → (1 ≤ i → RowV a b m r (i - 1) m prev none) → (i = m → k = r + 1) →
      ∃ v, dtwRows (lift a) (lift b) (lift cb) m r (fin bsf) rows i k cost prev = .ok (fin v) ∧ Answer a b m r bsf v := by
  induction rows with
  | zero =>
    intro i k cost prev hi hc hpl hp hk
    obtain rfl : i = m := by omega
    obtain rfl := hk rfl
    obtain ⟨v, e, hv, -⟩ := (hp hm).2 (i - 1) (by omega) (by omega) (by omega) (by omega)
    have : i - 1 + r - (i - 1) = r := by omega
    rw [this] at e
    refine ⟨v, ?_, ?_⟩
    · unfold dtwRows
      have : ((r + 1 : ℕ) : Int) - 1 = (r : ℕ) := by push_cast; ring
      rw [this]
      exact rd_some e
    · intro D hD hlt
      obtain ⟨⟨p, hp1, hp2, rfl⟩, hD2⟩ := hD
      have h1 := hv.1 p (alignment_iff.1 hp1) hp2
      rcases hv.2 with ⟨q, hq1, hq2, rfl⟩ | hv2
      · exact _root_.le_antisymm h1 (hD2 ⟨q, alignment_iff.2 hq1, hq2, rfl⟩)
      · rcases hlt with h | h <;> linarith
  | succ rows ih =>
    intro i k cost prev hi hc hpl hp hk
    obtain ⟨s, e, hs⟩ := row_ok ha hb (show i < m by omega) hc hp
    obtain ⟨hsk, mc, hmc, hrow⟩ := hs
    unfold dtwRows
    rw [e]
    simp only [bind, Except.bind]
    have next : ∃ v, dtwRows (lift a) (lift b) (lift cb) m r (fin bsf) rows (i + 1) s.k prev s.cost = .ok (fin v) ∧ Answer a b m r bsf v := by
      refine ih (by omega) hpl hrow.1 (fun _ => ?_) (fun h => by omega)
      refine ⟨hrow.1, fun j' h1 h2 h3 h4 => ?_⟩
      have e1 : i + 1 - 1 = i := by omega
      rw [e1] at h3 h4 ⊢
      obtain ⟨v, h5, h6, -⟩ := hrow.2 j' (by omega) h2 h3 h4
      exact ⟨v, h5, h6, by simp⟩
    split_ifs with h1
    · have : ((i : Int) + r + 1) = ((i + r + 1 : ℕ) : Int) := by push_cast; ring
      rw [this, rd_lift cb (by omega)]
      simp only [hmc, fin_add_fin, fin_le_fin]
      split_ifs with h2
      · refine ⟨_, rfl, ?_⟩
        intro D hD hlt
        obtain ⟨⟨p, hp1, hp2, rfl⟩, hD2⟩ := hD
        obtain ⟨j, q, hq1, hq2, hq3⟩ := hr i (by omega) p (alignment_iff.1 hp1) hp2
        have hj := hq2 _ (List.mem_of_getLast? hq1.last)
        simp only at hj
        obtain ⟨v, -, h6, h7⟩ := hrow.2 j (by omega) (by omega) (by omega) (by omega)
        have h8 := h6.1 q hq1 hq2
        have h9 := h7 mc (by simp)
        rcases hlt with h | h <;> linarith
      · exact next
    · exact next

theorem dtw_ok {a b cb : List K} {m r : ℕ} (ha : a.length = m) (hb : b.length = m) (hcb : cb.length = m) (hm : 1 ≤ m)
    {bsf : K} (hbig : bsf ≤ 10 ^ 20) (hr : Rest a b m r cb) :
    ∃ v, dtw (lift a) (lift b) (lift cb) m r (fin bsf) = .ok (fin v) ∧ Answer a b m r bsf v :=
  dtwRows_ok ha hb hcb hm hbig hr m (by omega) (by simp) (by simp) (fun h => by omega) (fun h => by omega)

/-- Costs of a path along rows, columns or anything that grows by at most one. -/
theorem PathTo.potential {c : ℕ × ℕ} {p : List (ℕ × ℕ)} (h : PathTo c p) (a b : List K) (φ : ℕ × ℕ → K)
    (h0 : φ (0, 0) ≤ (a.getD 0 0 - b.getD 0 0) ^ 2)
    (hs : ∀ c d, Step c d → d ∈ p → φ d ≤ φ c + (a.getD d.1 0 - b.getD d.2 0) ^ 2) : φ c ≤ sqCost a b p := by
  induction h using PathTo.rec' with
  | base => simpa [sqCost, diffs] using h0
  | step c d p hp hst ih =>
    rw [sqCost_snoc]
    have := ih (fun c d h hd => hs c d h (by simp [hd]))
    have := hs c d hst (by simp)
    linarith

/-- The part of a path after its first cell in a row. -/
theorem PathTo.split {c : ℕ × ℕ} {p : List (ℕ × ℕ)} (h : PathTo c p) (a b : List K) {r : ℕ} (hb : InBand r p) (φ : ℕ × ℕ → K)
    (i : ℕ) (hi : i ≤ c.1) (h0 : ∀ j, j ≤ i + r → φ (i, j) = 0)
    (hs : ∀ c d, Step c d → d ∈ p → i ≤ c.1 → φ d ≤ φ c + (a.getD d.1 0 - b.getD d.2 0) ^ 2) :
    ∃ j q, PathTo (i, j) q ∧ InBand r q ∧ sqCost a b q + φ c ≤ sqCost a b p := by
  induction h using PathTo.rec' with
  | base =>
    obtain rfl : i = 0 := by simpa using hi
    exact ⟨0, _, PathTo.single, hb, by rw [h0 0 (by omega)]; simp⟩
  | step c d p hp hst ih =>
    have hb' := inBand_snoc.1 hb
    by_cases hc : i ≤ c.1
    · obtain ⟨j, q, h1, h2, h3⟩ := ih hb'.1 hc (fun c d h hd => hs c d h (by simp [hd]))
      refine ⟨j, q, h1, h2, ?_⟩
      rw [sqCost_snoc]
      have := hs c d hst (by simp) hc
      linarith
    · have : d.1 = i := by rcases hst with h | h | h <;> rw [h] at hi ⊢ <;> simp only at hi ⊢ <;> omega
      obtain ⟨d1, d2⟩ := d
      simp only at this
      subst this
      refine ⟨d2, _, hp.snoc hst, hb, ?_⟩
      rw [h0 d2 hb'.2.2]; simp

end Genex.Ucr
