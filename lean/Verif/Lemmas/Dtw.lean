import Verif.Model.Distance
import Verif.Lemmas.Dbl
import Verif.Spec.Align

/-!
# The matrix of `warpedDistance`

Every in-band cell of the filled matrix is the reduction of its best in-band predecessor (`CellOK`).
-/

set_option linter.unusedSectionVars false

namespace Genex

open Dbl Spec

/-- Invariant rule for a monadic fold over a range of naturals. -/
theorem foldlM_range'_inv {ε σ : Type} (f : σ → ℕ → Except ε σ) (P : ℕ → σ → Prop) (lo cnt : ℕ) (s0 : σ)
    (h0 : P lo s0)
    (step : ∀ i s, lo ≤ i → i < lo + cnt → P i s → ∃ s', f s i = .ok s' ∧ P (i + 1) s') :
    ∃ s, (List.range' lo cnt).foldlM f s0 = .ok s ∧ P (lo + cnt) s := by
  induction cnt generalizing lo s0 with
  | zero => exact ⟨s0, rfl, by simpa using h0⟩
  | succ k ih =>
    obtain ⟨s', hs', hP⟩ := step lo s0 (le_refl _) (by omega) h0
    obtain ⟨s, hs, hP'⟩ := ih (lo + 1) s' hP (fun i s h1 h2 h3 => step i s (by omega) (by omega) h3)
    refine ⟨s, ?_, by rw [show lo + (k + 1) = lo + 1 + k by omega]; exact hP'⟩
    rw [List.range'_succ, List.foldlM_cons, hs']
    exact hs

theorem filter_range_interval (n lo hi : ℕ) :
    (List.range n).filter (fun j => decide (lo ≤ j ∧ j < hi)) = List.range' lo (min hi n - lo) := by
  induction n with
  | zero => simp
  | succ n ih =>
    rw [List.range_succ, List.filter_append, ih]
    by_cases h : lo ≤ n ∧ n < hi
    · have h1 : min hi (n + 1) - lo = (min hi n - lo) + 1 := by omega
      rw [h1, List.range'_concat]
      simp [h]; omega
    · have h1 : min hi (n + 1) - lo = min hi n - lo := by omega
      rw [h1]
      simp [h]

theorem rowRange_eq (r n i : ℕ) :
    rowRange (r : Int) n i = List.range' (i - r) (min (i + r + 1) n - (i - r)) := by
  rw [← filter_range_interval]
  unfold rowRange
  apply List.filter_congr
  intro j _
  simp only [decide_eq_decide]
  omega

variable {K : Type} [Field K] [LinearOrder K]

/-- Laws under which the matrix is filled safely: the normalised accumulator stays finite on data in `dom`. -/
structure Safe (M : DM K) (m n : ℕ) where
  dom : K → K → Prop
  ok : M.S → Prop
  val : M.S → K
  ok_first : ∀ x y : K, dom x y → ok (M.reduce M.init (fin x) (fin y))
  ok_step : ∀ (s : M.S) (x y : K), dom x y → ok s → ok (M.reduce s (fin x) (fin y))
  norm_val : ∀ s, ok s → M.normDTW s m n = fin (val s)

/-- Laws under which early abandoning is exact: the normalised accumulator is finite and never decreases on any finite
data.  These hold for floating point arithmetic with any monotone rounding as well. -/
structure Grow (M : DM K) (m n : ℕ) extends Safe M m n where
  all : ∀ x y, dom x y
  infl : ∀ (s : M.S) (x y : K), ok s → val s ≤ val (M.reduce s (fin x) (fin y))

/-- The data lie in the domain of the laws. -/
def InDom {M : DM K} (a b : List K) (L : Safe M a.length b.length) : Prop :=
  ∀ i j, i < a.length → j < b.length → L.dom (a.getD i 0) (b.getD j 0)

/-- Additional law for optimality: a better accumulator stays better. -/
structure Mono (M : DM K) (m n : ℕ) extends Grow M m n where
  mono : ∀ (s t : M.S) (x y : K), ok s → ok t → val s ≤ val t →
    val (M.reduce s (fin x) (fin y)) ≤ val (M.reduce t (fin x) (fin y))

/-- The cell is inside the band. -/
def inB (r i j : ℕ) : Prop := i ≤ j + r ∧ j ≤ i + r

/-- Cells that an alignment may use: the band, and twice the band if one series has a single point (the loops for the
first row and column run to `2r`). -/
def Allowed (m n r i j : ℕ) : Prop :=
  inB r i j ∨ (m = 1 ∧ i = 0 ∧ j ≤ 2 * r) ∨ (n = 1 ∧ j = 0 ∧ i ≤ 2 * r)

section matrix
variable {M : DM K} (a b : List K) (r : ℕ) (L : Safe M a.length b.length)

theorem at'_map (i : ℕ) (h : i < a.length) : at' (a.map fin) i = fin (a.getD i 0) := by
  simp [at', List.getD, h]

/-- The cell holds an admissible accumulator and its normalised value. -/
def CellFull (mt : Mat M) (i j : ℕ) : Prop :=
  ∃ s, mt.cost i j = some s ∧ L.ok s ∧ mt.ncost i j = fin (L.val s)

/-- The cell holds the reduction of a best allowed predecessor. -/
def CellOK (mt : Mat M) (i j : ℕ) : Prop :=
  ∃ s, mt.cost i j = some s ∧ L.ok s ∧ mt.ncost i j = fin (L.val s) ∧
    ((i = 0 ∧ j = 0 ∧ s = M.reduce M.init (fin (a.getD 0 0)) (fin (b.getD 0 0))) ∨
     ∃ pi pj sp, Step (pi, pj) (i, j) ∧ Allowed a.length b.length r pi pj ∧ mt.cost pi pj = some sp ∧ L.ok sp ∧
       s = M.reduce sp (fin (a.getD i 0)) (fin (b.getD j 0)) ∧
       ∀ qi qj, Step (qi, qj) (i, j) → Allowed a.length b.length r qi qj →
         ∃ sq, mt.cost qi qj = some sq ∧ L.val sp ≤ L.val sq)

variable {a b r L}

theorem CellOK.congr {mt mt' : Mat M} {i j : ℕ} (h : CellOK a b r L mt i j)
    (hc : mt'.cost i j = mt.cost i j) (hn : mt'.ncost i j = mt.ncost i j)
    (hp : ∀ qi qj, Step (qi, qj) (i, j) → mt'.cost qi qj = mt.cost qi qj) : CellOK a b r L mt' i j := by
  obtain ⟨s, h1, h2, h3, h4⟩ := h
  refine ⟨s, hc ▸ h1, h2, hn ▸ h3, ?_⟩
  rcases h4 with h4 | ⟨pi, pj, sp, g1, g2, g3, g4, g5, g6⟩
  · exact Or.inl h4
  · refine Or.inr ⟨pi, pj, sp, g1, g2, by rw [hp _ _ g1]; exact g3, g4, g5, fun qi qj k1 k2 => ?_⟩
    rw [hp _ _ k1]; exact g6 qi qj k1 k2

theorem CellOK.full {mt : Mat M} {i j : ℕ} (h : CellOK a b r L mt i j) : CellFull a b L mt i j := by
  obtain ⟨s, h1, h2, h3, -⟩ := h; exact ⟨s, h1, h2, h3⟩

/-- What `Mat.fill` does on finite data. -/
theorem fill_ok (mt : Mat M) {i j : ℕ} (hi : i < a.length) (hj : j < b.length) (p : M.S)
    (s : M.S) (hs : s = M.reduce p (fin (a.getD i 0)) (fin (b.getD j 0))) (hok : L.ok s) :
    ∃ mt', Mat.fill (a.map fin) (b.map fin) mt i j (some p) = .ok mt' ∧
      mt'.cost i j = some s ∧ mt'.ncost i j = fin (L.val s) ∧
      (∀ i' j', ¬ (i' = i ∧ j' = j) → mt'.cost i' j' = mt.cost i' j' ∧ mt'.ncost i' j' = mt.ncost i' j') := by
  refine ⟨_, rfl, ?_, ?_, ?_⟩
  · simp only [at'_map a i hi, at'_map b j hj, and_self, if_true, hs]
  · simp only [at'_map a i hi, at'_map b j hj, and_self, if_true, List.length_map, ← hs]
    exact L.norm_val s hok
  · intro i' j' h
    simp [h]

theorem step_iff {qi qj i j : ℕ} : Step (qi, qj) (i, j) ↔
    (i = qi + 1 ∧ j = qj + 1) ∨ (i = qi + 1 ∧ j = qj) ∨ (i = qi ∧ j = qj + 1) := by
  simp [Step, Prod.ext_iff]

/-- The state after the initial cell, first column and first row have been filled. -/
structure Base (a b : List K) (r : ℕ) (L : Safe M a.length b.length) (mt : Mat M) : Prop where
  nonan : ∀ i j, mt.ncost i j ≠ nan
  col : ∀ i, i < a.length → Allowed a.length b.length r i 0 → CellOK a b r L mt i 0
  row : ∀ j, j < b.length → Allowed a.length b.length r 0 j → CellOK a b r L mt 0 j
  corner : ¬ Allowed a.length b.length r (a.length - 1) (b.length - 1) →
    mt.ncost (a.length - 1) (b.length - 1) = inf

theorem base_exists (hD : InDom a b L) (hm : 1 ≤ a.length) (hn : 1 ≤ b.length) (hmn : ¬ (a.length = 1 ∧ b.length = 1)) :
    ∃ mt0 mt1 mt2 : Mat M, matInit M (a.map fin) (b.map fin) = .ok mt0 ∧
      firstCol (a.map fin) (b.map fin) (r : Int) mt0 = .ok mt1 ∧
      firstRow (a.map fin) (b.map fin) (r : Int) mt1 = .ok mt2 ∧ Base a b r L mt2 := by
  -- first cell
  obtain ⟨mt0, h0, h0c, h0n, h0o⟩ := fill_ok (L := L)
    { cost := fun _ _ => M.unset
      ncost := fun i j => if i = (a.map Dbl.fin).length - 1 ∧ j = (b.map Dbl.fin).length - 1 then .inf else 0 }
    (i := 0) (j := 0) hm hn M.init _ rfl (L.ok_first _ _ (hD _ _ hm hn))
  -- first column
  let P1 : ℕ → Mat M → Prop := fun k mt =>
    (∀ i j, mt.ncost i j ≠ nan) ∧
    (∀ i, i < k → i < a.length → CellFull a b L mt i 0 ∧
      (Allowed a.length b.length r i 0 → CellOK a b r L mt i 0)) ∧
    (¬ Allowed a.length b.length r (a.length - 1) (b.length - 1) →
      mt.ncost (a.length - 1) (b.length - 1) = inf)
  have e0 : CellOK a b r L mt0 0 0 := ⟨_, h0c, L.ok_first _ _ (hD _ _ hm hn), h0n, Or.inl ⟨rfl, rfl, rfl⟩⟩
  have b0 : P1 1 mt0 := by
    refine ⟨?_, ?_, ?_⟩
    · intro i j
      by_cases h : i = 0 ∧ j = 0
      · rw [h.1, h.2, h0n]; simp
      · rw [(h0o i j h).2]; dsimp only; split
        · simp
        · rw [zero_def]; simp
    · intro i hi _
      have : i = 0 := by omega
      subst this; exact ⟨e0.full, fun _ => e0⟩
    · intro _
      rw [(h0o _ _ (by omega)).2]; simp
  obtain ⟨mt1, h1, h1n, h1c, h1k⟩ := foldlM_range'_inv
    (fun (mt : Mat M) i => mt.fill (a.map fin) (b.map fin) i 0 (mt.cost (i - 1) 0)) P1 1
    ((min (2 * (r : Int) + 1) (a.map Dbl.fin).length).toNat - 1) mt0 b0 (by
      rintro i mt hi hi' ⟨p1, p2, p3⟩
      have hia : i < a.length ∧ i ≤ 2 * r := by simp at hi'; omega
      obtain ⟨s, g1, g2, g3⟩ := (p2 (i - 1) (by omega) (by omega)).1
      obtain ⟨mt', k1, k2, k3, k4⟩ := fill_ok (L := L) mt (i := i) (j := 0) hia.1 hn s _ rfl (L.ok_step s _ _ (hD _ _ hia.1 hn) g2)
      rw [g1]
      refine ⟨mt', k1, ?_, ?_, ?_⟩
      · intro i' j'
        by_cases h : i' = i ∧ j' = 0
        · rw [h.1, h.2, k3]; simp
        · rw [(k4 _ _ h).2]; exact p1 _ _
      · intro i' hi'' hia'
        by_cases h : i' = i
        · subst h
          refine ⟨⟨_, k2, L.ok_step s _ _ (hD _ _ hia.1 hn) g2, k3⟩, fun hal => ?_⟩
          refine ⟨_, k2, L.ok_step s _ _ (hD _ _ hia.1 hn) g2, k3, Or.inr ⟨i' - 1, 0, s, ?_, ?_, ?_, g2, rfl, ?_⟩⟩
          · rw [step_iff]; omega
          · unfold Allowed inB at *; omega
          · rw [(k4 _ _ (by omega)).1]; exact g1
          · intro qi qj q1 _
            rw [step_iff] at q1
            have : qi = i' - 1 ∧ qj = 0 := by omega
            rw [this.1, this.2, (k4 _ _ (by omega)).1]
            exact ⟨s, g1, le_refl _⟩
        · obtain ⟨⟨s', f1, f2, f3⟩, f4⟩ := p2 i' (by omega) hia'
          refine ⟨⟨s', by rw [(k4 _ _ (by omega)).1]; exact f1, f2, by rw [(k4 _ _ (by omega)).2]; exact f3⟩, ?_⟩
          intro hal
          refine (f4 hal).congr (k4 _ _ (by omega)).1 (k4 _ _ (by omega)).2 ?_
          intro qi qj q
          rw [step_iff] at q
          exact (k4 _ _ (by omega)).1
      · intro h2
        rw [(k4 _ _ (by unfold Allowed inB at *; omega)).2]; exact p3 h2)
  -- first row
  let P2 : ℕ → Mat M → Prop := fun k mt =>
    (∀ i j, mt.ncost i j ≠ nan) ∧
    (∀ i, i < a.length → Allowed a.length b.length r i 0 → CellOK a b r L mt i 0) ∧
    (∀ j, j < k → j < b.length → CellFull a b L mt 0 j ∧
      (Allowed a.length b.length r 0 j → CellOK a b r L mt 0 j)) ∧
    (¬ Allowed a.length b.length r (a.length - 1) (b.length - 1) →
      mt.ncost (a.length - 1) (b.length - 1) = inf)
  have b1 : P2 1 mt1 := by
    refine ⟨h1n, ?_, ?_, h1k⟩
    · intro i hi hal
      exact (h1c i (by simp; unfold Allowed inB at hal; omega) hi).2 hal
    · intro j hj _
      have : j = 0 := by omega
      subst this
      exact h1c 0 (by omega) hm
  obtain ⟨mt2, h2, h2n, h2c, h2r, h2k⟩ := foldlM_range'_inv
    (fun (mt : Mat M) j => mt.fill (a.map fin) (b.map fin) 0 j (mt.cost 0 (j - 1))) P2 1
    ((min (2 * (r : Int) + 1) (b.map Dbl.fin).length).toNat - 1) mt1 b1 (by
      rintro j mt hj hj' ⟨p1, p0, p2, p3⟩
      have hjb : j < b.length ∧ j ≤ 2 * r := by simp at hj'; omega
      obtain ⟨s, g1, g2, g3⟩ := (p2 (j - 1) (by omega) (by omega)).1
      obtain ⟨mt', k1, k2, k3, k4⟩ := fill_ok (L := L) mt (i := 0) (j := j) hm hjb.1 s _ rfl (L.ok_step s _ _ (hD _ _ hm hjb.1) g2)
      rw [g1]
      refine ⟨mt', k1, ?_, ?_, ?_, ?_⟩
      · intro i' j'
        by_cases h : i' = 0 ∧ j' = j
        · rw [h.1, h.2, k3]; simp
        · rw [(k4 _ _ h).2]; exact p1 _ _
      · intro i' hi' hal
        refine (p0 i' hi' hal).congr (k4 _ _ (by omega)).1 (k4 _ _ (by omega)).2 ?_
        intro qi qj q
        rw [step_iff] at q
        exact (k4 _ _ (by omega)).1
      · intro j' hj'' hjb'
        by_cases h : j' = j
        · subst h
          refine ⟨⟨_, k2, L.ok_step s _ _ (hD _ _ hm hjb.1) g2, k3⟩, fun hal => ?_⟩
          refine ⟨_, k2, L.ok_step s _ _ (hD _ _ hm hjb.1) g2, k3, Or.inr ⟨0, j' - 1, s, ?_, ?_, ?_, g2, rfl, ?_⟩⟩
          · rw [step_iff]; omega
          · unfold Allowed inB at *; omega
          · rw [(k4 _ _ (by omega)).1]; exact g1
          · intro qi qj q1 _
            rw [step_iff] at q1
            have : qj = j' - 1 ∧ qi = 0 := by omega
            rw [this.1, this.2, (k4 _ _ (by omega)).1]
            exact ⟨s, g1, le_refl _⟩
        · obtain ⟨⟨s', f1, f2, f3⟩, f4⟩ := p2 j' (by omega) hjb'
          refine ⟨⟨s', by rw [(k4 _ _ (by omega)).1]; exact f1, f2, by rw [(k4 _ _ (by omega)).2]; exact f3⟩, ?_⟩
          intro hal
          refine (f4 hal).congr (k4 _ _ (by omega)).1 (k4 _ _ (by omega)).2 ?_
          intro qi qj q
          rw [step_iff] at q
          exact (k4 _ _ (by omega)).1
      · intro h2
        rw [(k4 _ _ (by unfold Allowed inB at *; omega)).2]; exact p3 h2)
  refine ⟨mt0, mt1, mt2, h0, h1, h2, h2n, h2c, ?_, h2k⟩
  intro j hj hal
  exact (h2r j (by simp; unfold Allowed inB at hal; omega) hj).2 hal

/-- Everything up to row `i`, and up to column `j` within row `i`, has been computed. -/
structure Filled (a b : List K) (r : ℕ) (L : Safe M a.length b.length) (i j : ℕ) (mt : Mat M) : Prop where
  nonan : ∀ i j, mt.ncost i j ≠ nan
  cell : ∀ i' j', i' < a.length → j' < b.length → Allowed a.length b.length r i' j' →
    (i' < i ∨ j' = 0 ∨ (i' = i ∧ j' < j)) → CellOK a b r L mt i' j'
  corner : ¬ Allowed a.length b.length r (a.length - 1) (b.length - 1) →
    mt.ncost (a.length - 1) (b.length - 1) = inf

theorem Base.filled {mt : Mat M} (h : Base a b r L mt) : Filled a b r L 1 0 mt := by
  refine ⟨h.nonan, ?_, h.corner⟩
  intro i' j' hi hj hal hc
  by_cases h0 : j' = 0
  · subst h0; exact h.col _ hi hal
  · have : i' = 0 := by omega
    subst this; exact h.row _ hj hal

/-- One inner iteration for `j ≥ 1`. -/
theorem cellStep_ok (hD : InDom a b L) {mt : Mat M} {best : Dbl K} {i j : ℕ} (hi : 1 ≤ i) (him : i < a.length) (hj : 1 ≤ j)
    (hjn : j < b.length) (hb : inB r i j) (h : Filled a b r L i j mt) :
    ∃ mt', cellStep (a.map fin) (b.map fin) (r : Int) i (mt, best) j = .ok (mt', stdMin best (mt'.ncost i j)) ∧
      Filled a b r L i (j + 1) mt' ∧
      (∀ i' j', ¬ (i' = i ∧ j' = j) → mt'.cost i' j' = mt.cost i' j' ∧ mt'.ncost i' j' = mt.ncost i' j') := by
  have key : ∃ pi pj sp, Step (pi, pj) (i, j) ∧ Allowed a.length b.length r pi pj ∧ mt.cost pi pj = some sp ∧
      L.ok sp ∧ (∀ qi qj, Step (qi, qj) (i, j) → Allowed a.length b.length r qi qj →
         ∃ sq, mt.cost qi qj = some sq ∧ L.val sp ≤ L.val sq) ∧
      cellStep (a.map fin) (b.map fin) (r : Int) i (mt, best) j =
        (match mt.fill (a.map fin) (b.map fin) i j (some sp) with
          | .error e => .error e
          | .ok mt' => .ok (mt', stdMin best (mt'.ncost i j))) := by
    have al_iff : ∀ qi qj, Step (qi, qj) (i, j) → (Allowed a.length b.length r qi qj ↔ inB r qi qj) := by
      intro qi qj q; rw [step_iff] at q; unfold Allowed inB; omega
    have full : ∀ qi qj, Step (qi, qj) (i, j) → inB r qi qj → CellFull a b L mt qi qj := by
      intro qi qj q hq
      have := (al_iff qi qj q).2 hq
      rw [step_iff] at q
      exact (h.cell qi qj (by omega) (by omega) this (by omega)).full
    have sd : Step (i - 1, j - 1) (i, j) := by rw [step_iff]; omega
    have sl : Step (i, j - 1) (i, j) := by rw [step_iff]; omega
    have su : Step (i - 1, j) (i, j) := by rw [step_iff]; omega
    have bd : inB r (i - 1) (j - 1) := by unfold inB at *; omega
    have cl : ((i : Int) - r ≤ (j : Int) - 1 ∧ (j : Int) - 1 ≤ i + r) ↔ inB r i (j - 1) := by
      unfold inB; omega
    have cu : ((j : Int) - r ≤ (i : Int) - 1 ∧ (i : Int) - 1 ≤ j + r) ↔ inB r (i - 1) j := by
      unfold inB; omega
    have split3 : ∀ qi qj, Step (qi, qj) (i, j) →
        (qi = i - 1 ∧ qj = j - 1) ∨ (qi = i - 1 ∧ qj = j) ∨ (qi = i ∧ qj = j - 1) := by
      intro qi qj q; rw [step_iff] at q; omega
    obtain ⟨s1, d1, d2, d3⟩ := full _ _ sd bd
    have hj0 : j ≠ 0 := by omega
    by_cases bl : inB r i (j - 1)
    · obtain ⟨s2, l1, l2, l3⟩ := full _ _ sl bl
      by_cases bu : inB r (i - 1) j
      · obtain ⟨s3, u1, u2, u3⟩ := full _ _ su bu
        -- all three
        by_cases c1 : L.val s1 < L.val s2 ∧ L.val s1 < L.val s3
        · refine ⟨_, _, s1, sd, (al_iff _ _ sd).2 bd, d1, d2, ?_, ?_⟩
          · intro qi qj q hq
            rcases split3 qi qj q with ⟨rfl, rfl⟩ | ⟨rfl, rfl⟩ | ⟨rfl, rfl⟩
            · exact ⟨s1, d1, le_refl _⟩
            · exact ⟨s3, u1, le_of_lt c1.2⟩
            · exact ⟨s2, l1, le_of_lt c1.1⟩
          · simp only [cellStep, if_neg hj0, if_pos (cl.2 bl), if_pos (cu.2 bu), d3, l3, u3, fin_lt_fin, if_pos c1, d1]
            rfl
        · by_cases c2 : L.val s2 < L.val s3
          · refine ⟨_, _, s2, sl, (al_iff _ _ sl).2 bl, l1, l2, ?_, ?_⟩
            · intro qi qj q hq
              rcases split3 qi qj q with ⟨rfl, rfl⟩ | ⟨rfl, rfl⟩ | ⟨rfl, rfl⟩
              · refine ⟨s1, d1, ?_⟩
                by_contra hc
                rw [_root_.not_le] at hc
                exact c1 ⟨hc, _root_.lt_trans hc c2⟩
              · exact ⟨s3, u1, le_of_lt c2⟩
              · exact ⟨s2, l1, le_refl _⟩
            · simp only [cellStep, if_neg hj0, if_pos (cl.2 bl), if_pos (cu.2 bu), d3, l3, u3, fin_lt_fin, if_neg c1,
                if_pos c2, l1]
              rfl
          · refine ⟨_, _, s3, su, (al_iff _ _ su).2 bu, u1, u2, ?_, ?_⟩
            · rw [_root_.not_lt] at c2
              intro qi qj q hq
              rcases split3 qi qj q with ⟨rfl, rfl⟩ | ⟨rfl, rfl⟩ | ⟨rfl, rfl⟩
              · refine ⟨s1, d1, ?_⟩
                by_contra hc
                rw [_root_.not_le] at hc
                exact c1 ⟨lt_of_lt_of_le hc c2, hc⟩
              · exact ⟨s3, u1, le_refl _⟩
              · exact ⟨s2, l1, c2⟩
            · simp only [cellStep, if_neg hj0, if_pos (cl.2 bl), if_pos (cu.2 bu), d3, l3, u3, fin_lt_fin, if_neg c1,
                if_neg c2, u1]
              rfl
      · -- diagonal and left
        by_cases c1 : L.val s1 < L.val s2
        · refine ⟨_, _, s1, sd, (al_iff _ _ sd).2 bd, d1, d2, ?_, ?_⟩
          · intro qi qj q hq
            rw [al_iff _ _ q] at hq
            rcases split3 qi qj q with ⟨rfl, rfl⟩ | ⟨rfl, rfl⟩ | ⟨rfl, rfl⟩
            · exact ⟨s1, d1, le_refl _⟩
            · exact absurd hq bu
            · exact ⟨s2, l1, le_of_lt c1⟩
          · simp only [cellStep, if_neg hj0, if_pos (cl.2 bl), if_neg (fun h => bu (cu.1 h)), d3, l3, fin_lt_fin,
              fin_lt_inf, and_true, if_pos c1, d1]
            rfl
        · refine ⟨_, _, s2, sl, (al_iff _ _ sl).2 bl, l1, l2, ?_, ?_⟩
          · rw [_root_.not_lt] at c1
            intro qi qj q hq
            rw [al_iff _ _ q] at hq
            rcases split3 qi qj q with ⟨rfl, rfl⟩ | ⟨rfl, rfl⟩ | ⟨rfl, rfl⟩
            · exact ⟨s1, d1, c1⟩
            · exact absurd hq bu
            · exact ⟨s2, l1, le_refl _⟩
          · simp only [cellStep, if_neg hj0, if_pos (cl.2 bl), if_neg (fun h => bu (cu.1 h)), d3, l3, fin_lt_fin,
              fin_lt_inf, and_true, if_neg c1, if_true, l1]
            rfl
    · by_cases bu : inB r (i - 1) j
      · obtain ⟨s3, u1, u2, u3⟩ := full _ _ su bu
        by_cases c1 : L.val s1 < L.val s3
        · refine ⟨_, _, s1, sd, (al_iff _ _ sd).2 bd, d1, d2, ?_, ?_⟩
          · intro qi qj q hq
            rw [al_iff _ _ q] at hq
            rcases split3 qi qj q with ⟨rfl, rfl⟩ | ⟨rfl, rfl⟩ | ⟨rfl, rfl⟩
            · exact ⟨s1, d1, le_refl _⟩
            · exact ⟨s3, u1, le_of_lt c1⟩
            · exact absurd hq bl
          · simp only [cellStep, if_neg hj0, if_neg (fun h => bl (cl.1 h)), if_pos (cu.2 bu), d3, u3, fin_lt_fin,
              fin_lt_inf, true_and, if_pos c1, d1]
            rfl
        · refine ⟨_, _, s3, su, (al_iff _ _ su).2 bu, u1, u2, ?_, ?_⟩
          · rw [_root_.not_lt] at c1
            intro qi qj q hq
            rw [al_iff _ _ q] at hq
            rcases split3 qi qj q with ⟨rfl, rfl⟩ | ⟨rfl, rfl⟩ | ⟨rfl, rfl⟩
            · exact ⟨s1, d1, c1⟩
            · exact ⟨s3, u1, le_refl _⟩
            · exact absurd hq bl
          · simp only [cellStep, if_neg hj0, if_neg (fun h => bl (cl.1 h)), if_pos (cu.2 bu), d3, u3, fin_lt_fin,
              fin_lt_inf, true_and, if_neg c1, inf_lt, if_false, u1]
            rfl
      · refine ⟨_, _, s1, sd, (al_iff _ _ sd).2 bd, d1, d2, ?_, ?_⟩
        · intro qi qj q hq
          rw [al_iff _ _ q] at hq
          rcases split3 qi qj q with ⟨rfl, rfl⟩ | ⟨rfl, rfl⟩ | ⟨rfl, rfl⟩
          · exact ⟨s1, d1, le_refl _⟩
          · exact absurd hq bu
          · exact absurd hq bl
        · simp only [cellStep, if_neg hj0, if_neg (fun h => bl (cl.1 h)), if_neg (fun h => bu (cu.1 h)), d3,
            fin_lt_inf, and_self, if_true, d1]
          rfl
  obtain ⟨pi, pj, sp, k1, k2, k3, k4, k5, k6⟩ := key
  obtain ⟨mt', f1, f2, f3, f4⟩ := fill_ok (L := L) mt (i := i) (j := j) him hjn sp _ rfl (L.ok_step sp _ _ (hD _ _ him hjn) k4)
  refine ⟨mt', by rw [k6, f1], ⟨?_, ?_, ?_⟩, f4⟩
  · intro i' j'
    by_cases hc : i' = i ∧ j' = j
    · rw [hc.1, hc.2, f3]; simp
    · rw [(f4 _ _ hc).2]; exact h.nonan _ _
  · intro i' j' hi' hj' hal hc
    by_cases hc' : i' = i ∧ j' = j
    · obtain ⟨rfl, rfl⟩ := hc'
      have hne : ∀ qi qj, Step (qi, qj) (i', j') → mt'.cost qi qj = mt.cost qi qj := by
        intro qi qj q; rw [step_iff] at q; exact (f4 _ _ (by omega)).1
      refine ⟨_, f2, L.ok_step sp _ _ (hD _ _ him hjn) k4, f3, Or.inr ⟨pi, pj, sp, k1, k2, ?_, k4, rfl, ?_⟩⟩
      · rw [hne _ _ k1]; exact k3
      · intro qi qj q hq; rw [hne _ _ q]; exact k5 qi qj q hq
    · refine (h.cell i' j' hi' hj' hal (by omega)).congr (f4 _ _ hc').1 (f4 _ _ hc').2 ?_
      intro qi qj q
      rw [step_iff] at q
      exact (f4 _ _ (by omega)).1
  · intro hc
    rw [(f4 _ _ (by unfold Allowed inB at *; omega)).2]; exact h.corner hc

/-- One row: all its cells are filled, earlier rows are untouched, and `bestSoFar` is a lower bound of the row. -/
theorem rowLoop_ok (hD : InDom a b L) {mt : Mat M} {i : ℕ} (hi : 1 ≤ i) (him : i < a.length) (h : Filled a b r L i 0 mt) :
    ∃ mt' best, rowLoop (a.map fin) (b.map fin) (r : Int) i mt = .ok (mt', best) ∧
      Filled a b r L (i + 1) 0 mt' ∧
      (∀ i' j', i' < i → mt'.cost i' j' = mt.cost i' j' ∧ mt'.ncost i' j' = mt.ncost i' j') ∧
      best ≠ nan ∧
      (∀ j, j < b.length → inB r i j → best ≤ mt'.ncost i j) := by
  let P : ℕ → Mat M × Dbl K → Prop := fun k st =>
    Filled a b r L i k st.1 ∧
    (∀ i' j', i' < i → st.1.cost i' j' = mt.cost i' j' ∧ st.1.ncost i' j' = mt.ncost i' j') ∧
    st.2 ≠ nan ∧ (∀ j, j < k → j < b.length → inB r i j → st.2 ≤ st.1.ncost i j)
  have h0 : P (i - r) (mt, .inf) := by
    refine ⟨⟨h.nonan, ?_, h.corner⟩, fun _ _ _ => ⟨rfl, rfl⟩, by simp, ?_⟩
    · intro i' j' h1 h2 h3 h4
      refine h.cell i' j' h1 h2 h3 ?_
      unfold Allowed inB at h3; omega
    · intro j h1 h2 h3; unfold inB at h3; omega
  obtain ⟨st, e, p1, p2, p3, p4⟩ := foldlM_range'_inv (cellStep (M := M) (a.map fin) (b.map fin) (r : Int) i) P (i - r)
    (min (i + r + 1) b.length - (i - r)) (mt, .inf) h0 (by
      rintro j ⟨mtj, best⟩ hj hj' ⟨q1, q2, q3, q4⟩
      have hb : inB r i j := by unfold inB; omega
      have hjn : j < b.length := by omega
      by_cases hj0 : j = 0
      · subst hj0
        refine ⟨(mtj, stdMin best (mtj.ncost i 0)), by simp [cellStep], ⟨?_, ?_, ?_⟩, q2, ?_, ?_⟩
        · exact q1.nonan
        · intro i' j' h1 h2 h3 h4
          exact q1.cell i' j' h1 h2 h3 (by omega)
        · exact q1.corner
        · exact stdMin_ne_nan q3 (q1.nonan _ _)
        · intro j h1 h2 h3
          have : j = 0 := by omega
          subst this
          exact stdMin_le_right q3 (q1.nonan _ _)
      · obtain ⟨mt', e1, e2, e3⟩ := cellStep_ok hD (best := best) hi him (by omega) hjn hb q1
        refine ⟨_, e1, e2, ?_, ?_, ?_⟩
        · intro i' j' hlt
          rw [(e3 i' j' (by omega)).1, (e3 i' j' (by omega)).2]
          exact q2 i' j' hlt
        · exact stdMin_ne_nan q3 (e2.nonan _ _)
        · intro j' h1 h2 h3
          by_cases hc : j' = j
          · subst hc
            exact stdMin_le_right q3 (e2.nonan _ _)
          · refine Dbl.le_trans (stdMin_le_left q3) ?_
            have h5 := (e3 i j' (by omega)).2
            show best ≤ mt'.ncost i j'
            rw [h5]
            exact q4 j' (by omega) h2 h3)
  refine ⟨st.1, st.2, ?_, ⟨p1.nonan, ?_, p1.corner⟩, p2, p3, ?_⟩
  · unfold rowLoop
    rw [List.length_map, rowRange_eq]
    exact e
  · intro i' j' h1 h2 h3 h4
    refine p1.cell i' j' h1 h2 h3 ?_
    unfold Allowed inB at h3; omega
  · intro j h1 h2
    refine p4 j ?_ h1 h2
    unfold inB at h2; omega

/-- The outer loop, related to the loop without early abandoning. -/
theorem rowsLoop_ok (hD : InDom a b L) (dropout : Dbl K) (cnt i : ℕ) (hi : 1 ≤ i) (him : i + cnt = a.length) (mt : Mat M)
    (h : Filled a b r L i 0 mt) :
    ∃ mtF, rowsLoop (a.map fin) (b.map fin) (r : Int) .inf (List.range' i cnt) mt = .ok (mtF, false) ∧
      Filled a b r L a.length 0 mtF ∧
      (∀ i' j', i' < i → mtF.cost i' j' = mt.cost i' j' ∧ mtF.ncost i' j' = mt.ncost i' j') ∧
      ∃ mt' dropped, rowsLoop (a.map fin) (b.map fin) (r : Int) dropout (List.range' i cnt) mt = .ok (mt', dropped) ∧
        (∀ i j, mt'.ncost i j ≠ nan) ∧
        (dropped = false → mt' = mtF) ∧
        (dropped = true → dropout < inf ∧ ∃ i0, i ≤ i0 ∧ i0 < a.length ∧ ∀ j, j < b.length → inB r i0 j → dropout < mtF.ncost i0 j) := by
  induction cnt generalizing i mt with
  | zero =>
    have : i = a.length := by omega
    subst this
    exact ⟨mt, rfl, h, fun _ _ _ => ⟨rfl, rfl⟩, mt, false, rfl, h.nonan, fun _ => rfl, by simp⟩
  | succ cnt ih =>
    obtain ⟨mt1, best, e1, f1, g1, n1, l1⟩ := rowLoop_ok hD hi (by omega) h
    obtain ⟨mtF, e2, f2, g2, mt', dropped, e3, n3, k3, k4⟩ := ih (i + 1) (by omega) (by omega) mt1 f1
    refine ⟨mtF, ?_, f2, ?_, ?_⟩
    · rw [List.range'_succ]
      simp only [rowsLoop, e1, inf_lt, if_false]
      exact e2
    · intro i' j' hlt
      rw [(g2 i' j' (by omega)).1, (g2 i' j' (by omega)).2]
      exact g1 i' j' hlt
    · by_cases hd : dropout < best
      · refine ⟨mt1, true, ?_, f1.nonan, by simp, fun _ =>
          ⟨Dbl.lt_of_lt_of_le hd (Dbl.le_inf n1), i, le_refl _, by omega, ?_⟩⟩
        · rw [List.range'_succ]
          simp only [rowsLoop, e1, if_pos hd]
        · intro j hj hb
          rw [(g2 i j (by omega)).2]
          exact Dbl.lt_of_lt_of_le hd (l1 j hj hb)
      · refine ⟨mt', dropped, ?_, n3, k3, ?_⟩
        · rw [List.range'_succ]
          simp only [rowsLoop, e1, if_neg hd]
          exact e3
        · intro hdr
          obtain ⟨h0, i0, h1, h2, h3⟩ := k4 hdr
          exact ⟨h0, i0, by omega, h2, h3⟩

end matrix

end Genex
