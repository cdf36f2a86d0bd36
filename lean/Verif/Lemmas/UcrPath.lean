import Verif.Lemmas.UcrBounds

/-! Lower bounds for the cost of a path with any cost of its cells. -/

set_option linter.unusedSectionVars false
set_option linter.unnecessarySeqFocus false

namespace Genex.Ucr

open Dbl Spec

variable {K : Type} [Field K] [LinearOrder K] [IsStrictOrderedRing K]

/-- The cost of the cells of a path. -/
def cells (c : ℕ → ℕ → K) (p : List (ℕ × ℕ)) : K := (p.map fun x => c x.1 x.2).sum

theorem cells_snoc (c : ℕ → ℕ → K) (p : List (ℕ × ℕ)) (d : ℕ × ℕ) : cells c (p ++ [d]) = cells c p + c d.1 d.2 := by simp [cells]

theorem cells_single (c : ℕ → ℕ → K) : cells c [(0, 0)] = c 0 0 := by simp [cells]

theorem cells_nonneg {c : ℕ → ℕ → K} (h : ∀ i j, 0 ≤ c i j) (p : List (ℕ × ℕ)) : 0 ≤ cells c p :=
  List.sum_nonneg (by intro x hx; obtain ⟨y, -, rfl⟩ := List.mem_map.1 hx; exact h _ _)

theorem cells_potential {c : ℕ → ℕ → K} {e : ℕ × ℕ} {p : List (ℕ × ℕ)} (h : PathTo e p) (φ : ℕ × ℕ → K)
    (h0 : φ (0, 0) ≤ c 0 0) (hs : ∀ x d, Step x d → d ∈ p → φ d ≤ φ x + c d.1 d.2) : φ e ≤ cells c p := by
  induction h using PathTo.rec' with
  | base => simpa [cells] using h0
  | step x d p hp hst ih =>
    rw [cells_snoc]
    have := ih (fun x d h hd => hs x d h (by simp [hd]))
    have := hs x d hst (by simp)
    linarith

theorem cells_split {c : ℕ → ℕ → K} {e : ℕ × ℕ} {p : List (ℕ × ℕ)} (h : PathTo e p) {r : ℕ} (hb : InBand r p) (φ : ℕ × ℕ → K)
    (i : ℕ) (hi : i ≤ e.1) (h0 : ∀ j, j ≤ i + r → φ (i, j) = 0)
    (hs : ∀ x d, Step x d → d ∈ p → i ≤ x.1 → φ d ≤ φ x + c d.1 d.2) :
    ∃ j q, PathTo (i, j) q ∧ InBand r q ∧ cells c q + φ e ≤ cells c p := by
  induction h using PathTo.rec' with
  | base =>
    obtain rfl : i = 0 := by simpa using hi
    exact ⟨0, _, PathTo.single, hb, by rw [h0 0 (by omega)]; simp⟩
  | step x d p hp hst ih =>
    have hb' := inBand_snoc.1 hb
    by_cases hc : i ≤ x.1
    · obtain ⟨j, q, h1, h2, h3⟩ := ih hb'.1 hc (fun x d h hd => hs x d h (by simp [hd]))
      refine ⟨j, q, h1, h2, ?_⟩
      rw [cells_snoc]
      have := hs x d hst (by simp) hc
      linarith
    · have : d.1 = i := by rcases hst with h | h | h <;> rw [h] at hi ⊢ <;> simp only at hi ⊢ <;> omega
      obtain ⟨d1, d2⟩ := d
      simp only at this
      subst this
      refine ⟨d2, _, hp.snoc hst, hb, ?_⟩
      rw [h0 d2 hb'.2.2]; simp

/-! ## Kim -/

def kim1 (c : ℕ → ℕ → K) : K := min (min (c 1 0) (c 0 1)) (c 1 1)
def kim2 (c : ℕ → ℕ → K) (m : ℕ) : K := min (min (c (m - 2) (m - 1)) (c (m - 1) (m - 2))) (c (m - 2) (m - 2))
def kim3 (c : ℕ → ℕ → K) : K := min (min (min (min (c 0 2) (c 1 2)) (c 2 2)) (c 2 1)) (c 2 0)
def kim4 (c : ℕ → ℕ → K) (m : ℕ) : K :=
  min (min (min (min (c (m - 1) (m - 3)) (c (m - 2) (m - 3))) (c (m - 3) (m - 3))) (c (m - 3) (m - 2))) (c (m - 3) (m - 1))

/-- All of the bound of Kim. -/
def kimAll (c : ℕ → ℕ → K) (m : ℕ) : K := c 0 0 + c (m - 1) (m - 1) + kim1 c + kim2 c m + kim3 c + kim4 c m

section
variable {c : ℕ → ℕ → K} (hc : ∀ i j, 0 ≤ c i j)
include hc

theorem kim1_nonneg : 0 ≤ kim1 c := le_min (le_min (hc ..) (hc ..)) (hc ..)
theorem kim2_nonneg (m : ℕ) : 0 ≤ kim2 c m := le_min (le_min (hc ..) (hc ..)) (hc ..)
theorem kim3_nonneg : 0 ≤ kim3 c := le_min (le_min (le_min (le_min (hc ..) (hc ..)) (hc ..)) (hc ..)) (hc ..)
theorem kim4_nonneg (m : ℕ) : 0 ≤ kim4 c m := le_min (le_min (le_min (le_min (hc ..) (hc ..)) (hc ..)) (hc ..)) (hc ..)

theorem kimAll_le {m : ℕ} (hm : 6 ≤ m) {p : List (ℕ × ℕ)} (hp : PathTo (m - 1, m - 1) p) : kimAll c m ≤ cells c p := by
  let g : ℕ → K := fun k => if k = 0 then c 0 0 else if k = 1 then kim1 c else if k = 2 then kim3 c else 0
  let h : ℕ → K := fun k => if k = m - 1 then c (m - 1) (m - 1) else if k = m - 2 then kim2 c m else
    if k = m - 3 then kim4 c m else 0
  have n0 := kim1_nonneg hc
  have n1 := kim2_nonneg hc m
  have n2 := kim3_nonneg hc
  have n3 := kim4_nonneg hc m
  have hg : ∀ k, 0 ≤ g k := by
    intro k; simp only [g]; split_ifs <;> first | exact hc .. | assumption | exact le_refl _
  have hh : ∀ k, 0 ≤ h k := by
    intro k; simp only [h]; split_ifs <;> first | exact hc .. | assumption | exact le_refl _
  have key : ∀ i j, i ≤ m - 1 → j ≤ m - 1 → g (max i j) + h (min i j) ≤ c i j := by
    intro i j hi hj
    by_cases h2 : max i j ≤ 2
    · have e : h (min i j) = 0 := by
        simp only [h]; rw [if_neg (by omega), if_neg (by omega), if_neg (by omega)]
      rw [e, add_zero]
      obtain ⟨hi2, hj2⟩ := max_le_iff.1 h2
      have ci : i = 0 ∨ i = 1 ∨ i = 2 := by omega
      have cj : j = 0 ∨ j = 1 ∨ j = 2 := by omega
      rcases ci with rfl | rfl | rfl <;> rcases cj with rfl | rfl | rfl <;> simp [g, kim1, kim3]
    · have e : g (max i j) = 0 := by
        simp only [g]; rw [if_neg (by omega), if_neg (by omega), if_neg (by omega)]
      rw [e, zero_add]
      by_cases h3 : m - 3 ≤ min i j
      · obtain ⟨hi3, hj3⟩ := le_min_iff.1 h3
        have ci : i = m - 1 ∨ i = m - 2 ∨ i = m - 3 := by omega
        have cj : j = m - 1 ∨ j = m - 2 ∨ j = m - 3 := by omega
        have d1 : m - 2 ≠ m - 1 := by omega
        have d2 : m - 3 ≠ m - 1 := by omega
        have d3 : m - 3 ≠ m - 2 := by omega
        have l1 : m - 2 ≤ m - 1 := by omega
        have l2 : m - 3 ≤ m - 1 := by omega
        have l3 : m - 3 ≤ m - 2 := by omega
        rcases ci with rfl | rfl | rfl <;> rcases cj with rfl | rfl | rfl <;>
          simp [h, kim2, kim4, d1, d2, d3, l1, l2, l3]
      · simp only [h]; rw [if_neg (by omega), if_neg (by omega), if_neg (by omega)]
        exact hc ..
  let φ : ℕ × ℕ → K := fun x => ∑ k ∈ Finset.range (max x.1 x.2 + 1), g k + ∑ k ∈ Finset.range (min x.1 x.2 + 1), h k
  have hφ : φ (m - 1, m - 1) ≤ cells c p := by
    apply cells_potential hp
    · have := key 0 0 (by omega) (by omega)
      simpa [φ] using this
    · intro x d hs hd
      have hb := hp.bound d hd
      have := key d.1 d.2 hb.1 hb.2
      have mono : ∀ (f : ℕ → K) (_ : ∀ k, 0 ≤ f k) (x y : ℕ), (y = x ∨ y = x + 1) →
          ∑ k ∈ Finset.range (y + 1), f k ≤ ∑ k ∈ Finset.range (x + 1), f k + f y := by
        intro f hf x y hxy
        rcases hxy with rfl | rfl
        · have := hf y; linarith
        · rw [Finset.sum_range_succ f (x + 1)]
      have m1 := mono g hg (max x.1 x.2) (max d.1 d.2) (by rcases hs with h | h | h <;> rw [h] <;> simp only <;> omega)
      have m2 := mono h hh (min x.1 x.2) (min d.1 d.2) (by rcases hs with h | h | h <;> rw [h] <;> simp only <;> omega)
      simp only [φ]
      linarith
  refine le_trans ?_ hφ
  simp only [φ, max_self, min_self]
  have e1 : m - 1 + 1 = 3 + (m - 3) := by omega
  have e2 : m - 1 + 1 = (m - 3) + 3 := by omega
  have s1 : ∑ k ∈ Finset.range (m - 1 + 1), g k = c 0 0 + kim1 c + kim3 c := by
    rw [e1, Finset.sum_range_add, Finset.sum_eq_zero (s := Finset.range (m - 3)), add_zero]
    · simp [Finset.sum_range_succ, g]
    · intro x _
      simp only [g]; rw [if_neg (by omega), if_neg (by omega), if_neg (by omega)]
  have s2 : ∑ k ∈ Finset.range (m - 1 + 1), h k = kim4 c m + kim2 c m + c (m - 1) (m - 1) := by
    rw [e2, Finset.sum_range_add, Finset.sum_eq_zero (s := Finset.range (m - 3)), zero_add]
    · have a1 : m - 3 + 1 = m - 2 := by omega
      have a2 : m - 3 + 2 = m - 1 := by omega
      have d1 : m - 2 ≠ m - 1 := by omega
      have d2 : m - 3 ≠ m - 1 := by omega
      have d3 : m - 3 ≠ m - 2 := by omega
      simp [Finset.sum_range_succ, h, a1, a2, d1, d2, d3]
    · intro x hx
      have := Finset.mem_range.1 hx
      simp only [h]; rw [if_neg (by omega), if_neg (by omega), if_neg (by omega)]
  rw [s1, s2]
  unfold kimAll
  linarith

/-- Terms that are below every cell of their row or column in the band. -/
def Under (c : ℕ → ℕ → K) (r : ℕ) (rows : Bool) (e : ℕ → K) (m : ℕ) : Prop :=
  ∀ i j, i < m → j < m → i ≤ j + r → j ≤ i + r → e (along rows (i, j)) ≤ c i j

theorem Under.sum_le {r m : ℕ} {rows : Bool} {e : ℕ → K} (h : Under c r rows e m) (hm : 1 ≤ m)
    {p : List (ℕ × ℕ)} (hp : PathTo (m - 1, m - 1) p) (hb : InBand r p) : ((List.range m).map e).sum ≤ cells c p := by
  have hφ := cells_potential (c := c) hp (fun x => ∑ k ∈ Finset.range (along rows x + 1), e k)
    (by
      have := h 0 0 (by omega) (by omega) (by omega) (by omega)
      cases rows <;> simpa [along] using this)
    (by
      intro x d hs hd
      have hbd := hp.bound d hd
      have hin := hb d hd
      have := h d.1 d.2 (by simp only at hbd; omega) (by simp only at hbd; omega) hin.1 hin.2
      rcases along_step rows hs with e1 | e1
      · rw [e1]; linarith [hc d.1 d.2]
      · rw [e1, Finset.sum_range_succ e (along rows x + 1), ← e1]; linarith)
  have e1 : along rows (m - 1, m - 1) + 1 = m := by cases rows <;> simp [along] <;> omega
  rw [e1] at hφ
  rwa [range_sum]

/-- What is left of a path after the row `i`. -/
theorem Under.rest {r m : ℕ} {rows : Bool} {e : ℕ → K} (h : Under c r rows e m) {i : ℕ} (hi : i + r + 1 < m) {p : List (ℕ × ℕ)}
    (hp : PathTo (m - 1, m - 1) p) (hb : InBand r p) :
    ∃ j q, PathTo (i, j) q ∧ InBand r q ∧ cells c q + ∑ x ∈ Finset.Ico (i + r + 1) m, e x ≤ cells c p := by
  obtain ⟨j, q, h1, h2, h3⟩ := cells_split (c := c) hp hb (fun x => ∑ k ∈ Finset.Ico (i + r + 1) (along rows x + 1), e k) i
    (by simp only; omega)
    (by
      intro j hj
      rw [Finset.Ico_eq_empty (by cases rows <;> simp [along] <;> omega), Finset.sum_empty])
    (by
      intro x d hs hd _
      have hbd := hp.bound d hd
      have hin := hb d hd
      have := h d.1 d.2 (by simp only at hbd; omega) (by simp only at hbd; omega) hin.1 hin.2
      have hsq := hc d.1 d.2
      rcases along_step rows hs with e1 | e1
      · rw [e1]; linarith
      · by_cases hle : i + r + 1 ≤ along rows x + 1
        · rw [e1, Finset.sum_Ico_succ_top hle, ← e1]; linarith
        · rw [Finset.Ico_eq_empty (by omega), Finset.Ico_eq_empty (by omega), Finset.sum_empty]; linarith)
  refine ⟨j, q, h1, h2, ?_⟩
  have e1 : along rows (m - 1, m - 1) + 1 = m := by cases rows <;> simp [along] <;> omega
  rwa [e1] at h3

end

end Genex.Ucr
