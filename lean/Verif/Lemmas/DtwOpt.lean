import Verif.Lemmas.Dtw

/-!
# Optimality, early abandoning and trace-back of `warpedDistance`
-/

set_option linter.unusedSectionVars false

namespace Genex

open Dbl Spec

variable {K : Type} [Field K] [LinearOrder K]

/-- Accumulator along a list of cells. -/
def pathAcc (M : DM K) (a b : List K) (p : List (ℕ × ℕ)) : M.S :=
  p.foldl (fun s c => M.reduce s (fin (a.getD c.1 0)) (fin (b.getD c.2 0))) M.init

/-- A path from `(0,0)` to `c`. -/
structure PathTo (c : ℕ × ℕ) (p : List (ℕ × ℕ)) : Prop where
  first : p.head? = some (0, 0)
  last : p.getLast? = some c
  steps : p.IsChain Step

theorem alignment_iff {m n : ℕ} {p : List (ℕ × ℕ)} : Alignment m n p ↔ PathTo (m - 1, n - 1) p :=
  ⟨fun h => ⟨h.1, h.2, h.3⟩, fun h => ⟨h.1, h.2, h.3⟩⟩

theorem PathTo.single : PathTo (0, 0) [(0, 0)] := ⟨rfl, rfl, by simp⟩

theorem PathTo.snoc {c d : ℕ × ℕ} {p : List (ℕ × ℕ)} (h : PathTo c p) (hs : Step c d) : PathTo d (p ++ [d]) := by
  refine ⟨?_, by simp, ?_⟩
  · rw [List.head?_append, h.first]; rfl
  · rw [List.isChain_append]
    refine ⟨h.steps, by simp, ?_⟩
    intro x hx y hy
    rw [h.last] at hx
    simp at hx hy
    subst hx; subst hy; exact hs

theorem PathTo.cases {c : ℕ × ℕ} {p : List (ℕ × ℕ)} (h : PathTo c p) :
    (c = (0, 0) ∧ p = [(0, 0)]) ∨ ∃ q d, p = q ++ [c] ∧ PathTo d q ∧ Step d c := by
  rcases List.eq_nil_or_concat p with rfl | ⟨q, x, rfl⟩
  · have := h.first; simp at this
  · have hl := h.last
    simp at hl
    subst hl
    rcases List.eq_nil_or_concat q with rfl | ⟨q', d, rfl⟩
    · have := h.first
      simp at this
      subst this
      exact Or.inl ⟨rfl, rfl⟩
    · refine Or.inr ⟨q' ++ [d], d, by simp, ⟨?_, by simp, ?_⟩, ?_⟩
      · have := h.first
        rw [List.concat_eq_append, List.concat_eq_append, List.head?_append] at this
        cases hq : (q' ++ [d]).head? with
        | none => simp at hq
        | some y => rw [hq] at this; simpa using this
      · have := h.steps
        rw [List.concat_eq_append, List.concat_eq_append, List.isChain_append] at this
        exact this.1
      · have := h.steps
        rw [List.concat_eq_append, List.concat_eq_append, List.isChain_append] at this
        exact this.2.2 d (by simp) x (by simp)

/-- Induction over paths from the origin. -/
theorem PathTo.rec' {motive : (c : ℕ × ℕ) → (p : List (ℕ × ℕ)) → PathTo c p → Prop}
    (base : motive (0, 0) [(0, 0)] PathTo.single)
    (step : ∀ c d p (hp : PathTo c p) (hs : Step c d), motive c p hp → motive d (p ++ [d]) (hp.snoc hs))
    {c : ℕ × ℕ} {p : List (ℕ × ℕ)} (h : PathTo c p) : motive c p h := by
  induction hn : p.length using Nat.strong_induction_on generalizing c p with
  | _ n ih =>
    rcases h.cases with ⟨rfl, rfl⟩ | ⟨q, d, rfl, hq, hs⟩
    · exact base
    · exact step d c q hq hs (ih q.length (by simp at hn; omega) hq rfl)

/-- All cells of a path are dominated by its end. -/
theorem PathTo.bound {c : ℕ × ℕ} {p : List (ℕ × ℕ)} (h : PathTo c p) : ∀ x ∈ p, x.1 ≤ c.1 ∧ x.2 ≤ c.2 := by
  induction h using PathTo.rec' with
  | base => simp
  | step c d p _ hs ih =>
    intro x hx
    simp at hx
    rcases hx with hx | rfl
    · have := ih x hx
      rcases hs with rfl | rfl | rfl <;> simp <;> omega
    · simp

theorem pathAcc_snoc (M : DM K) (a b : List K) (p : List (ℕ × ℕ)) (c : ℕ × ℕ) :
    pathAcc M a b (p ++ [c]) = M.reduce (pathAcc M a b p) (fin (a.getD c.1 0)) (fin (b.getD c.2 0)) := by
  simp [pathAcc]

section
variable {M : DM K} {a b : List K} {r : ℕ} {L : Safe M a.length b.length}

/-- Every filled allowed cell is attained by an allowed path. -/
theorem attain {mt : Mat M} (h : Filled a b r L a.length 0 mt) (i j : ℕ) (hi : i < a.length) (hj : j < b.length)
    (hal : Allowed a.length b.length r i j) :
    ∃ p, PathTo (i, j) p ∧ (∀ c ∈ p, Allowed a.length b.length r c.1 c.2) ∧
      mt.cost i j = some (pathAcc M a b p) ∧ mt.ncost i j = fin (L.val (pathAcc M a b p)) := by
  induction hn : i + j using Nat.strong_induction_on generalizing i j with
  | _ n ih =>
    obtain ⟨s, h1, h2, h3, h4⟩ := h.cell i j hi hj hal (Or.inl hi)
    rcases h4 with ⟨rfl, rfl, rfl⟩ | ⟨pi, pj, sp, g1, g2, g3, g4, rfl, -⟩
    · exact ⟨[(0, 0)], PathTo.single, by simpa using hal, h1, h3⟩
    · have g1' := step_iff.1 g1
      obtain ⟨p, k1, k2, k3, k4⟩ := ih (pi + pj) (by omega) pi pj (by omega) (by omega) g2 rfl
      rw [g3, Option.some.injEq] at k3
      refine ⟨p ++ [(i, j)], k1.snoc g1, ?_, ?_, ?_⟩
      · intro c hc
        simp at hc
        rcases hc with hc | rfl
        · exact k2 c hc
        · exact hal
      · rw [pathAcc_snoc, ← k3]; exact h1
      · rw [pathAcc_snoc, ← k3]; exact h3

end

section
variable {M : DM K} {a b : List K} {r : ℕ} {L : Grow M a.length b.length}

theorem pathAcc_ok {c : ℕ × ℕ} {p : List (ℕ × ℕ)} (h : PathTo c p) : L.ok (pathAcc M a b p) := by
  induction h using PathTo.rec' with
  | base => exact L.ok_first _ _ (L.all _ _)
  | step c d p _ _ ih => rw [pathAcc_snoc]; exact L.ok_step _ _ _ (L.all _ _) ih

/-- The value never decreases along a path. -/
theorem pathAcc_infl {c : ℕ × ℕ} {p : List (ℕ × ℕ)} (h : PathTo c p) :
    ∀ x ∈ p, ∃ q, PathTo x q ∧ L.val (pathAcc M a b q) ≤ L.val (pathAcc M a b p) := by
  induction h using PathTo.rec' with
  | base => intro x hx; simp at hx; subst hx; exact ⟨_, PathTo.single, le_refl _⟩
  | step c d p hp hs ih =>
    intro x hx
    simp at hx
    rcases hx with hx | rfl
    · obtain ⟨q, h1, h2⟩ := ih x hx
      refine ⟨q, h1, le_trans h2 ?_⟩
      rw [pathAcc_snoc]
      exact L.infl _ _ _ (pathAcc_ok hp)
    · exact ⟨_, hp.snoc hs, le_refl _⟩

/-- Cells of later rows are at least as expensive as some cell of an earlier row. -/
theorem row_le {mt : Mat M} (h : Filled a b r L.toSafe a.length 0 mt) (i0 : ℕ) (h0 : 1 ≤ i0) (i j : ℕ) (hi0 : i0 ≤ i)
    (hi : i < a.length) (hj : j < b.length) (hal : Allowed a.length b.length r i j) :
    ∃ j', j' < b.length ∧ Allowed a.length b.length r i0 j' ∧ mt.ncost i0 j' ≤ mt.ncost i j := by
  induction hn : i + j using Nat.strong_induction_on generalizing i j with
  | _ n ih =>
    by_cases he : i = i0
    · subst he
      exact ⟨j, hj, hal, Dbl.le_refl (h.nonan _ _)⟩
    · obtain ⟨s, h1, h2, h3, h4⟩ := h.cell i j hi hj hal (Or.inl hi)
      rcases h4 with ⟨rfl, rfl, rfl⟩ | ⟨pi, pj, sp, g1, g2, g3, g4, rfl, -⟩
      · omega
      · have g1' := step_iff.1 g1
        obtain ⟨j', k1, k2, k3⟩ := ih (pi + pj) (by omega) pi pj (by omega) (by omega) (by omega) g2 rfl
        refine ⟨j', k1, k2, Dbl.le_trans k3 ?_⟩
        obtain ⟨s', f1, f2, f3, -⟩ := h.cell pi pj (by omega) (by omega) g2 (by omega)
        rw [g3, Option.some.injEq] at f1
        subst f1
        rw [f3, h3, fin_le_fin]
        exact L.infl _ _ _ g4

end

section
variable {M : DM K} {a b : List K} {r : ℕ} {L : Mono M a.length b.length}

/-- No allowed path is cheaper than the filled cell. -/
theorem lower {mt : Mat M} (h : Filled a b r L.toSafe a.length 0 mt) {c : ℕ × ℕ} {p : List (ℕ × ℕ)}
    (hp : PathTo c p) : (∀ x ∈ p, x.1 < a.length ∧ x.2 < b.length ∧ Allowed a.length b.length r x.1 x.2) →
    ∃ s, mt.cost c.1 c.2 = some s ∧ L.ok s ∧ L.val s ≤ L.val (pathAcc M a b p) := by
  induction hp using PathTo.rec' with
  | base =>
    intro hx
    obtain ⟨h1, h2, h3⟩ := hx (0, 0) (by simp)
    obtain ⟨s, k1, k2, k3, k4⟩ := h.cell 0 0 h1 h2 h3 (by omega)
    rcases k4 with ⟨-, -, rfl⟩ | ⟨pi, pj, sp, g1, -⟩
    · exact ⟨_, k1, k2, le_refl _⟩
    · rw [step_iff] at g1; omega
  | step c d p hp hs ih =>
    intro hx
    obtain ⟨h1, h2, h3⟩ := hx d (by simp)
    obtain ⟨s, e1, e2, e3⟩ := ih (fun x hxm => hx x (by simp [hxm]))
    obtain ⟨s', k1, k2, k3, k4⟩ := h.cell d.1 d.2 h1 h2 h3 (Or.inl h1)
    refine ⟨s', k1, k2, ?_⟩
    rw [pathAcc_snoc]
    rcases k4 with ⟨g1, g2, rfl⟩ | ⟨pi, pj, sp, g1, g2, g3, g4, rfl, g5⟩
    · have : Step (c.1, c.2) (d.1, d.2) := hs
      rw [step_iff] at this; omega
    · obtain ⟨hc1, hc2, hc3⟩ := hx c (by
        have := hp.last
        simp [List.mem_of_getLast? this])
      obtain ⟨sq, q1, q2⟩ := g5 c.1 c.2 hs hc3
      rw [e1, Option.some.injEq] at q1
      subst q1
      exact L.mono _ _ _ _ g4 (pathAcc_ok hp) (le_trans q2 e3)

end

/-! ## Trace-back -/

theorem backStep_step {nc : ℕ → ℕ → Dbl K} (hn : ∀ i j, nc i j ≠ nan) {c : ℕ × ℕ} (hc : c ≠ (0, 0)) :
    Step (backStep nc c) c := by
  obtain ⟨i, j⟩ := c
  simp only [ne_eq, Prod.mk.injEq] at hc
  simp only [backStep]
  have hm : ∀ x y : Dbl K, x ≠ nan → (eqD x y ↔ x = y) := fun x y h => by simp [eqD, h]
  split
  · change Step (_, _) (_, _); rw [step_iff]; omega
  · split
    · change Step (_, _) (_, _); rw [step_iff]; omega
    · simp only [hm _ _ (hn _ _)]
      split
      · change Step (_, _) (_, _); rw [step_iff]; omega
      · split
        · change Step (_, _) (_, _); rw [step_iff]; omega
        · split
          · change Step (_, _) (_, _); rw [step_iff]; omega
          · rename_i h1 h2 h3
            exfalso
            rcases stdMin_eq (nc (i - 1) (j - 1)) (stdMin (nc (i - 1) j) (nc i (j - 1))) with h | h
            · exact h1 h.symm
            · rcases stdMin_eq (nc (i - 1) j) (nc i (j - 1)) with h' | h'
              · rw [h'] at h; rw [h'] at h2; exact h2 h.symm
              · rw [h'] at h; rw [h'] at h3; exact h3 h.symm

theorem step_sum {c d : ℕ × ℕ} (h : Step c d) : c.1 + c.2 < d.1 + d.2 := by
  rcases h with rfl | rfl | rfl <;> simp <;> omega

/-- The list of cells visited by the trace-back, in order of visit. -/
def backPath (nc : ℕ → ℕ → Dbl K) : ℕ → ℕ × ℕ → List (ℕ × ℕ)
  | 0, c => [c]
  | fuel + 1, c => if c = (0, 0) then [c] else c :: backPath nc fuel (backStep nc c)

theorem traceLoop_eq {nc : ℕ → ℕ → Dbl K} (hn : ∀ i j, nc i j ≠ nan) (fuel : ℕ) (c : ℕ × ℕ)
    (hf : c.1 + c.2 ≤ fuel) (acc : List (ℕ × ℕ)) :
    traceLoop nc fuel c acc = .ok (acc ++ backPath nc fuel c) := by
  induction fuel generalizing c acc with
  | zero =>
    have : c = (0, 0) := by ext <;> simp <;> omega
    subst this
    simp [traceLoop, backPath]
  | succ fuel ih =>
    unfold traceLoop backPath
    by_cases hc : c = (0, 0)
    · simp [hc]
    · have hs := backStep_step hn hc
      have hlt := step_sum hs
      have hne : backStep nc c ≠ c := by intro h; rw [h] at hlt; omega
      simp only [if_neg hc, if_neg hne]
      rw [ih (backStep nc c) (by omega)]
      simp

theorem backPath_path {nc : ℕ → ℕ → Dbl K} (hn : ∀ i j, nc i j ≠ nan) (fuel : ℕ) (c : ℕ × ℕ)
    (hf : c.1 + c.2 ≤ fuel) : PathTo c (backPath nc fuel c).reverse := by
  induction fuel generalizing c with
  | zero =>
    have : c = (0, 0) := by ext <;> simp <;> omega
    subst this
    exact PathTo.single
  | succ fuel ih =>
    unfold backPath
    by_cases hc : c = (0, 0)
    · simp [hc]; exact PathTo.single
    · have hs := backStep_step hn hc
      have hlt := step_sum hs
      rw [if_neg hc, List.reverse_cons]
      exact (ih _ (by omega)).snoc hs

/-- The fuel only has to reach `i + j`, whatever the matrix contains. -/
theorem backStep_le (nc : ℕ → ℕ → Dbl K) (c : ℕ × ℕ) (hc : c ≠ (0, 0)) :
    backStep nc c = c ∨ (backStep nc c).1 + (backStep nc c).2 < c.1 + c.2 := by
  obtain ⟨i, j⟩ := c
  simp only [ne_eq, Prod.mk.injEq] at hc
  simp only [backStep]
  repeat' split
  all_goals simp
  all_goals omega

theorem traceLoop_fuel (nc : ℕ → ℕ → Dbl K) (fuel fuel' : ℕ) (c : ℕ × ℕ) (h : c.1 + c.2 ≤ fuel)
    (h' : c.1 + c.2 ≤ fuel') (acc : List (ℕ × ℕ)) : traceLoop nc fuel c acc = traceLoop nc fuel' c acc := by
  induction fuel generalizing c acc fuel' with
  | zero =>
    have : c = (0, 0) := by ext <;> simp <;> omega
    subst this
    cases fuel' <;> simp [traceLoop]
  | succ fuel ih =>
    unfold traceLoop
    by_cases hc : c = (0, 0)
    · simp [hc]
    · rcases backStep_le nc c hc with hb | hb
      · simp [hb]
      · have hne : backStep nc c ≠ c := by intro he; rw [he] at hb; omega
        cases fuel' with
        | zero => omega
        | succ fuel' => simp only [if_neg hc, if_neg hne]; exact ih fuel' _ (by omega) (by omega) _

/-- The visited neighbour is a cheapest one. -/
theorem backStep_min {nc : ℕ → ℕ → Dbl K} (hn : ∀ i j, nc i j ≠ nan) {c p : ℕ × ℕ} (hc : c ≠ (0, 0)) (hp : Step p c) :
    nc (backStep nc c).1 (backStep nc c).2 ≤ nc p.1 p.2 := by
  have hs : Step ((backStep nc c).1, (backStep nc c).2) (c.1, c.2) := backStep_step hn hc
  have hlt := step_sum hs
  have hs'' := step_iff.1 hs
  have g1' := step_iff.1 (show Step (p.1, p.2) (c.1, c.2) from hp)
  set d := backStep nc c with hd
  have hm : ∀ x y : Dbl K, x ≠ nan → (eqD x y ↔ x = y) := fun x y h => by simp [eqD, h]
  obtain ⟨i, j⟩ := c
  obtain ⟨pi, pj⟩ := p
  simp only at hs'' g1' ⊢
  by_cases hi : i = 0
  · have : pi = d.1 ∧ pj = d.2 := by omega
    rw [this.1, this.2]; exact Dbl.le_refl (hn _ _)
  · by_cases hj : j = 0
    · have : pi = d.1 ∧ pj = d.2 := by omega
      rw [this.1, this.2]; exact Dbl.le_refl (hn _ _)
    · set mn := stdMin (nc (i - 1) (j - 1)) (stdMin (nc (i - 1) j) (nc i (j - 1))) with hmn
      have hmd : nc d.1 d.2 = mn := by
        have hne : d ≠ (i, j) := by intro he; rw [he] at hlt; simp at hlt
        rw [hd] at hne ⊢
        simp only [backStep, if_neg hi, if_neg hj, hm _ _ (hn _ _), ← hmn] at hne ⊢
        split_ifs with w1 w2 w3
        · exact w1
        · exact w2
        · exact w3
        · rw [if_neg w1, if_neg w2, if_neg w3] at hne
          exact absurd rfl hne
      rw [hmd]
      have l1 : mn ≤ nc (i - 1) (j - 1) := stdMin_le_left (hn _ _)
      have l0 := stdMin_le_right (hn (i - 1) (j - 1)) (stdMin_ne_nan (hn (i - 1) j) (hn i (j - 1)))
      have l2 : mn ≤ nc (i - 1) j := Dbl.le_trans l0 (stdMin_le_left (hn _ _))
      have l3 : mn ≤ nc i (j - 1) := Dbl.le_trans l0 (stdMin_le_right (hn _ _) (hn _ _))
      have : (pi = i - 1 ∧ pj = j - 1) ∨ (pi = i - 1 ∧ pj = j) ∨ (pi = i ∧ pj = j - 1) := by omega
      rcases this with ⟨rfl, rfl⟩ | ⟨rfl, rfl⟩ | ⟨rfl, rfl⟩
      · exact l1
      · exact l2
      · exact l3

/-- With every cell filled, the traced path is as cheap as the cell. -/
theorem backPath_attains {M : DM K} {a b : List K} {r : ℕ} {L : Mono M a.length b.length} {mt : Mat M}
    (h : Filled a b r L.toSafe a.length 0 mt)
    (hall : ∀ i j, i < a.length → j < b.length → Allowed a.length b.length r i j) (fuel : ℕ) (c : ℕ × ℕ)
    (hf : c.1 + c.2 ≤ fuel) (h1 : c.1 < a.length) (h2 : c.2 < b.length) :
    ∃ s, mt.cost c.1 c.2 = some s ∧ L.val (pathAcc M a b (backPath mt.ncost fuel c).reverse) ≤ L.val s := by
  induction fuel generalizing c with
  | zero =>
    have : c = (0, 0) := by ext <;> simp <;> omega
    subst this
    obtain ⟨s, k1, k2, k3, k4⟩ := h.cell 0 0 h1 h2 (hall _ _ h1 h2) (by omega)
    rcases k4 with ⟨-, -, rfl⟩ | ⟨pi, pj, sp, g1, -⟩
    · exact ⟨_, k1, le_refl _⟩
    · rw [step_iff] at g1; omega
  | succ fuel ih =>
    unfold backPath
    by_cases hc : c = (0, 0)
    · subst hc
      obtain ⟨s, k1, k2, k3, k4⟩ := h.cell 0 0 h1 h2 (hall _ _ h1 h2) (by omega)
      rcases k4 with ⟨-, -, rfl⟩ | ⟨pi, pj, sp, g1, -⟩
      · exact ⟨_, k1, le_refl _⟩
      · rw [step_iff] at g1; omega
    · have hs := backStep_step h.nonan hc
      have hlt := step_sum hs
      set d := backStep mt.ncost c with hd
      have hs' : Step (d.1, d.2) (c.1, c.2) := hs
      have hs'' := step_iff.1 hs'
      obtain ⟨sd, e1, e2⟩ := ih d (by omega) (by omega) (by omega)
      obtain ⟨s, k1, k2, k3, k4⟩ := h.cell c.1 c.2 h1 h2 (hall _ _ h1 h2) (Or.inl h1)
      refine ⟨s, k1, ?_⟩
      rw [if_neg hc, List.reverse_cons, pathAcc_snoc]
      rcases k4 with ⟨g1, g2, rfl⟩ | ⟨pi, pj, sp, g1, g2, g3, g4, rfl, g5⟩
      · exact absurd (Prod.ext g1 g2) hc
      · have g1' := step_iff.1 g1
        obtain ⟨sd', q1, q2⟩ := g5 d.1 d.2 hs' (hall _ _ (by omega) (by omega))
        rw [e1, Option.some.injEq] at q1
        subst q1
        obtain ⟨sd', f1, f2, f3, -⟩ := h.cell d.1 d.2 (by omega) (by omega) (hall _ _ (by omega) (by omega)) (by omega)
        rw [e1, Option.some.injEq] at f1
        subst f1
        obtain ⟨sp', u1, u2, u3, -⟩ := h.cell pi pj (by omega) (by omega) g2 (by omega)
        rw [g3, Option.some.injEq] at u1
        subst u1
        have hmin : L.val sd ≤ L.val sp := by
          have := backStep_min h.nonan hc g1
          rw [f3, u3, fin_le_fin] at this
          exact this
        exact L.mono _ _ _ _ (pathAcc_ok (backPath_path h.nonan fuel d (by omega))) g4 (le_trans e2 hmin)

/-! ## The whole function -/

section
variable {M : DM K} {a b : List K} {r : ℕ} [BandOps] {ratio : ℚ}

/-- Everything known about a run of `warpedDistance` on finite data: `mtF` is the matrix of the run without a bound. -/
theorem warped_run (L : Safe M a.length b.length) (hD : InDom a b L) (hr : band ratio (max a.length b.length : ℕ) = (r : Int)) (hm : 1 ≤ a.length) (hn : 1 ≤ b.length)
    (hmn : ¬ (a.length = 1 ∧ b.length = 1)) :
    ∃ mtF : Mat M, Filled a b r L a.length 0 mtF ∧
      (∀ acc, warpedDistance M ratio (a.map fin) (b.map fin) .inf acc =
        .ok (mtF.ncost (a.length - 1) (b.length - 1),
          (backPath mtF.ncost (a.length - 1 + (b.length - 1)) (a.length - 1, b.length - 1)).reverse ++ acc.reverse)) ∧
      ∀ dropout acc, ∃ res q, PathTo (a.length - 1, b.length - 1) q ∧
        warpedDistance M ratio (a.map fin) (b.map fin) dropout acc = .ok (res, q ++ acc.reverse) ∧
        (res = mtF.ncost (a.length - 1) (b.length - 1) ∨
          (res = inf ∧ dropout < inf ∧ ∃ i0, 1 ≤ i0 ∧ i0 < a.length ∧
            ∀ j, j < b.length → inB r i0 j → dropout < mtF.ncost i0 j)) := by
  obtain ⟨mt0, mt1, mt2, e0, e1, e2, hb⟩ := base_exists (L := L) (r := r) hD hm hn hmn
  obtain ⟨mtF, f1, f2, -, -⟩ := rowsLoop_ok hD .inf (a.length - 1) 1 (le_refl _) (by omega) mt2 hb.filled
  have h0 : ¬ (a.length = 0 ∨ b.length = 0) := by omega
  refine ⟨mtF, f2, ?_, ?_⟩
  · intro acc
    unfold warpedDistance
    simp only [List.length_map, hr, if_neg hmn, if_neg h0, e0, e1, e2, f1]
    rw [traceLoop_eq f2.nonan _ (a.length - 1, b.length - 1) (le_refl _)]
    simp
  · intro dropout acc
    obtain ⟨mtF', g1, g2, -, mt', dropped, k1, k2, k3, k4⟩ :=
      rowsLoop_ok hD dropout (a.length - 1) 1 (le_refl _) (by omega) mt2 hb.filled
    rw [f1] at g1
    have : mtF = mtF' := by injection g1 with g1; injection g1
    subst this
    refine ⟨if dropped then .inf else mt'.ncost (a.length - 1) (b.length - 1), _,
      backPath_path k2 (a.length - 1 + (b.length - 1)) (a.length - 1, b.length - 1) (le_refl _), ?_, ?_⟩
    · unfold warpedDistance
      simp only [List.length_map, hr, if_neg hmn, if_neg h0, e0, e1, e2, k1]
      rw [traceLoop_eq k2 _ (a.length - 1, b.length - 1) (le_refl _)]
      simp
    · cases dropped with
      | false => left; simp [k3 rfl]
      | true => right; exact ⟨by simp, by
          obtain ⟨q0, i0, q1, q2, q3⟩ := k4 rfl
          exact ⟨q0, i0, q1, q2, q3⟩⟩

/-- Early abandoning is exact unless the second series has a single point. -/
theorem warped_dropExact (L : Grow M a.length b.length) (hr : band ratio (max a.length b.length : ℕ) = (r : Int)) (hm : 1 ≤ a.length)
    (hn : 1 ≤ b.length) (hb : b.length = 1 → a.length ≤ r + 1 ∨ 2 * r + 1 < a.length) (dropout : Dbl K) :
    ∃ F : Dbl K, F ≠ nan ∧ warpedValue M ratio (a.map fin) (b.map fin) .inf = .ok F ∧
      (warpedValue M ratio (a.map fin) (b.map fin) dropout = .ok F ∨
        (dropout < F ∧ warpedValue M ratio (a.map fin) (b.map fin) dropout = .ok .inf)) := by
  by_cases hmn : a.length = 1 ∧ b.length = 1
  · have : ∀ d, warpedValue M ratio (a.map fin) (b.map fin) d =
        .ok (M.normDTW (M.reduce M.init (fin (a.getD 0 0)) (fin (b.getD 0 0))) a.length b.length) := by
      intro d
      have ha : at' (a.map fin) 0 = fin (a.getD 0 0) := at'_map a 0 (by omega)
      have hb : at' (b.map fin) 0 = fin (b.getD 0 0) := at'_map b 0 (by omega)
      unfold warpedValue warpedDistance
      simp only [List.length_map, if_pos hmn, ha, hb]
      rfl
    refine ⟨_, ?_, this _, Or.inl (this _)⟩
    rw [L.norm_val _ (L.ok_first _ _ (L.all _ _))]; simp
  · obtain ⟨mtF, f1, f2, f3⟩ := warped_run L.toSafe (fun _ _ _ _ => L.all _ _) hr hm hn hmn
    obtain ⟨res, q, g1, g2, g3⟩ := f3 dropout []
    have e1 : warpedValue M ratio (a.map fin) (b.map fin) .inf = .ok (mtF.ncost (a.length - 1) (b.length - 1)) := by
      unfold warpedValue; rw [f2]; rfl
    have e2 : warpedValue M ratio (a.map fin) (b.map fin) dropout = .ok res := by
      unfold warpedValue; rw [g2]; rfl
    refine ⟨_, f1.nonan _ _, e1, ?_⟩
    rw [e2]
    rcases g3 with rfl | ⟨rfl, k0, i0, k1, k2, k3⟩
    · exact Or.inl rfl
    · refine Or.inr ⟨?_, rfl⟩
      by_cases hal : Allowed a.length b.length r (a.length - 1) (b.length - 1)
      · obtain ⟨j', q1, q2, q3⟩ := row_le f1 i0 k1 (a.length - 1) (b.length - 1) (by omega) (by omega) (by omega) hal
        refine Dbl.lt_of_lt_of_le (k3 j' q1 ?_) q3
        unfold Allowed at q2 hal
        rcases q2 with q2 | q2 | q2
        · exact q2
        · omega
        · have := hb q2.1
          unfold inB at hal ⊢
          omega
      · rw [f1.corner hal]; exact k0

/-- A row without cells in the band ends the loop if the bound is finite. -/
theorem rowsLoop_empty {a b : List (Dbl K)} {r : Int} {d : Dbl K} (hd : d < .inf) {i : ℕ} (hi : rowRange r b.length i = []) :
    ∀ (l : List ℕ) (mt : Mat M) (x : Mat M × Bool), i ∈ l → rowsLoop a b r d l mt = .ok x → x.2 = true
  | [], _, _, h, _ => absurd h (by simp)
  | k :: l, mt, x, h, e => by
    unfold rowsLoop at e
    by_cases hk : k = i
    · subst hk
      simp only [rowLoop, hi, List.foldlM_nil, pure, Except.pure, if_pos hd, Except.ok.injEq] at e
      rw [← e]
    · have hl : i ∈ l := by
        rcases List.mem_cons.1 h with h | h
        · exact absurd h.symm hk
        · exact h
      cases hc : rowLoop a b r k mt with
      | error e' => rw [hc] at e; cases e
      | ok y =>
        rw [hc] at e
        simp only at e
        split at e
        · cases e; rfl
        · exact rowsLoop_empty hd hi l _ x hl e

/-- With one point in the second series and more than the band is wide in the first, every finite bound gives infinity. -/
theorem warped_column_dropped (L : Grow M a.length b.length) (hr : band ratio (max a.length b.length : ℕ) = (r : Int))
    (hn : b.length = 1) (hb : r + 1 < a.length) (d : Dbl K) (hd : d < .inf) :
    warpedValue M ratio (a.map fin) (b.map fin) d = .ok .inf := by
  obtain ⟨mtF, f1, f2, f3⟩ := warped_run L.toSafe (fun _ _ _ _ => L.all _ _) hr (by omega) (by omega) (by omega)
  obtain ⟨res, q, g1, g2, -⟩ := f3 d []
  unfold warpedValue
  rw [g2]
  suffices h : res = .inf by rw [h]; rfl
  unfold warpedDistance at g2
  simp only [List.length_map, hr] at g2
  rw [if_neg (by omega), if_neg (by omega)] at g2
  cases h1 : matInit M (a.map fin) (b.map fin) with
  | error e => rw [h1] at g2; cases g2
  | ok mt0 =>
  rw [h1] at g2
  simp only at g2
  cases h2 : firstCol (a.map fin) (b.map fin) (r : Int) mt0 with
  | error e => rw [h2] at g2; cases g2
  | ok mt1 =>
  rw [h2] at g2
  simp only at g2
  cases h3 : firstRow (a.map fin) (b.map fin) (r : Int) mt1 with
  | error e => rw [h3] at g2; cases g2
  | ok mt2 =>
  rw [h3] at g2
  simp only at g2
  cases h4 : rowsLoop (a.map fin) (b.map fin) (r : Int) d (List.range' 1 (a.length - 1)) mt2 with
  | error e => rw [h4] at g2; cases g2
  | ok x =>
  have hx := rowsLoop_empty (b := b.map fin) hd (i := r + 1) (by
    rw [List.length_map, hn]
    simp [rowRange]) _ mt2 x (by rw [List.mem_range'_1]; omega) h4
  rw [h4] at g2
  obtain ⟨mt3, dr⟩ := x
  simp only at hx
  subst hx
  simp only [if_true] at g2
  split at g2
  · cases g2
  · simp only [Except.ok.injEq, Prod.mk.injEq] at g2
    exact g2.1.symm

/-- Without a bound the value is finite as far as the first column is filled. -/
theorem warped_column_value (L : Grow M a.length b.length) (hr : band ratio (max a.length b.length : ℕ) = (r : Int))
    (hn : b.length = 1) (h1 : 2 ≤ a.length) (hb : a.length ≤ 2 * r + 1) :
    ∃ x, warpedValue M ratio (a.map fin) (b.map fin) .inf = .ok (fin x) := by
  obtain ⟨mtF, f1, f2, -⟩ := warped_run L.toSafe (fun _ _ _ _ => L.all _ _) hr (by omega) (by omega) (by omega)
  obtain ⟨p, -, -, -, h⟩ := attain f1 (a.length - 1) (b.length - 1) (by omega) (by omega) (by unfold Allowed; omega)
  refine ⟨L.val (pathAcc M a b p), ?_⟩
  unfold warpedValue
  rw [f2, h]
  rfl

end

end Genex
