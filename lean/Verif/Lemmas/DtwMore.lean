import Verif.Lemmas.DtwInst
import Mathlib.Tactic.Linarith
import Mathlib.Tactic.FieldSimp
import Mathlib.Tactic.Positivity

/-!
# Further facts about `warpedDistance`: band, transposition, diagonal, negative ratios, other metrics
-/

set_option linter.unusedSectionVars false

namespace Genex

open Dbl Spec

theorem band_eq_bandWidth [BandOps] {ratio : ℚ} (hr : 0 ≤ ratio) {len : ℕ} (hl : 1 ≤ len) :
    band ratio ((len : ℕ) : Int) = (bandWidth ratio len : Int) := by
  unfold band bandWidth
  rw [← Int.natCast_floor_eq_floor (BandOps.nonneg ratio len hr)]
  omega

/-- There is an alignment in the band exactly when the lengths differ by at most its width. -/
theorem exists_path (r i j : ℕ) (h : i ≤ j + r ∧ j ≤ i + r) : ∃ p, PathTo (i, j) p ∧ InBand r p := by
  induction hn : i + j using Nat.strong_induction_on generalizing i j with
  | _ n ih =>
    by_cases h0 : i = 0 ∧ j = 0
    · obtain ⟨rfl, rfl⟩ := h0
      exact ⟨_, PathTo.single, by simp [InBand]⟩
    · have hstep : ∃ i' j', Step (i', j') (i, j) ∧ i' ≤ j' + r ∧ j' ≤ i' + r := by
        by_cases hi : i = 0
        · exact ⟨0, j - 1, by rw [step_iff]; omega, by omega⟩
        · by_cases hj : j = 0
          · exact ⟨i - 1, 0, by rw [step_iff]; omega, by omega⟩
          · exact ⟨i - 1, j - 1, by rw [step_iff]; omega, by omega⟩
      obtain ⟨i', j', hs, hb⟩ := hstep
      have := step_iff.1 hs
      obtain ⟨p, hp, hp'⟩ := ih (i' + j') (by omega) i' j' hb rfl
      refine ⟨p ++ [(i, j)], hp.snoc hs, ?_⟩
      intro c hc
      simp at hc
      rcases hc with hc | rfl
      · exact hp' c hc
      · exact h

theorem bandedCosts_nonempty {K : Type} {m n r : ℕ} {cost : List (ℕ × ℕ) → K} :
    (bandedCosts m n r cost).Nonempty ↔ m - 1 ≤ n - 1 + r ∧ n - 1 ≤ m - 1 + r := by
  constructor
  · rintro ⟨v, p, h1, h2, -⟩
    exact h2 _ (List.mem_of_getLast? h1.last)
  · intro h
    obtain ⟨p, h1, h2⟩ := exists_path r (m - 1) (n - 1) h
    exact ⟨cost p, p, alignment_iff.2 h1, h2, rfl⟩

variable {K : Type} [Field K] [LinearOrder K] [IsStrictOrderedRing K]

/-! ## Transposition -/

theorem step_swap {c d : ℕ × ℕ} (h : Step c d) : Step c.swap d.swap := by
  rcases h with rfl | rfl | rfl <;> simp [Step, Prod.ext_iff]

theorem PathTo.swap {c : ℕ × ℕ} {p : List (ℕ × ℕ)} (h : PathTo c p) : PathTo c.swap (p.map Prod.swap) := by
  induction h using PathTo.rec' with
  | base => exact PathTo.single
  | step c d p hp hs ih => rw [List.map_append]; exact ih.snoc (step_swap hs)

theorem sqCost_swap (a b : List K) (p : List (ℕ × ℕ)) : sqCost a b (p.map Prod.swap) = sqCost b a p := by
  unfold sqCost diffs
  simp only [List.map_map]
  congr 1
  apply List.map_congr_left
  intro c _
  simp only [Function.comp, Prod.fst_swap, Prod.snd_swap]
  ring

theorem absCost_swap (a b : List K) (p : List (ℕ × ℕ)) : absCost a b (p.map Prod.swap) = absCost b a p := by
  unfold absCost diffs
  simp only [List.map_map]
  congr 1
  apply List.map_congr_left
  intro c _
  simp only [Function.comp, Prod.fst_swap, Prod.snd_swap]
  exact abs_sub_comm _ _

theorem maxCost_swap (a b : List K) (p : List (ℕ × ℕ)) : maxCost a b (p.map Prod.swap) = maxCost b a p := by
  unfold maxCost diffs
  simp only [List.map_map]
  congr 1
  apply List.map_congr_left
  intro c _
  simp only [Function.comp, Prod.fst_swap, Prod.snd_swap]
  exact abs_sub_comm _ _

/-- If the cost is invariant under transposition, the set of costs is symmetric. -/
theorem warped_symm {M : DM K} {a b : List K} [BandOps] {ratio : ℚ} (hr : 0 ≤ ratio)
    (L : Mono M a.length b.length) (L' : Mono M b.length a.length) (V V' : List (ℕ × ℕ) → K)
    (hV : ∀ c p, PathTo c p → L.val (pathAcc M a b p) = V p)
    (hV' : ∀ c p, PathTo c p → L'.val (pathAcc M b a p) = V' p)
    (hs : ∀ p, V (p.map Prod.swap) = V' p) (hm : 1 ≤ a.length) (hn : 1 ≤ b.length) :
    warpedValue M ratio (a.map fin) (b.map fin) .inf = warpedValue M ratio (b.map fin) (a.map fin) .inf := by
  have hb := band_eq_bandWidth hr (len := max a.length b.length) (by omega)
  have hb' : band ratio ((max b.length a.length : ℕ) : Int) =
      (bandWidth ratio (max a.length b.length) : Int) := by rw [max_comm]; exact hb
  have sets : ∀ {v}, (∃ p, Alignment a.length b.length p ∧
        (∀ c ∈ p, Allowed a.length b.length (bandWidth ratio (max a.length b.length)) c.1 c.2) ∧ V p = v) ↔
      ∃ p, Alignment b.length a.length p ∧
        (∀ c ∈ p, Allowed b.length a.length (bandWidth ratio (max a.length b.length)) c.1 c.2) ∧ V' p = v := by
    intro v
    constructor
    · rintro ⟨p, h1, h2, h3⟩
      rw [alignment_iff] at h1
      refine ⟨p.map Prod.swap, alignment_iff.2 h1.swap, ?_, ?_⟩
      · intro c hc
        simp only [List.mem_map] at hc
        obtain ⟨d, hd, rfl⟩ := hc
        have := h2 d hd
        unfold Allowed inB at *
        simp only [Prod.fst_swap, Prod.snd_swap]
        omega
      · rw [← hs, List.map_map]; simpa using h3
    · rintro ⟨p, h1, h2, h3⟩
      rw [alignment_iff] at h1
      refine ⟨p.map Prod.swap, alignment_iff.2 h1.swap, ?_, by rw [hs]; exact h3⟩
      intro c hc
      simp only [List.mem_map] at hc
      obtain ⟨d, hd, rfl⟩ := hc
      have := h2 d hd
      unfold Allowed inB at *
      simp only [Prod.fst_swap, Prod.snd_swap]
      omega
  rcases warped_isLeast L V hV hb hm hn with ⟨x, e1, l1⟩ | ⟨e1, n1⟩
  · rcases warped_isLeast L' V' hV' hb' hn hm with ⟨y, e2, l2⟩ | ⟨e2, n2⟩
    · rw [e1, e2]
      congr 2
      refine le_antisymm (l1.2 (sets.2 l2.1)) (l2.2 (sets.1 l1.1))
    · obtain ⟨p, h1, h2, -⟩ := sets.1 l1.1
      exact absurd ⟨p, h1, h2⟩ n2
  · rcases warped_isLeast L' V' hV' hb' hn hm with ⟨y, e2, l2⟩ | ⟨e2, n2⟩
    · obtain ⟨p, h1, h2, -⟩ := sets.2 l2.1
      exact absurd ⟨p, h1, h2⟩ n1
    · rw [e1, e2]

/-! ## The diagonal -/

def diag (n : ℕ) : List (ℕ × ℕ) := (List.range n).map fun i => (i, i)

theorem diag_path (n : ℕ) : PathTo (n, n) (diag (n + 1)) := by
  induction n with
  | zero => exact PathTo.single
  | succ n ih =>
    unfold diag at *
    rw [List.range_succ, List.map_append]
    exact ih.snoc (Or.inl rfl)

theorem diag_inBand (n r : ℕ) : InBand r (diag n) := by
  intro c hc
  simp only [diag, List.mem_map] at hc
  obtain ⟨i, -, rfl⟩ := hc
  simp

/-! ## Other ratios -/

/-- With a negative band the matrix keeps its initial contents and the trace-back still works. -/
theorem warped_neg {M : DM K} {a b : List K} [BandOps] {ratio : ℚ} (L : Safe M a.length b.length) (hD : InDom a b L)
    (hr : band ratio (max a.length b.length : ℕ) < 0) (hm : 1 ≤ a.length) (hn : 1 ≤ b.length)
    (hmn : ¬ (a.length = 1 ∧ b.length = 1)) (dropout : Dbl K) (acc : List (ℕ × ℕ)) :
    ∃ q, PathTo (a.length - 1, b.length - 1) q ∧
      warpedDistance M ratio (a.map fin) (b.map fin) dropout acc = .ok (.inf, q ++ acc.reverse) := by
  have h0 : ¬ (a.length = 0 ∨ b.length = 0) := by omega
  obtain ⟨mt0, h0', h0c, h0n, h0o⟩ := fill_ok (L := L)
    { cost := fun _ _ => M.unset
      ncost := fun i j => if i = (a.map Dbl.fin).length - 1 ∧ j = (b.map Dbl.fin).length - 1 then .inf else 0 }
    (i := 0) (j := 0) hm hn M.init _ rfl (L.ok_first _ _ (hD _ _ hm hn))
  have e0 : matInit M (a.map fin) (b.map fin) = .ok mt0 := h0'
  have nn : ∀ i j, mt0.ncost i j ≠ nan := by
    intro i j
    by_cases h : i = 0 ∧ j = 0
    · rw [h.1, h.2, h0n]; simp
    · rw [(h0o i j h).2]; dsimp only; split
      · simp
      · rw [zero_def]; simp
  have hcor : mt0.ncost (a.length - 1) (b.length - 1) = inf := by
    rw [(h0o _ _ (by omega)).2]; simp
  generalize hrr : band ratio ((max a.length b.length : ℕ) : Int) = r at hr
  have e1 : firstCol (a.map fin) (b.map fin) r mt0 = .ok mt0 := by
    unfold firstCol
    rw [show (min (2 * r + 1) ((a.map (fin (K := K))).length : Int)).toNat - 1 = 0 by omega]
    rfl
  have e2 : firstRow (a.map fin) (b.map fin) r mt0 = .ok mt0 := by
    unfold firstRow
    rw [show (min (2 * r + 1) ((b.map (fin (K := K))).length : Int)).toNat - 1 = 0 by omega]
    rfl
  have erow : ∀ i, rowLoop (a.map fin) (b.map fin) r i mt0 = .ok (mt0, .inf) := by
    intro i
    have : rowRange r (b.map (fin (K := K))).length i = [] := by
      unfold rowRange
      rw [List.filter_eq_nil_iff]
      intro j _
      simp only [decide_eq_true_eq]
      omega
    unfold rowLoop
    rw [this]; rfl
  have e3 : ∀ l, ∃ dr, rowsLoop (a.map fin) (b.map fin) r dropout l mt0 = .ok (mt0, dr) := by
    intro l
    induction l with
    | nil => exact ⟨false, rfl⟩
    | cons i l ih =>
      simp only [rowsLoop, erow]
      split
      · exact ⟨true, rfl⟩
      · exact ih
  obtain ⟨dr, e3⟩ := e3 (List.range' 1 (a.length - 1))
  refine ⟨_, backPath_path nn (a.length - 1 + (b.length - 1)) (a.length - 1, b.length - 1) (le_refl _), ?_⟩
  unfold warpedDistance
  simp only [List.length_map, hrr, if_neg hmn, if_neg h0, e0, e1, e2, e3]
  rw [traceLoop_eq nn _ (a.length - 1, b.length - 1) (le_refl _)]
  simp only [hcor]
  cases dr <;> simp

/-- Every ratio: the call returns, and appends an alignment. -/
theorem warped_total {M : DM K} {a b : List K} [BandOps] (ratio : ℚ) (L : Safe M a.length b.length) (hD : InDom a b L)
    (hm : 1 ≤ a.length) (hn : 1 ≤ b.length) (hmn : ¬ (a.length = 1 ∧ b.length = 1)) (dropout : Dbl K)
    (acc : List (ℕ × ℕ)) :
    ∃ x q, PathTo (a.length - 1, b.length - 1) q ∧
      warpedDistance M ratio (a.map fin) (b.map fin) dropout acc = .ok (x, q ++ acc.reverse) := by
  by_cases hr : band ratio (max a.length b.length : ℕ) < 0
  · obtain ⟨q, h1, h2⟩ := warped_neg L hD hr hm hn hmn dropout acc
    exact ⟨_, q, h1, h2⟩
  · have hr' : band ratio (max a.length b.length : ℕ) = ((band ratio (max a.length b.length : ℕ)).toNat : Int) := by omega
    obtain ⟨mtF, -, -, f⟩ := warped_run L hD hr' hm hn hmn
    obtain ⟨x, q, h1, h2, -⟩ := f dropout acc
    exact ⟨x, q, h1, h2⟩

/-! ## Safety laws for the two ratio metrics, on positive data -/

/-- `Sorensen` stays finite on positive data. -/
def safeSorensen {m n : ℕ} : Safe (sorensen K) m n where
  dom := fun x y => 0 < x ∧ 0 < y
  ok := fun s => ∃ x y : K, 0 < y ∧ s = (fin x, fin y)
  val := fun s => Dbl.toFin s.1 / Dbl.toFin s.2
  ok_first := by
    rintro x y ⟨hx, hy⟩
    exact ⟨|x - y|, |x + y|, abs_pos.2 (ne_of_gt (add_pos hx hy)), by simp [sorensen, abs_fin, zero_def]⟩
  ok_step := by
    rintro s x y ⟨hx, hy⟩ ⟨p, q, hq, rfl⟩
    exact ⟨p + |x - y|, q + |x + y|, add_pos_of_pos_of_nonneg hq (abs_nonneg _), by simp [sorensen, abs_fin]⟩
  norm_val := by
    rintro s ⟨p, q, hq, rfl⟩
    exact fin_div_fin (ne_of_gt hq)

/-- `Cosine` stays finite on data without zeros. -/
noncomputable def safeCosine [HasSqrt K] [LawfulSqrt K] {m n : ℕ} : Safe (cosine K) m n where
  dom := fun x y => x ≠ 0 ∧ y ≠ 0
  ok := fun s => ∃ x y z : K, 0 < x ∧ 0 < y ∧ s = (fin x, fin y, fin z)
  val := fun s => Dbl.toFin s.2.2 / HasSqrt.sqrt (Dbl.toFin s.1 * Dbl.toFin s.2.1)
  ok_first := by
    rintro x y ⟨hx, hy⟩
    exact ⟨x * x, y * y, x * y, mul_self_pos.2 hx, mul_self_pos.2 hy, by simp [cosine, zero_def]⟩
  ok_step := by
    rintro s x y ⟨hx, hy⟩ ⟨p, q, z, hp, hq, rfl⟩
    exact ⟨p + x * x, q + y * y, z + x * y, add_pos hp (mul_self_pos.2 hx), add_pos hq (mul_self_pos.2 hy), by
      simp [cosine]⟩
  norm_val := by
    rintro s ⟨p, q, z, hp, hq, rfl⟩
    have h := mul_pos hp hq
    simp only [cosine, fin_mul_fin, sqrt_fin (le_of_lt h), Dbl.toFin_fin]
    refine fin_div_fin ?_
    intro h0
    rw [sqrt_eq_zero_iff (le_of_lt h)] at h0
    exact ne_of_gt h h0

end Genex
