import Verif.Lemmas.DtwInst
import Verif.Spec.Pairwise
import Mathlib.Tactic.Linarith
import Mathlib.Tactic.Positivity

/-! # `pairwiseDistance` -/

set_option linter.unusedSectionVars false

namespace Genex

open Dbl Spec

variable {K : Type} [Field K] [LinearOrder K]

/-- The accumulator after all pairs. -/
def pwFold (M : DM K) : M.S → List (Dbl K) → List (Dbl K) → M.S
  | s, x :: xs, y :: ys => pwFold M (M.reduce s x y) xs ys
  | s, _, _ => s

theorem pairwiseLoop_false (M : DM K) (s : M.S) (xs ys : List (Dbl K)) :
    pairwiseLoop M (fun _ => false) s xs ys = (pwFold M s xs ys, false) := by
  induction xs generalizing s ys with
  | nil => simp [pairwiseLoop, pwFold]
  | cons x xs ih =>
    cases ys with
    | nil => simp [pairwiseLoop, pwFold]
    | cons y ys => simp [pairwiseLoop, pwFold, ih]

/-- Early abandoning of the accumulation loop, for accumulators that only grow. -/
theorem pairwiseLoop_spec (M : DM K) (drop : M.S → Bool) (inv : M.S → Prop) (le : M.S → M.S → Prop)
    (hrefl : ∀ s, le s s) (htrans : ∀ s t u, le s t → le t u → le s u)
    (hinv : ∀ s (x y : K), inv s → inv (M.reduce s (fin x) (fin y)))
    (hgrow : ∀ s (x y : K), inv s → le s (M.reduce s (fin x) (fin y)))
    (s : M.S) (hs : inv s) (a b : List K) :
    (inv (pwFold M s (a.map fin) (b.map fin)) ∧ le s (pwFold M s (a.map fin) (b.map fin))) ∧
    (pairwiseLoop M drop s (a.map fin) (b.map fin) = (pwFold M s (a.map fin) (b.map fin), false) ∨
      ∃ t u, pairwiseLoop M drop s (a.map fin) (b.map fin) = (u, true) ∧ drop t = true ∧ inv t ∧ le s t ∧
        le t (pwFold M s (a.map fin) (b.map fin))) := by
  induction a generalizing s b with
  | nil => simp [pairwiseLoop, pwFold, hs, hrefl]
  | cons x xs ih =>
    cases b with
    | nil => simp [pairwiseLoop, pwFold, hs, hrefl]
    | cons y ys =>
      obtain ⟨⟨i1, i2⟩, i3⟩ := ih (M.reduce s (fin x) (fin y)) (hinv _ _ _ hs) ys
      have hg := hgrow s x y hs
      refine ⟨⟨i1, htrans _ _ _ hg i2⟩, ?_⟩
      simp only [List.map_cons, pairwiseLoop, pwFold]
      by_cases hd : drop (M.reduce s (fin x) (fin y)) = true
      · rw [if_pos hd]
        exact Or.inr ⟨_, _, rfl, hd, hinv _ _ _ hs, hg, i2⟩
      · rw [if_neg hd]
        rcases i3 with h | ⟨t, u, h1, h2, h3, h4, h5⟩
        · exact Or.inl h
        · exact Or.inr ⟨t, u, h1, h2, h3, htrans _ _ _ hg h4, h5⟩

variable [IsStrictOrderedRing K]

theorem pwFold_euclidean [HasSqrt K] (t : K) (a b : List K) :
    pwFold (euclidean K) (fin t) (a.map fin) (b.map fin) =
      fin (t + (List.zipWith (fun x y => (x - y) ^ 2) a b).sum) := by
  induction a generalizing t b with
  | nil => simp [pwFold]; rfl
  | cons x xs ih =>
    cases b with
    | nil => simp [pwFold]; rfl
    | cons y ys =>
      simp only [List.map_cons, pwFold, List.zipWith_cons_cons, List.sum_cons]
      have : (euclidean K).reduce (fin t) (fin x) (fin y) = fin (t + (x - y) ^ 2) := by
        simp [euclidean, eucDist_fin]
      rw [this, ih, add_assoc]

theorem pwFold_manhattan (t : K) (a b : List K) :
    pwFold (manhattan K) (fin t) (a.map fin) (b.map fin) =
      fin (t + (List.zipWith (fun x y => |x - y|) a b).sum) := by
  induction a generalizing t b with
  | nil => simp [pwFold]; rfl
  | cons x xs ih =>
    cases b with
    | nil => simp [pwFold]; rfl
    | cons y ys =>
      simp only [List.map_cons, pwFold, List.zipWith_cons_cons, List.sum_cons]
      have : (manhattan K).reduce (fin t) (fin x) (fin y) = fin (t + |x - y|) := by
        simp [manhattan, abs_fin]
      rw [this, ih, add_assoc]

theorem pwFold_chebyshev (t : K) (ht : 0 ≤ t) (a b : List K) :
    pwFold (chebyshev K) (fin t) (a.map fin) (b.map fin) =
      fin (max t ((List.zipWith (fun x y => |x - y|) a b).foldr max 0)) := by
  induction a generalizing t b with
  | nil => simp [pwFold, ht]; rfl
  | cons x xs ih =>
    cases b with
    | nil => simp [pwFold, ht]; rfl
    | cons y ys =>
      simp only [List.map_cons, pwFold, List.zipWith_cons_cons, List.foldr_cons]
      have : (chebyshev K).reduce (fin t) (fin x) (fin y) = fin (max t |x - y|) := by
        simp [chebyshev, abs_fin, stdMax_fin]
      rw [this, ih _ (le_trans ht (le_max_left _ _)), max_assoc]

theorem pwFold_chebyshev_init (a b : List K) (ha : a ≠ []) (hb : b ≠ []) :
    pwFold (chebyshev K) .ninf (a.map fin) (b.map fin) =
      fin ((List.zipWith (fun x y => |x - y|) a b).foldr max 0) := by
  cases a with
  | nil => exact absurd rfl ha
  | cons x xs =>
    cases b with
    | nil => exact absurd rfl hb
    | cons y ys =>
      simp only [List.map_cons, pwFold, List.zipWith_cons_cons, List.foldr_cons]
      have : (chebyshev K).reduce .ninf (fin x) (fin y) = fin |x - y| := by
        simp [chebyshev, abs_fin, stdMax]
      rw [this, pwFold_chebyshev _ (abs_nonneg _)]

theorem sumsq_nonneg (a b : List K) : 0 ≤ (List.zipWith (fun x y => (x - y) ^ 2) a b).sum := by
  induction a generalizing b with
  | nil => simp
  | cons x xs ih =>
    cases b with
    | nil => simp
    | cons y ys => simp only [List.zipWith_cons_cons, List.sum_cons]; exact add_nonneg (sq_nonneg _) (ih ys)

theorem sumabs_nonneg (a b : List K) : 0 ≤ (List.zipWith (fun x y => |x - y|) a b).sum := by
  induction a generalizing b with
  | nil => simp
  | cons x xs ih =>
    cases b with
    | nil => simp
    | cons y ys => simp only [List.zipWith_cons_cons, List.sum_cons]; exact add_nonneg (abs_nonneg _) (ih ys)

theorem maxabs_nonneg (a b : List K) : 0 ≤ maxAbs a b := by
  unfold maxAbs
  induction a generalizing b with
  | nil => simp
  | cons x xs ih =>
    cases b with
    | nil => simp
    | cons y ys =>
      simp only [List.zipWith_cons_cons, List.foldr_cons]
      exact le_trans (abs_nonneg _) (le_max_left _ _)

/-! ## Values without a bound -/

theorem pairwise_unbounded (M : DM K) (a b : List K) (hl : a.length = b.length)
    (hinf : ∀ t : M.S, dropTest M .inf a.length b.length t = false) :
    pairwiseDistance M (a.map fin) (b.map fin) .inf =
      .ok (M.norm (pwFold M M.init (a.map fin) (b.map fin)) a.length b.length) := by
  unfold pairwiseDistance
  have hd : dropTest M (.inf : Dbl K) (a.map (fin (K := K))).length (b.map (fin (K := K))).length = fun _ => false := by
    funext t
    simpa using hinf t
  rw [hd, pairwiseLoop_false]
  simp [hl]

theorem inf_mul_inf_mul {n : ℕ} (h : 1 ≤ n) : (inf : Dbl K) * inf * Dbl.ofNat n = inf := by
  change Dbl.mul (Dbl.mul inf inf) (fin (n : K)) = inf
  have h1 : (0 : K) < (n : K) := by exact_mod_cast h
  simp [Dbl.mul, infTimes, ne_of_gt h1, h1]

theorem inf_mul_inf_mul_nlt (n : ℕ) (t : Dbl K) : ¬ (inf : Dbl K) * inf * Dbl.ofNat n < t := by
  rcases Nat.eq_zero_or_pos n with rfl | h
  · change ¬ Dbl.mul (Dbl.mul inf inf) (fin ((0 : ℕ) : K)) < t
    simp [Dbl.mul, infTimes]
  · rw [inf_mul_inf_mul h]; simp

theorem pairwise_euclidean [HasSqrt K] (a b : List K) (hl : a.length = b.length) (hp : 1 ≤ a.length) :
    pairwiseDistance (euclidean K) (a.map fin) (b.map fin) .inf = .ok (fin (rms a b)) := by
  rw [pairwise_unbounded _ _ _ hl]
  · have hn : (0 : K) < (a.length : K) := by exact_mod_cast hp
    have h1 : (euclidean K).init = fin 0 := rfl
    rw [h1, pwFold_euclidean]
    change Except.ok (Dbl.sqrt (fin _ / Dbl.ofNat (max a.length b.length))) = _
    rw [← hl, max_self, Dbl.ofNat, fin_div_fin (ne_of_gt hn), zero_add,
      sqrt_fin (div_nonneg (sumsq_nonneg a b) (le_of_lt hn)), rms]
  · intro t
    exact decide_eq_false (inf_mul_inf_mul_nlt _ _)

theorem pairwise_manhattan (a b : List K) (hl : a.length = b.length) (hp : 1 ≤ a.length) :
    pairwiseDistance (manhattan K) (a.map fin) (b.map fin) .inf = .ok (fin (meanAbs a b)) := by
  rw [pairwise_unbounded _ _ _ hl]
  · have hn : (0 : K) < (a.length : K) := by exact_mod_cast hp
    have h1 : (manhattan K).init = fin 0 := rfl
    rw [h1, pwFold_manhattan]
    change Except.ok (fin _ / Dbl.ofNat (max a.length b.length)) = _
    rw [← hl, max_self, Dbl.ofNat, fin_div_fin (ne_of_gt hn), zero_add, meanAbs]
  · intro t; exact decide_eq_false (inf_lt _).1

theorem pairwise_chebyshev (a b : List K) (hl : a.length = b.length) (hp : 1 ≤ a.length) :
    pairwiseDistance (chebyshev K) (a.map fin) (b.map fin) .inf = .ok (fin (maxAbs a b)) := by
  rw [pairwise_unbounded _ _ _ hl]
  · have ha : a ≠ [] := by rintro rfl; simp at hp
    have hb : b ≠ [] := by rintro rfl; rw [hl] at hp; simp at hp
    have h1 : (chebyshev K).init = .ninf := rfl
    rw [h1, pwFold_chebyshev_init a b ha hb]
    rfl
  · intro t; exact decide_eq_false (inf_lt _).1

/-! ## With a bound -/

theorem pairwise_dropWithin (M : DM K) (a b : List K) (hl : a.length = b.length) (d G : Dbl K)
    (hinf : ∀ t : M.S, dropTest M .inf a.length b.length t = false)
    (inv : M.S → Prop) (le : M.S → M.S → Prop)
    (hrefl : ∀ s, le s s) (htrans : ∀ s t u, le s t → le t u → le s u) (h0 : inv M.init)
    (hinv : ∀ s (x y : K), inv s → inv (M.reduce s (fin x) (fin y)))
    (hgrow : ∀ s (x y : K), inv s → le s (M.reduce s (fin x) (fin y)))
    (hdrop : ∀ t, 1 ≤ a.length → inv t → inv (pwFold M M.init (a.map fin) (b.map fin)) →
      le t (pwFold M M.init (a.map fin) (b.map fin)) → dropTest M d a.length b.length t = true → d < G) :
    ∃ F, pairwiseDistance M (a.map fin) (b.map fin) .inf = .ok F ∧
      F = M.norm (pwFold M M.init (a.map fin) (b.map fin)) a.length b.length ∧
      (pairwiseDistance M (a.map fin) (b.map fin) d = .ok F ∨
        (d < G ∧ pairwiseDistance M (a.map fin) (b.map fin) d = .ok .inf)) := by
  refine ⟨_, pairwise_unbounded M a b hl hinf, rfl, ?_⟩
  obtain ⟨⟨k1, k2⟩, k3⟩ := pairwiseLoop_spec M (dropTest M d a.length b.length)
      inv le hrefl htrans hinv hgrow M.init h0 a b
  unfold pairwiseDistance
  rw [if_neg (by simp [hl])]
  simp only [List.length_map]
  rcases k3 with h | ⟨t, u, h1, h2, h3, h4, h5⟩
  · left
    simp only [h]
    simp
  · right
    simp only [h1]
    refine ⟨?_, by simp⟩
    refine hdrop t ?_ h3 k1 h5 h2
    cases a with
    | nil => simp [pairwiseLoop] at h1
    | cons => simp

theorem pairwise_dropExact (M : DM K) (a b : List K) (hl : a.length = b.length) (d : Dbl K)
    (hinf : ∀ t : M.S, dropTest M .inf a.length b.length t = false)
    (inv : M.S → Prop) (le : M.S → M.S → Prop)
    (hrefl : ∀ s, le s s) (htrans : ∀ s t u, le s t → le t u → le s u) (h0 : inv M.init)
    (hinv : ∀ s (x y : K), inv s → inv (M.reduce s (fin x) (fin y)))
    (hgrow : ∀ s (x y : K), inv s → le s (M.reduce s (fin x) (fin y)))
    (hdrop : ∀ t u, 1 ≤ a.length → inv t → inv u → le t u → dropTest M d a.length b.length t = true →
      d < M.norm u a.length b.length) :
    ∃ F, pairwiseDistance M (a.map fin) (b.map fin) .inf = .ok F ∧
      (pairwiseDistance M (a.map fin) (b.map fin) d = .ok F ∨
        (d < F ∧ pairwiseDistance M (a.map fin) (b.map fin) d = .ok .inf)) := by
  obtain ⟨F, h1, rfl, h3⟩ := pairwise_dropWithin M a b hl d _ hinf inv le hrefl htrans h0 hinv hgrow
    (fun t hp ht hu hle h => hdrop t _ hp ht hu hle h)
  exact ⟨_, h1, h3⟩

/-- `le` used for the metrics whose accumulator is a double. -/
def leFin (s t : Dbl K) : Prop := s = t ∨ s ≤ t

theorem leFin_trans (s t u : Dbl K) (h : leFin s t) (h' : leFin t u) : leFin s u := by
  rcases h with rfl | h
  · exact h'
  · rcases h' with rfl | h'
    · exact Or.inr h
    · exact Or.inr (Dbl.le_trans h h')

theorem leFin_fin {x y : K} (h : leFin (fin x) (fin y)) : x ≤ y := by
  rcases h with h | h
  · injection h with h; exact le_of_eq h
  · simpa using h

theorem drop_manhattan (a b : List K) (hl : a.length = b.length) (d : Dbl K) :
    ∃ F, pairwiseDistance (manhattan K) (a.map fin) (b.map fin) .inf = .ok F ∧
      (pairwiseDistance (manhattan K) (a.map fin) (b.map fin) d = .ok F ∨
        (d < F ∧ pairwiseDistance (manhattan K) (a.map fin) (b.map fin) d = .ok .inf)) := by
  refine pairwise_dropExact _ a b hl d (fun t => decide_eq_false (inf_lt _).1)
    (fun s => ∃ x : K, s = fin x) leFin (fun _ => Or.inl rfl) leFin_trans ⟨0, rfl⟩ ?_ ?_ ?_
  · rintro s x y ⟨t, rfl⟩
    exact ⟨t + |x - y|, by simp [manhattan, abs_fin]⟩
  · rintro s x y ⟨t, rfl⟩
    right
    simp only [manhattan, abs_sub_fin, fin_add_fin, fin_le_fin]
    exact le_add_of_nonneg_right (abs_nonneg _)
  · rintro s u hp ⟨t, rfl⟩ ⟨v, rfl⟩ hle h
    have hn : (0 : K) < (a.length : K) := by exact_mod_cast hp
    replace h : d < fin t / Dbl.ofNat (max a.length b.length) := of_decide_eq_true h
    change d < fin v / Dbl.ofNat (max a.length b.length)
    rw [← hl, max_self, Dbl.ofNat, fin_div_fin (ne_of_gt hn)] at h ⊢
    refine Dbl.lt_of_lt_of_le h ?_
    rw [fin_le_fin]
    exact div_le_div_of_nonneg_right (leFin_fin hle) (le_of_lt hn)

theorem drop_chebyshev (a b : List K) (hl : a.length = b.length) (d : Dbl K) :
    ∃ F, pairwiseDistance (chebyshev K) (a.map fin) (b.map fin) .inf = .ok F ∧
      (pairwiseDistance (chebyshev K) (a.map fin) (b.map fin) d = .ok F ∨
        (d < F ∧ pairwiseDistance (chebyshev K) (a.map fin) (b.map fin) d = .ok .inf)) := by
  refine pairwise_dropExact _ a b hl d (fun t => decide_eq_false (inf_lt _).1)
    (fun s => s = .ninf ∨ ∃ x : K, s = fin x) leFin (fun _ => Or.inl rfl) leFin_trans (Or.inl rfl) ?_ ?_ ?_
  · rintro s x y (rfl | ⟨t, rfl⟩)
    · exact Or.inr ⟨|x - y|, by simp [chebyshev, abs_fin, stdMax]⟩
    · exact Or.inr ⟨max t |x - y|, by simp [chebyshev, abs_fin, stdMax_fin]⟩
  · rintro s x y (rfl | ⟨t, rfl⟩)
    · right
      simp [chebyshev, abs_fin, stdMax, le_def]
    · right
      simp only [chebyshev, abs_sub_fin, stdMax_fin, fin_le_fin]
      exact le_max_left _ _
  · intro s u hp hs hu hle h
    change Dbl K at s u
    replace h : d < s := of_decide_eq_true h
    change d < u
    rcases hle with rfl | hle
    · exact h
    · exact Dbl.lt_of_lt_of_le h hle

theorem drop_euclidean [HasSqrt K] [LawfulSqrt K] (a b : List K) (hl : a.length = b.length) (d : Dbl K) :
    ∃ F, pairwiseDistance (euclidean K) (a.map fin) (b.map fin) .inf = .ok F ∧
      (pairwiseDistance (euclidean K) (a.map fin) (b.map fin) d = .ok F ∨
        (d < F ∧ pairwiseDistance (euclidean K) (a.map fin) (b.map fin) d = .ok .inf)) := by
  refine pairwise_dropExact _ a b hl d (fun t => decide_eq_false (inf_mul_inf_mul_nlt _ _))
    (fun s => ∃ x : K, 0 ≤ x ∧ s = fin x) leFin (fun _ => Or.inl rfl) leFin_trans ⟨0, le_refl _, rfl⟩ ?_ ?_ ?_
  · rintro s x y ⟨t, ht, rfl⟩
    exact ⟨t + (x - y) ^ 2, add_nonneg ht (sq_nonneg _), by simp [euclidean, eucDist_fin]⟩
  · rintro s x y ⟨t, ht, rfl⟩
    right
    simp only [euclidean, eucDist_fin, fin_add_fin, fin_le_fin]
    exact le_add_of_nonneg_right (sq_nonneg _)
  · rintro s u hp ⟨t, ht, rfl⟩ ⟨v, hv, rfl⟩ hle h
    have hn : (0 : K) < (a.length : K) := by exact_mod_cast hp
    have hle' := leFin_fin hle
    replace h : d * d * Dbl.ofNat (max a.length b.length) < fin t := of_decide_eq_true h
    change d < Dbl.sqrt (fin v / Dbl.ofNat (max a.length b.length))
    rw [← hl, max_self] at h ⊢
    cases d with
    | inf => exact absurd h (inf_mul_inf_mul_nlt _ _)
    | nan => exact absurd h ((nan_lt _).1)
    | ninf =>
      have : (ninf : Dbl K) * ninf = inf * inf := rfl
      rw [this] at h
      exact absurd h (inf_mul_inf_mul_nlt _ _)
    | fin x =>
      rw [Dbl.ofNat, fin_mul_fin, fin_mul_fin, fin_lt_fin] at h
      have hdiv : 0 ≤ v / (a.length : K) := div_nonneg hv (le_of_lt hn)
      rw [Dbl.ofNat, fin_div_fin (ne_of_gt hn), sqrt_fin hdiv, fin_lt_fin]
      have h1 : x * x < v / (a.length : K) := by
        rw [lt_div_iff₀ hn]; exact lt_of_lt_of_le h hle'
      have h2 := LawfulSqrt.mul_self hdiv
      have h3 := LawfulSqrt.sqrt_nonneg hdiv
      by_contra hc
      rw [_root_.not_lt] at hc
      have := mul_le_mul hc hc h3 (le_trans h3 hc)
      rw [h2] at this
      exact absurd h1 (_root_.not_lt.2 this)

end Genex
