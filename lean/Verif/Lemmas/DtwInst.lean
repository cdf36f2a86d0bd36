import Verif.Lemmas.DtwOpt
import Mathlib.Order.Bounds.Basic

/-!
# The three sum/max metrics satisfy the laws of `Mono`
-/

set_option linter.unusedSectionVars false

namespace Genex

open Dbl Spec

variable {K : Type} [Field K] [LinearOrder K] [IsStrictOrderedRing K]

/-- Finite part of a double, `0` for the special values. -/
def Dbl.toFin {K : Type} [Zero K] : Dbl K → K
  | fin x => x
  | _ => 0

@[simp] theorem Dbl.toFin_fin (x : K) : (fin x).toFin = x := rfl

theorem eucDist_fin (x y : K) : eucDist (fin x) (fin y) = fin ((x - y) ^ 2) := by
  simp [eucDist, sq]

theorem abs_sub_fin (x y : K) : Dbl.abs (fin x - fin y) = fin |x - y| := by
  rw [fin_sub_fin, abs_fin]

theorem maxlen_pos {m n : ℕ} (h : 1 ≤ max m n) : (0 : K) < ((2 * max m n : ℕ) : K) := by
  exact_mod_cast (by omega : 0 < 2 * max m n)

/-- Laws for `Euclidean`. -/
noncomputable def monoEuclidean [HasSqrt K] [LawfulSqrt K] {m n : ℕ} (h : 1 ≤ max m n) : Mono (euclidean K) m n where
  dom := fun _ _ => True
  all := fun _ _ => trivial
  ok := fun s => ∃ x : K, 0 ≤ x ∧ s = fin x
  val := fun s => HasSqrt.sqrt (Dbl.toFin s) / ((2 * max m n : ℕ) : K)
  ok_first := fun x y _ => ⟨(x - y) ^ 2, sq_nonneg _, by
    simp [euclidean, eucDist_fin, zero_def]⟩
  ok_step := by
    rintro s x y - ⟨t, ht, rfl⟩
    exact ⟨t + (x - y) ^ 2, add_nonneg ht (sq_nonneg _), by simp [euclidean, eucDist_fin]⟩
  norm_val := by
    rintro s ⟨t, ht, rfl⟩
    simp only [euclidean, eucNormDTW, Dbl.ofNat, sqrt_fin ht, Dbl.toFin_fin]
    exact fin_div_fin (ne_of_gt (maxlen_pos h))
  infl := by
    rintro s x y ⟨t, ht, rfl⟩
    simp only [euclidean, eucDist_fin, fin_add_fin, Dbl.toFin_fin]
    have h1 : 0 ≤ (x - y) ^ 2 := sq_nonneg _
    exact div_le_div_of_nonneg_right ((sqrt_le_sqrt_iff ht (add_nonneg ht h1)).2 (le_add_of_nonneg_right h1))
      (le_of_lt (maxlen_pos h))
  mono := by
    rintro s s' x y ⟨t, ht, rfl⟩ ⟨t', ht', rfl⟩ hle
    simp only [euclidean, eucDist_fin, fin_add_fin, Dbl.toFin_fin] at hle ⊢
    have h1 : 0 ≤ (x - y) ^ 2 := sq_nonneg _
    rw [div_le_div_iff_of_pos_right (maxlen_pos h), sqrt_le_sqrt_iff ht ht'] at hle
    rw [div_le_div_iff_of_pos_right (maxlen_pos h), sqrt_le_sqrt_iff (add_nonneg ht h1) (add_nonneg ht' h1)]
    exact add_le_add_left hle _

/-- Laws for `Manhattan`. -/
def monoManhattan {m n : ℕ} (h : 1 ≤ max m n) : Mono (manhattan K) m n where
  dom := fun _ _ => True
  all := fun _ _ => trivial
  ok := fun s => ∃ x : K, s = fin x
  val := fun s => Dbl.toFin s / ((2 * max m n : ℕ) : K)
  ok_first := fun x y _ => ⟨|x - y|, by simp [manhattan, abs_fin, zero_def]⟩
  ok_step := by
    rintro s x y - ⟨t, rfl⟩
    exact ⟨t + |x - y|, by simp [manhattan, abs_fin]⟩
  norm_val := by
    rintro s ⟨t, rfl⟩
    simp only [manhattan, Dbl.ofNat, Dbl.toFin_fin]
    exact fin_div_fin (ne_of_gt (maxlen_pos h))
  infl := by
    rintro s x y ⟨t, rfl⟩
    simp only [manhattan, abs_sub_fin, fin_add_fin, Dbl.toFin_fin]
    exact div_le_div_of_nonneg_right (le_add_of_nonneg_right (abs_nonneg _)) (le_of_lt (maxlen_pos h))
  mono := by
    rintro s s' x y ⟨t, rfl⟩ ⟨t', rfl⟩ hle
    simp only [manhattan, abs_sub_fin, fin_add_fin, Dbl.toFin_fin] at hle ⊢
    rw [div_le_div_iff_of_pos_right (maxlen_pos h)] at hle ⊢
    exact add_le_add_left hle _

/-- Laws for `Chebyshev`. -/
def monoChebyshev {m n : ℕ} : Mono (chebyshev K) m n where
  dom := fun _ _ => True
  all := fun _ _ => trivial
  ok := fun s => ∃ x : K, s = fin x
  val := fun s => Dbl.toFin s
  ok_first := fun x y _ => ⟨|x - y|, by simp [chebyshev, abs_fin, stdMax]⟩
  ok_step := by
    rintro s x y - ⟨t, rfl⟩
    exact ⟨max t |x - y|, by simp [chebyshev, abs_fin, stdMax_fin]⟩
  norm_val := by
    rintro s ⟨t, rfl⟩
    rfl
  infl := by
    rintro s x y ⟨t, rfl⟩
    simp only [chebyshev, abs_sub_fin, stdMax_fin, Dbl.toFin_fin]
    exact le_max_left _ _
  mono := by
    rintro s s' x y ⟨t, rfl⟩ ⟨t', rfl⟩ hle
    simp only [chebyshev, abs_sub_fin, stdMax_fin, Dbl.toFin_fin] at hle ⊢
    exact max_le_max_right _ hle

/-! ## Accumulators are the costs of the specification -/

theorem sqCost_snoc (a b : List K) (p : List (ℕ × ℕ)) (c : ℕ × ℕ) :
    sqCost a b (p ++ [c]) = sqCost a b p + (a.getD c.1 0 - b.getD c.2 0) ^ 2 := by
  simp [sqCost, diffs]

theorem absCost_snoc (a b : List K) (p : List (ℕ × ℕ)) (c : ℕ × ℕ) :
    absCost a b (p ++ [c]) = absCost a b p + |a.getD c.1 0 - b.getD c.2 0| := by
  simp [absCost, diffs]

theorem foldr_max_append (l : List K) (x : K) (_ : 0 ≤ x) : (l ++ [x]).foldr max 0 = max (l.foldr max 0) x := by
  induction l with
  | nil => simp [max_comm]
  | cons y l ih => simp only [List.cons_append, List.foldr_cons, ih, max_assoc]

theorem maxCost_snoc (a b : List K) (p : List (ℕ × ℕ)) (c : ℕ × ℕ) :
    maxCost a b (p ++ [c]) = max (maxCost a b p) |a.getD c.1 0 - b.getD c.2 0| := by
  unfold maxCost diffs
  rw [List.map_append, List.map_append]
  exact foldr_max_append _ _ (abs_nonneg _)

theorem sqCost_nonneg (a b : List K) (p : List (ℕ × ℕ)) : 0 ≤ sqCost a b p := by
  apply List.sum_nonneg
  intro x hx
  simp only [List.mem_map] at hx
  obtain ⟨y, -, rfl⟩ := hx
  exact sq_nonneg _

theorem absCost_nonneg (a b : List K) (p : List (ℕ × ℕ)) : 0 ≤ absCost a b p := by
  apply List.sum_nonneg
  intro x hx
  simp only [List.mem_map] at hx
  obtain ⟨y, -, rfl⟩ := hx
  exact abs_nonneg _

theorem maxCost_nonneg (a b : List K) (p : List (ℕ × ℕ)) : 0 ≤ maxCost a b p := by
  unfold maxCost
  cases h : (diffs a b p).map fun d => |d| with
  | nil => simp
  | cons x l =>
    have : x ∈ (diffs a b p).map fun d => |d| := by rw [h]; simp
    simp only [List.mem_map] at this
    obtain ⟨y, -, rfl⟩ := this
    simp only [List.foldr_cons]
    exact le_trans (abs_nonneg y) (le_max_left _ _)

theorem pathAcc_euclidean [HasSqrt K] (a b : List K) (p : List (ℕ × ℕ)) :
    pathAcc (euclidean K) a b p = fin (sqCost a b p) := by
  induction p using List.reverseRecOn with
  | nil => rfl
  | append_singleton p c ih =>
    rw [pathAcc_snoc, ih, sqCost_snoc]
    simp [euclidean, eucDist_fin]

theorem pathAcc_manhattan (a b : List K) (p : List (ℕ × ℕ)) :
    pathAcc (manhattan K) a b p = fin (absCost a b p) := by
  induction p using List.reverseRecOn with
  | nil => rfl
  | append_singleton p c ih =>
    rw [pathAcc_snoc, ih, absCost_snoc]
    simp [manhattan, abs_fin]

theorem pathAcc_chebyshev (a b : List K) (p : List (ℕ × ℕ)) (hp : p ≠ []) :
    pathAcc (chebyshev K) a b p = fin (maxCost a b p) := by
  induction p using List.reverseRecOn with
  | nil => exact absurd rfl hp
  | append_singleton p c ih =>
    rw [pathAcc_snoc, maxCost_snoc]
    by_cases h : p = []
    · subst h
      simp [pathAcc, chebyshev, abs_fin, stdMax, maxCost, diffs, abs_nonneg]
    · rw [ih h]
      simp [chebyshev, abs_fin, stdMax_fin]

theorem PathTo.ne_nil {c : ℕ × ℕ} {p : List (ℕ × ℕ)} (h : PathTo c p) : p ≠ [] := by
  rintro rfl; have := h.first; simp at this

theorem valE [HasSqrt K] [LawfulSqrt K] (a b : List K) (h : 1 ≤ max a.length b.length) (c : ℕ × ℕ)
    (p : List (ℕ × ℕ)) (_ : PathTo c p) : (monoEuclidean h).val (pathAcc (euclidean K) a b p) =
      HasSqrt.sqrt (sqCost a b p) / ((2 * max a.length b.length : ℕ) : K) := by
  rw [pathAcc_euclidean]; rfl

theorem valM (a b : List K) (h : 1 ≤ max a.length b.length) (c : ℕ × ℕ)
    (p : List (ℕ × ℕ)) (_ : PathTo c p) : (monoManhattan h).val (pathAcc (manhattan K) a b p) =
      absCost a b p / ((2 * max a.length b.length : ℕ) : K) := by
  rw [pathAcc_manhattan]; rfl

theorem valC (a b : List K) (c : ℕ × ℕ) (p : List (ℕ × ℕ)) (hp : PathTo c p) :
    (monoChebyshev (m := a.length) (n := b.length)).val (pathAcc (chebyshev K) a b p) = maxCost a b p := by
  rw [pathAcc_chebyshev _ _ _ hp.ne_nil]; rfl

/-! ## The band -/

theorem band_nonneg [BandOps] {ratio : ℚ} (hr : 0 ≤ ratio) {len : ℕ} (hl : 1 ≤ len) :
    band ratio (len : Int) = ((band ratio (len : Int)).toNat : Int) := by
  have h1 := Int.floor_nonneg.2 (BandOps.nonneg ratio len hr)
  unfold band
  omega

/-! ## Optimal value -/

/-- The value returned without a bound is the least value of an allowed alignment, or `INF`. -/
theorem warped_isLeast {M : DM K} {a b : List K} {r : ℕ} [BandOps] {ratio : ℚ} (L : Mono M a.length b.length)
    (V : List (ℕ × ℕ) → K) (hV : ∀ c p, PathTo c p → L.val (pathAcc M a b p) = V p)
    (hr : band ratio (max a.length b.length : ℕ) = (r : Int)) (hm : 1 ≤ a.length) (hn : 1 ≤ b.length) :
    (∃ x, warpedValue M ratio (a.map fin) (b.map fin) .inf = .ok (fin x) ∧
      IsLeast {v | ∃ p, Alignment a.length b.length p ∧ (∀ c ∈ p, Allowed a.length b.length r c.1 c.2) ∧ V p = v} x) ∨
    (warpedValue M ratio (a.map fin) (b.map fin) .inf = .ok .inf ∧
      ¬ ∃ p, Alignment a.length b.length p ∧ (∀ c ∈ p, Allowed a.length b.length r c.1 c.2)) := by
  by_cases hmn : a.length = 1 ∧ b.length = 1
  · left
    have ha : at' (a.map fin) 0 = fin (a.getD 0 0) := at'_map a 0 (by omega)
    have hb : at' (b.map fin) 0 = fin (b.getD 0 0) := at'_map b 0 (by omega)
    refine ⟨L.val (pathAcc M a b [(0, 0)]), ?_, ?_⟩
    · unfold warpedValue warpedDistance
      simp only [List.length_map, if_pos hmn, ha, hb]
      rw [L.norm_val _ (L.ok_first _ _ (L.all _ _))]
      rfl
    · have h11 : (a.length - 1, b.length - 1) = (0, 0) := by rw [hmn.1, hmn.2]
      constructor
      · refine ⟨[(0, 0)], ?_, ?_, (hV _ _ PathTo.single).symm⟩
        · rw [alignment_iff, h11]; exact PathTo.single
        · simp [Allowed, inB]
      · rintro v ⟨p, h1, -, rfl⟩
        rw [alignment_iff, h11] at h1
        rcases h1.cases with ⟨-, rfl⟩ | ⟨q, d, rfl, hq, hs⟩
        · exact le_of_eq (hV _ _ PathTo.single)
        · exfalso
          have : Step (d.1, d.2) (0, 0) := hs
          rw [step_iff] at this; omega
  · obtain ⟨mtF, f1, f2, -⟩ := warped_run L.toSafe (fun _ _ _ _ => L.all _ _) hr hm hn hmn
    have e1 : warpedValue M ratio (a.map fin) (b.map fin) .inf = .ok (mtF.ncost (a.length - 1) (b.length - 1)) := by
      unfold warpedValue; rw [f2]; rfl
    by_cases hal : Allowed a.length b.length r (a.length - 1) (b.length - 1)
    · left
      obtain ⟨p, h1, h2, h3, h4⟩ := attain f1 (a.length - 1) (b.length - 1) (by omega) (by omega) hal
      refine ⟨_, by rw [e1, h4], ⟨p, alignment_iff.2 h1, h2, (hV _ _ h1).symm⟩, ?_⟩
      rintro v ⟨q, k1, k2, rfl⟩
      rw [alignment_iff] at k1
      obtain ⟨s, g1, g2, g3⟩ := lower (L := L) f1 k1 (fun x hx => by
        have := k1.bound x hx
        exact ⟨by simp at this; omega, by simp at this; omega, k2 x hx⟩)
      rw [h3, Option.some.injEq] at g1
      subst g1
      rw [← hV _ _ k1]; exact g3
    · right
      refine ⟨by rw [e1, f1.corner hal], ?_⟩
      rintro ⟨p, k1, k2⟩
      exact hal (k2 _ (by
        have := k1.last
        exact List.mem_of_getLast? this))

theorem allowed_inBand {m n r : ℕ} (hm : 2 ≤ m) (hn : 2 ≤ n) (p : List (ℕ × ℕ)) :
    (∀ c ∈ p, Allowed m n r c.1 c.2) ↔ InBand r p := by
  unfold InBand Allowed inB
  constructor
  · intro h c hc; have := h c hc; omega
  · intro h c hc; have := h c hc; omega

end Genex
