import Verif.Lemmas.Pairwise
import Mathlib.Tactic.Ring
import Mathlib.Algebra.Order.BigOperators.Group.List

/-! # Metric laws of the three textbook distances -/

set_option linter.unusedSectionVars false

namespace Genex

open Spec

variable {K : Type} [Field K] [LinearOrder K] [IsStrictOrderedRing K]

theorem zipWith_symm {f : K → K → K} (hf : ∀ x y, f x y = f y x) (a b : List K) :
    List.zipWith f a b = List.zipWith f b a := by
  induction a generalizing b with
  | nil => simp
  | cons x xs ih => cases b with
    | nil => simp
    | cons y ys => simp [hf x y, ih ys]

theorem sumsq_eq_zero : ∀ {a b : List K}, a.length = b.length →
    ((List.zipWith (fun x y => (x - y) ^ 2) a b).sum = 0 ↔ a = b)
  | [], [], _ => by simp
  | x :: xs, y :: ys, h => by
    have ih := sumsq_eq_zero (a := xs) (b := ys) (by simpa using h)
    simp only [List.zipWith_cons_cons, List.sum_cons, List.cons.injEq]
    rw [add_eq_zero_iff_of_nonneg (sq_nonneg _) (sumsq_nonneg _ _), ih]
    simp [sub_eq_zero]

theorem sumabs_eq_zero : ∀ {a b : List K}, a.length = b.length →
    ((List.zipWith (fun x y => |x - y|) a b).sum = 0 ↔ a = b)
  | [], [], _ => by simp
  | x :: xs, y :: ys, h => by
    have ih := sumabs_eq_zero (a := xs) (b := ys) (by simpa using h)
    simp only [List.zipWith_cons_cons, List.sum_cons, List.cons.injEq]
    rw [add_eq_zero_iff_of_nonneg (abs_nonneg _) (sumabs_nonneg _ _), ih]
    simp [sub_eq_zero]

theorem maxabs_eq_zero : ∀ {a b : List K}, a.length = b.length → (maxAbs a b = 0 ↔ a = b)
  | [], [], _ => by simp [maxAbs]
  | x :: xs, y :: ys, h => by
    have ih := maxabs_eq_zero (a := xs) (b := ys) (by simpa using h)
    have h0 := maxabs_nonneg xs ys
    have h1 : maxAbs (x :: xs) (y :: ys) = max |x - y| (maxAbs xs ys) := rfl
    rw [h1, List.cons.injEq, ← ih]
    constructor
    · intro h
      have h2 := le_max_left |x - y| (maxAbs xs ys)
      have h3 := le_max_right |x - y| (maxAbs xs ys)
      rw [h] at h2 h3
      exact ⟨by simpa [sub_eq_zero] using h2, le_antisymm h3 h0⟩
    · rintro ⟨rfl, h2⟩
      simp [h2]

theorem sumabs_triangle : ∀ {a b c : List K}, a.length = b.length → b.length = c.length →
    (List.zipWith (fun x y => |x - y|) a c).sum ≤
      (List.zipWith (fun x y => |x - y|) a b).sum + (List.zipWith (fun x y => |x - y|) b c).sum
  | [], [], [], _, _ => by simp
  | x :: xs, y :: ys, z :: zs, h, h' => by
    have ih := sumabs_triangle (a := xs) (b := ys) (c := zs) (by simpa using h) (by simpa using h')
    simp only [List.zipWith_cons_cons, List.sum_cons]
    have := abs_sub_le x y z
    linarith

theorem maxabs_triangle : ∀ {a b c : List K}, a.length = b.length → b.length = c.length →
    maxAbs a c ≤ maxAbs a b + maxAbs b c
  | [], [], [], _, _ => by simp [maxAbs]
  | x :: xs, y :: ys, z :: zs, h, h' => by
    have ih := maxabs_triangle (a := xs) (b := ys) (c := zs) (by simpa using h) (by simpa using h')
    have h1 : ∀ (x y : K) (xs ys : List K), maxAbs (x :: xs) (y :: ys) = max |x - y| (maxAbs xs ys) := fun _ _ _ _ => rfl
    rw [h1, h1, h1]
    apply max_le
    · exact le_trans (abs_sub_le x y z) (add_le_add (le_max_left _ _) (le_max_left _ _))
    · exact le_trans ih (add_le_add (le_max_right _ _) (le_max_right _ _))

section
variable [HasSqrt K] [LawfulSqrt K]
open HasSqrt

theorem le_of_sq_le {x y : K} (hy : 0 ≤ y) (h : x * x ≤ y * y) : x ≤ y := by
  by_contra hc
  rw [_root_.not_le] at hc
  have := mul_lt_mul'' hc hc hy hy
  exact absurd h (_root_.not_le.2 this)

/-- Two-dimensional Minkowski. -/
theorem mink2 {A B C u v w P Q : K} (hA : 0 ≤ A) (hB : 0 ≤ B) (hC : 0 ≤ C) (hP : 0 ≤ P) (hQ : 0 ≤ Q)
    (h : C ≤ A + B) (hP2 : P * P = A * A + u ^ 2) (hQ2 : Q * Q = B * B + v ^ 2) (hw : w = u + v) :
    C * C + w ^ 2 ≤ (P + Q) * (P + Q) := by
  have h1 : A * B + u * v ≤ P * Q := by
    apply le_of_sq_le (mul_nonneg hP hQ)
    have : P * Q * (P * Q) = (A * A + u ^ 2) * (B * B + v ^ 2) := by rw [← hP2, ← hQ2]; ring
    rw [this]
    nlinarith [sq_nonneg (A * v - B * u)]
  have h2 : C * C ≤ (A + B) * (A + B) := mul_le_mul h h hC (add_nonneg hA hB)
  rw [hw]
  nlinarith

theorem sumsq_triangle : ∀ {a b c : List K}, a.length = b.length → b.length = c.length →
    sqrt (List.zipWith (fun x y => (x - y) ^ 2) a c).sum ≤
      sqrt (List.zipWith (fun x y => (x - y) ^ 2) a b).sum + sqrt (List.zipWith (fun x y => (x - y) ^ 2) b c).sum
  | [], [], [], _, _ => by simp [sqrt_zero']
  | x :: xs, y :: ys, z :: zs, h, h' => by
    have ih := sumsq_triangle (a := xs) (b := ys) (c := zs) (by simpa using h) (by simpa using h')
    simp only [List.zipWith_cons_cons, List.sum_cons]
    have a0 := sumsq_nonneg xs ys
    have b0 := sumsq_nonneg ys zs
    have c0 := sumsq_nonneg xs zs
    have a1 := add_nonneg (sq_nonneg (x - y)) a0
    have b1 := add_nonneg (sq_nonneg (y - z)) b0
    have c1 := add_nonneg (sq_nonneg (x - z)) c0
    apply le_of_sq_le (add_nonneg (LawfulSqrt.sqrt_nonneg a1) (LawfulSqrt.sqrt_nonneg b1))
    rw [LawfulSqrt.mul_self c1]
    have := mink2 (u := x - y) (v := y - z) (w := x - z) (LawfulSqrt.sqrt_nonneg a0) (LawfulSqrt.sqrt_nonneg b0)
      (LawfulSqrt.sqrt_nonneg c0) (LawfulSqrt.sqrt_nonneg a1) (LawfulSqrt.sqrt_nonneg b1) ih
      (by rw [LawfulSqrt.mul_self a1, LawfulSqrt.mul_self a0]; ring)
      (by rw [LawfulSqrt.mul_self b1, LawfulSqrt.mul_self b0]; ring) (by ring)
    rw [LawfulSqrt.mul_self c0] at this
    linarith

theorem sqrt_div {x y : K} (hx : 0 ≤ x) (hy : 0 < y) : sqrt (x / y) = sqrt x / sqrt y := by
  have hxy := div_nonneg hx (le_of_lt hy)
  have hsy : 0 < sqrt y := lt_of_le_of_ne (LawfulSqrt.sqrt_nonneg (le_of_lt hy)) (fun h => by
    rw [eq_comm, sqrt_eq_zero_iff (le_of_lt hy)] at h; exact ne_of_gt hy h)
  rw [eq_div_iff (ne_of_gt hsy)]
  have h1 := LawfulSqrt.mul_self hxy
  have h2 := LawfulSqrt.mul_self hx
  have h3 := LawfulSqrt.mul_self (le_of_lt hy)
  apply le_antisymm
  · apply le_of_sq_le (LawfulSqrt.sqrt_nonneg hx)
    rw [h2, mul_mul_mul_comm, h1, h3, div_mul_cancel₀ _ (ne_of_gt hy)]
  · apply le_of_sq_le (mul_nonneg (LawfulSqrt.sqrt_nonneg hxy) (le_of_lt hsy))
    rw [h2, mul_mul_mul_comm, h1, h3, div_mul_cancel₀ _ (ne_of_gt hy)]

end

end Genex
