import Verif.Model.Dbl

/-! Order facts about `Dbl`. -/

set_option linter.unusedSectionVars false

namespace Genex.Dbl

variable {K : Type} [LinearOrder K]

@[simp] theorem fin_lt_fin {a b : K} : (fin a < fin b) ↔ a < b := Iff.rfl
@[simp] theorem fin_lt_inf {a : K} : (fin a < (inf : Dbl K)) ↔ True := Iff.rfl
@[simp] theorem ninf_lt_fin {a : K} : ((ninf : Dbl K) < fin a) ↔ True := Iff.rfl
@[simp] theorem ninf_lt_inf : ((ninf : Dbl K) < inf) ↔ True := Iff.rfl
@[simp] theorem inf_lt (a : Dbl K) : (inf < a) ↔ False := by cases a <;> exact Iff.rfl
@[simp] theorem nan_lt (a : Dbl K) : (nan < a) ↔ False := by cases a <;> exact Iff.rfl
@[simp] theorem lt_nan (a : Dbl K) : (a < nan) ↔ False := by cases a <;> exact Iff.rfl
@[simp] theorem lt_ninf (a : Dbl K) : (a < ninf) ↔ False := by cases a <;> exact Iff.rfl

theorem lt_irrefl (a : Dbl K) : ¬ a < a := by cases a <;> simp

theorem lt_trans {a b c : Dbl K} (h : a < b) (h' : b < c) : a < c := by
  cases a <;> cases b <;> cases c <;> simp_all
  exact _root_.lt_trans h h'

theorem lt_asymm {a b : Dbl K} (h : a < b) : ¬ b < a := fun h' => lt_irrefl _ (lt_trans h h')

theorem lt_trichotomy {a b : Dbl K} (ha : a ≠ nan) (hb : b ≠ nan) : a < b ∨ a = b ∨ b < a := by
  cases a <;> cases b <;> simp_all
  exact _root_.lt_trichotomy _ _

theorem le_def {a b : Dbl K} : a ≤ b ↔ a < b ∨ (a = b ∧ a ≠ nan) := Iff.rfl

@[simp] theorem fin_le_fin {a b : K} : (fin a ≤ fin b) ↔ a ≤ b := by
  simp [le_def, _root_.le_iff_lt_or_eq]

@[simp] theorem fin_le_inf {a : K} : (fin a ≤ (inf : Dbl K)) ↔ True := by simp [le_def]
@[simp] theorem inf_le_fin {a : K} : ((inf : Dbl K) ≤ fin a) ↔ False := by simp [le_def]
@[simp] theorem inf_le_inf : ((inf : Dbl K) ≤ inf) ↔ True := by simp [le_def]

theorem le_refl {a : Dbl K} (h : a ≠ nan) : a ≤ a := Or.inr ⟨rfl, h⟩

theorem not_lt {a b : Dbl K} (ha : a ≠ nan) (hb : b ≠ nan) : ¬ a < b ↔ b ≤ a := by
  constructor
  · intro h
    rcases lt_trichotomy ha hb with h' | h' | h'
    · exact absurd h' h
    · exact Or.inr ⟨h'.symm, hb⟩
    · exact Or.inl h'
  · rintro (h | ⟨rfl, -⟩)
    · exact lt_asymm h
    · exact lt_irrefl _

theorem not_le {a b : Dbl K} (ha : a ≠ nan) (hb : b ≠ nan) : ¬ a ≤ b ↔ b < a := by
  rw [← not_lt hb ha]; simp

theorem lt_of_le_of_lt {a b c : Dbl K} (h : a ≤ b) (h' : b < c) : a < c := by
  rcases h with h | ⟨rfl, -⟩
  · exact lt_trans h h'
  · exact h'

theorem lt_of_lt_of_le {a b c : Dbl K} (h : a < b) (h' : b ≤ c) : a < c := by
  rcases h' with h' | ⟨rfl, -⟩
  · exact lt_trans h h'
  · exact h

theorem le_trans {a b c : Dbl K} (h : a ≤ b) (h' : b ≤ c) : a ≤ c := by
  rcases h with h | ⟨rfl, -⟩
  · exact Or.inl (lt_of_lt_of_le h h')
  · exact h'

theorem le_of_lt {a b : Dbl K} (h : a < b) : a ≤ b := Or.inl h

theorem le_antisymm {a b : Dbl K} (h : a ≤ b) (h' : b ≤ a) : a = b := by
  rcases h with h | ⟨rfl, -⟩
  · exact absurd (lt_of_lt_of_le h h') (lt_irrefl _)
  · rfl

theorem le_total {a b : Dbl K} (ha : a ≠ nan) (hb : b ≠ nan) : a ≤ b ∨ b ≤ a := by
  rcases lt_trichotomy ha hb with h | rfl | h
  · exact Or.inl (Or.inl h)
  · exact Or.inl (le_refl ha)
  · exact Or.inr (Or.inl h)

theorem ne_nan_of_le_left {a b : Dbl K} (h : a ≤ b) : a ≠ nan := by
  rintro rfl; rcases h with h | ⟨-, h⟩
  · simp at h
  · exact h rfl

theorem ne_nan_of_le_right {a b : Dbl K} (h : a ≤ b) : b ≠ nan := by
  rintro rfl; rcases h with h | ⟨h, h'⟩
  · simp at h
  · exact h' h

theorem ne_nan_of_lt_left {a b : Dbl K} (h : a < b) : a ≠ nan := by rintro rfl; simp at h
theorem ne_nan_of_lt_right {a b : Dbl K} (h : a < b) : b ≠ nan := by rintro rfl; simp at h

theorem le_inf {a : Dbl K} (h : a ≠ nan) : a ≤ inf := by
  cases a <;> simp_all [le_def]

theorem stdMin_ne_nan {a b : Dbl K} (ha : a ≠ nan) (hb : b ≠ nan) : stdMin a b ≠ nan := by
  unfold stdMin; split <;> assumption

theorem stdMin_le_left {a b : Dbl K} (ha : a ≠ nan) : stdMin a b ≤ a := by
  unfold stdMin; split
  · exact le_of_lt ‹_›
  · exact le_refl ha

theorem stdMin_le_right {a b : Dbl K} (ha : a ≠ nan) (hb : b ≠ nan) : stdMin a b ≤ b := by
  unfold stdMin; split
  · exact le_refl hb
  · exact (not_lt hb ha).1 ‹_›

theorem stdMin_eq (a b : Dbl K) : stdMin a b = a ∨ stdMin a b = b := by
  unfold stdMin; split <;> simp

theorem stdMax_fin (a b : K) : stdMax (fin a) (fin b) = fin (max a b) := by
  unfold stdMax; split
  · rename_i h; simp at h; rw [max_eq_right (_root_.le_of_lt h)]
  · rename_i h; simp at h; simp [h]

section arith
variable {K : Type} [Field K] [LinearOrder K]

@[simp] theorem fin_add_fin (a b : K) : fin a + fin b = fin (a + b) := rfl
@[simp] theorem fin_sub_fin (a b : K) : fin a - fin b = fin (a - b) := by
  change fin (a + -b) = _; rw [sub_eq_add_neg]
@[simp] theorem fin_mul_fin (a b : K) : fin a * fin b = fin (a * b) := rfl
theorem zero_def : (0 : Dbl K) = fin 0 := rfl
theorem fin_div_fin {a b : K} (h : b ≠ 0) : fin a / fin b = fin (a / b) := by
  change div _ _ = _; simp [div, h]
theorem abs_fin [IsStrictOrderedRing K] (a : K) : abs (fin a) = fin |a| := by
  unfold abs
  split <;> simp_all
  split
  · rename_i h; exact (_root_.abs_of_neg h).symm
  · rename_i h; exact (_root_.abs_of_nonneg (_root_.not_lt.1 h)).symm
theorem sqrt_fin [HasSqrt K] {a : K} (h : 0 ≤ a) : sqrt (fin a) = fin (HasSqrt.sqrt a) := by
  simp [sqrt, h]

end arith

end Genex.Dbl

namespace Genex

/-- Laws of the square root, satisfied by the real one. -/
class LawfulSqrt (K : Type) [Field K] [LinearOrder K] [HasSqrt K] : Prop where
  sqrt_nonneg : ∀ {x : K}, 0 ≤ x → 0 ≤ HasSqrt.sqrt x
  mul_self : ∀ {x : K}, 0 ≤ x → HasSqrt.sqrt x * HasSqrt.sqrt x = x

instance : LawfulSqrt ℝ where
  sqrt_nonneg := fun _ => Real.sqrt_nonneg _
  mul_self := fun h => Real.mul_self_sqrt h

section
variable {K : Type} [Field K] [LinearOrder K] [IsStrictOrderedRing K] [HasSqrt K] [LawfulSqrt K]
open HasSqrt

theorem sqrt_le_sqrt_iff {x y : K} (hx : 0 ≤ x) (hy : 0 ≤ y) : sqrt x ≤ sqrt y ↔ x ≤ y := by
  have h1 := LawfulSqrt.mul_self hx
  have h2 := LawfulSqrt.mul_self hy
  have h3 := LawfulSqrt.sqrt_nonneg hx
  have h4 := LawfulSqrt.sqrt_nonneg hy
  constructor
  · intro h; rw [← h1, ← h2]; exact mul_le_mul h h h3 h4
  · intro h
    by_contra hc
    rw [_root_.not_le] at hc
    have := mul_lt_mul'' hc hc h4 h4
    rw [h1, h2] at this
    exact absurd h (_root_.not_le.2 this)

theorem sqrt_zero' : sqrt (0 : K) = 0 := by
  have := LawfulSqrt.mul_self (le_refl (0 : K))
  exact mul_self_eq_zero.1 this

theorem sqrt_eq_zero_iff {x : K} (hx : 0 ≤ x) : sqrt x = 0 ↔ x = 0 := by
  constructor
  · intro h; rw [← LawfulSqrt.mul_self hx, h, zero_mul]
  · rintro rfl; exact sqrt_zero'

end

end Genex
