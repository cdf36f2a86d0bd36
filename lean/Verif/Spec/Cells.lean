import Verif.Model.Cells

/-!
# Memory discipline, independent of how the cells are visited
-/

namespace Genex.Spec

/-- At every moment, no array has been deleted more often than made, and no cell has got a second array. -/
def DeletesOnce (evs : List MemEv) : Prop :=
  (∀ c, evs.count (.new c) ≤ 1) ∧ ∀ p, p <+: evs → ∀ c, p.count (.del c) ≤ p.count (.new c)

/-- The array of cell `c` is made and never deleted. -/
def Leaks (evs : List MemEv) (c : ℕ × ℕ) : Prop := .new c ∈ evs ∧ .del c ∉ evs

end Genex.Spec
