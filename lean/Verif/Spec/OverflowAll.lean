import Verif.Spec.Overflow

/-!
# Specification: data whose distances cannot overflow, all metrics
-/

namespace Genex.Spec

variable {K : Type} [Field K] [LinearOrder K]

/-- The point is finite and lies between `lo` and `B`. -/
def Between (lo B : K) (x : Dbl K) : Prop := ∃ y, x = .fin y ∧ lo ≤ y ∧ y ≤ B

/-- Sums of `n` terms, of points between `lo` and `B`, leave room for what the metric computes of them.  For the cosine: `ε ^ 2` is the
smallest positive number, so that `ε` is the smallest divisor.  Sorensen: the points are not negative. -/
def Room (rd : K → K) (X lo B : K) (n : ℕ) : Metric → Prop
  | .cosine =>
    sumOf rd (rd (B * B)) n ≤ X ∧ rd (sumOf rd (rd (B * B)) n * sumOf rd (rd (B * B)) n) ≤ X ∧
      ∃ ε, 0 < ε ∧ rd ε = ε ∧ (∀ x, 0 < rd x → ε * ε ≤ rd x) ∧ rd (sumOf rd (rd (B * B)) n / ε) ≤ X
  | .sorensen => 0 ≤ lo ∧ sumOf rd (rd (2 * B)) n ≤ X
  | m => NoOverflow rd X B n m

/-- The representatives that groups keep themselves. -/
def CentroidsAll (P : Dbl K → Prop) (L : ℕ) (gs : GSpace K) : Prop :=
  ∀ sp, some sp ∈ gs.spaces → ∀ g ∈ sp.groups, ∀ pts, g.centroid = .own pts → (∀ x ∈ pts, P x) ∧ pts.length ≤ L

end Genex.Spec
