import Verif.Model.Paa

/-!
# Specification: piecewise aggregate approximation
-/

namespace Genex.Spec

variable {K : Type} [Field K]

/-- The mean of some values. -/
def mean (l : List K) : K := l.sum / (l.length : K)

/-- `p` is the approximation of `x` with blocks of `b` points: one point for each block, the last of which may be shorter, and
each point is the mean of its block. -/
def IsPaa (b : ℕ) (x p : List K) : Prop :=
  p.length = (x.length + b - 1) / b ∧ ∀ (i : ℕ) m, p[i]? = some m → m = mean ((x.drop (i * b)).take b)

variable [LinearOrder K]

/-- A wrapper around `ds` after any sequence of preparations, failed or not. -/
inductive Wrapper (ds : Dataset K) : Paa K → Prop where
  | created {w} : Paa.create ds = .ok w → Wrapper ds w
  | again {w} (b : Int) : Wrapper ds w → Wrapper ds (w.generate ds b).1

/-- The last preparation of `w`, with block size `b`, succeeded. -/
def Prepared (ds : Dataset K) (b : Int) (w : Paa K) : Prop :=
  ∃ w0, Wrapper ds w0 ∧ w0.generate ds b = (w, .ok ())

end Genex.Spec
