import Verif.Spec.Paa
import Verif.Model.MachinePaa

/-! # Specification: block means as a machine computes them -/

namespace Genex.Spec

variable {K : Type} [Field K] [LinearOrder K]

/-- The mean of some values, `r` applied after each addition and the division. -/
def meanBy (r : Dbl K → Dbl K) (l : List (Dbl K)) : Dbl K := r (l.foldl (fun s x => r (s + x)) 0 / Dbl.ofNat l.length)

/-- `p` has one point for each block of `b` points of `x`, the last of which may be shorter: the computed mean of the block. -/
def IsPaaBy (r : Dbl K → Dbl K) (b : ℕ) (x p : List (Dbl K)) : Prop :=
  p.length = (x.length + b - 1) / b ∧ ∀ (i : ℕ) m, p[i]? = some m → m = meanBy r ((x.drop (i * b)).take b)

/-- A wrapper around `ds` after any sequence of preparations, failed or not. -/
inductive WrapperBy (r : Dbl K → Dbl K) (ds : Dataset K) : Paa K → Prop where
  | created {w} : Paa.createI ds = .ok w → WrapperBy r ds w
  | again {w} (b : Int) : WrapperBy r ds w → WrapperBy r ds (w.generateI r ds b).1

/-- The last preparation of `w`, with block size `b`, succeeded. -/
def PreparedBy (r : Dbl K → Dbl K) (ds : Dataset K) (b : Int) (w : Paa K) : Prop :=
  ∃ w0, WrapperBy r ds w0 ∧ w0.generateI r ds b = (w, .ok ())

/-- `r` leaves `0 + y` and `y / 1` as they are. -/
def Stable (r : Dbl K → Dbl K) (y : Dbl K) : Prop := r (0 + y) = y ∧ r (y / Dbl.ofNat 1) = y

end Genex.Spec
