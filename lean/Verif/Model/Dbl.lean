import Mathlib.Algebra.Order.Field.Basic
import Mathlib.Algebra.Order.Field.Rat
import Mathlib.Analysis.Real.Sqrt

/-!
# `data_t` and the outcomes of a C++ call

`data_t` is `double` (genex/TimeSeries.hpp:15).  `Dbl K` keeps the IEEE special values; finite values
are elements of an ordered field `K` and their arithmetic is exact (rounding, overflow of finite values
and the sign of zero are not modelled).
-/

namespace Genex

/-- How a C++ call can fail to return a value.
* `genex`   : a `GenexException` is thrown (genex/Exception.hpp)
* `std`     : another C++ exception is thrown
* `ub`      : undefined behaviour (out-of-bounds access, null or dangling pointer, uninitialised read, ...)
* `diverge` : the call does not return -/
inductive Fault where
  | genex (msg : String)
  | std (msg : String)
  | ub (what : String)
  | diverge
deriving DecidableEq, Repr

/-- Outcome of a C++ call. -/
abbrev Res (α : Type) := Except Fault α

/-- Decidable equality of outcomes, used for concrete examples. -/
instance {ε α : Type} [DecidableEq ε] [DecidableEq α] : DecidableEq (Except ε α)
  | .error a, .error b => if h : a = b then isTrue (h ▸ rfl) else isFalse (fun e => h (by injection e))
  | .ok a, .ok b => if h : a = b then isTrue (h ▸ rfl) else isFalse (fun e => h (by injection e))
  | .error _, .ok _ => isFalse (fun e => by injection e)
  | .ok _, .error _ => isFalse (fun e => by injection e)

/-- An IEEE double without rounding: finite value, `+inf`, `-inf` or NaN. -/
inductive Dbl (K : Type) where
  | fin (x : K)
  | inf
  | ninf
  | nan
deriving DecidableEq, Repr

/-- Square root on the finite values; for `ℝ` the real square root. -/
class HasSqrt (K : Type) where
  sqrt : K → K

noncomputable instance : HasSqrt ℝ := ⟨Real.sqrt⟩

/-- Only used to evaluate concrete examples: exact on squares of fractions in lowest terms. -/
instance : HasSqrt ℚ := ⟨fun q => mkRat (Nat.sqrt q.num.toNat) (Nat.sqrt q.den)⟩

namespace Dbl

variable {K : Type}

section cmp
variable [LinearOrder K]

/-- C++ `<` on doubles: false as soon as one side is NaN. -/
def lt : Dbl K → Dbl K → Prop
  | fin a, fin b => a < b
  | fin _, inf => True
  | ninf, fin _ => True
  | ninf, inf => True
  | _, _ => False

instance : LT (Dbl K) := ⟨lt⟩

/-- C++ `<=` on doubles. -/
instance : LE (Dbl K) := ⟨fun a b => a < b ∨ (a = b ∧ a ≠ nan)⟩

instance decLt (a b : Dbl K) : Decidable (a < b) := by
  change Decidable (lt a b)
  cases a <;> cases b <;> simp only [lt] <;> infer_instance

instance decLe (a b : Dbl K) : Decidable (a ≤ b) := by
  change Decidable (a < b ∨ (a = b ∧ a ≠ nan))
  infer_instance

/-- C++ `==` on doubles: NaN differs from everything. -/
def eqD (a b : Dbl K) : Prop := a = b ∧ a ≠ nan

instance (a b : Dbl K) : Decidable (eqD a b) := by unfold eqD; infer_instance

/-- `std::min(a, b)`: returns `b` if `b < a`, else `a`. -/
def stdMin (a b : Dbl K) : Dbl K := if b < a then b else a

/-- `std::max(a, b)`: returns `b` if `a < b`, else `a`. -/
def stdMax (a b : Dbl K) : Dbl K := if a < b then b else a

end cmp

section arith
variable [Field K] [LinearOrder K]

/-- IEEE addition on the special values, exact on finite values. -/
def add : Dbl K → Dbl K → Dbl K
  | fin a, fin b => fin (a + b)
  | nan, _ => nan
  | _, nan => nan
  | inf, ninf => nan
  | ninf, inf => nan
  | inf, _ => inf
  | _, inf => inf
  | ninf, _ => ninf
  | _, ninf => ninf

def neg : Dbl K → Dbl K
  | fin a => fin (-a)
  | inf => ninf
  | ninf => inf
  | nan => nan

/-- `+inf` or `-inf` multiplied by a finite value. -/
def infTimes (pos : Bool) (b : K) : Dbl K :=
  if b = 0 then nan
  else if 0 < b then (if pos then inf else ninf)
  else (if pos then ninf else inf)

def mul : Dbl K → Dbl K → Dbl K
  | fin a, fin b => fin (a * b)
  | nan, _ => nan
  | _, nan => nan
  | inf, fin b => infTimes true b
  | ninf, fin b => infTimes false b
  | fin b, inf => infTimes true b
  | fin b, ninf => infTimes false b
  | inf, inf => inf
  | ninf, ninf => inf
  | inf, ninf => ninf
  | ninf, inf => ninf

/-- IEEE division; a zero divisor is taken to be `+0`. -/
def div : Dbl K → Dbl K → Dbl K
  | fin a, fin b =>
      if b = 0 then (if a = 0 then nan else if 0 < a then inf else ninf) else fin (a / b)
  | nan, _ => nan
  | _, nan => nan
  | inf, fin b => if 0 ≤ b then inf else ninf
  | ninf, fin b => if 0 ≤ b then ninf else inf
  | fin _, _ => fin 0
  | _, _ => nan

instance : Add (Dbl K) := ⟨add⟩
instance : Neg (Dbl K) := ⟨neg⟩
instance : Sub (Dbl K) := ⟨fun a b => add a (neg b)⟩
instance : Mul (Dbl K) := ⟨mul⟩
instance : Div (Dbl K) := ⟨div⟩
instance : Zero (Dbl K) := ⟨fin 0⟩

/-- `std::abs`, `fabs`. -/
def abs : Dbl K → Dbl K
  | fin a => fin (if a < 0 then -a else a)
  | inf => inf
  | ninf => inf
  | nan => nan

/-- `sqrt` of the C library. -/
def sqrt [HasSqrt K] : Dbl K → Dbl K
  | fin a => if a < 0 then nan else fin (HasSqrt.sqrt a)
  | inf => inf
  | ninf => nan
  | nan => nan

/-- Conversion of a non-negative `int`. -/
def ofNat (n : ℕ) : Dbl K := fin (n : K)

end arith

end Dbl

end Genex
