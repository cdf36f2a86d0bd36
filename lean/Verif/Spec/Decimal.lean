import Verif.Spec.Float
import Verif.Model.OldFormat

/-!
# Specification: decimal digits

What the standard library prints for a `double` with a given number of digits, and what it reads: both round to nearest.
-/

namespace Genex.Spec

open Genex

/-- The exponent of the last of `n` decimal digits of a number. -/
def lastDecimal (n : ℕ) (x : ℚ) : ℤ := Int.log 10 |x| - (n - 1)

/-- A number rounded to `n` significant decimal digits. -/
def decimal (n : ℕ) (x : ℚ) : ℚ := roundEven (x / 10 ^ lastDecimal n x) * 10 ^ lastDecimal n x

/-- The word printed for a `double` with `n` digits, with the value it is read as.  Whole numbers up to `2 ^ 53` without an exponent are
integers. -/
def printed (n : ℕ) : Dbl ℚ → Lex ℚ
  | .fin x =>
    if (decimal n x).den = 1 ∧ |decimal n x| < 10 ^ n ∧ |decimal n x| ≤ 2 ^ 53 then .int (decimal n x).num
    else .num "" (.fin (roundDouble (decimal n x)))
  | .inf => .word "inf"
  | .ninf => .word "-inf"
  | .nan => .word "nan"

/-- Six digits by default, sixteen after `setprecision(std::numeric_limits<data_t>::digits10 + 1)` (genex/TimeSeries.cpp:228). -/
def doublePrinter : Printer ℚ := ⟨printed 6, printed 16⟩

/-- `x` has at most `n` significant decimal digits. -/
def Digits (n : ℕ) (x : ℚ) : Prop := ∃ k e : ℤ, |k| < 10 ^ n ∧ x = k * 10 ^ e

/-- `x` is a power of two, up to sign. -/
def PowerOfTwo (x : ℚ) : Prop := ∃ k : ℤ, |x| = 2 ^ k

end Genex.Spec
