import Verif.Spec.Float
import Verif.Model.Dbl

/-!
# The text of a `double`

`f << x` in `saveData` (genex/TimeSeriesSet.cpp:165, six digits) and `cout << x` in the command line program (cli/GenexCLI.cpp, with the
digits of `Console`): the C++ standard defines it as `printf` with `%.*g`, and glibc rounds to the nearest decimal, to the even one of two.
The text of a negative zero, `-0`, is not modelled (zero has no sign in `Dbl`).
-/

namespace Genex

open Spec

/-- The significant digits, as one whole number of `p` digits, and the decimal exponent of the first; a carry into a new digit moves it. -/
def significant (p : ℕ) (x : ℚ) : ℕ × ℤ :=
  let e := Int.log 10 |x|
  let m := (roundEven (|x| / 10 ^ (e - (p - 1)))).toNat
  if m = 10 ^ p then (10 ^ (p - 1), e + 1) else (m, e)

/-- `%g` drops the zeros at the end. -/
def dropZeros (l : List Char) : List Char := (l.reverse.dropWhile (· = '0')).reverse

/-- The exponent, of two digits at least. -/
def exponentText (e : ℤ) : List Char :=
  'e' :: (if e < 0 then '-' else '+') :: (List.replicate (2 - (Nat.toDigits 10 e.natAbs).length) '0' ++ Nat.toDigits 10 e.natAbs)

/-- Digits with the point after the first `k`, and no point at the end. -/
def pointAfter (k : ℕ) (D : List Char) : List Char :=
  if D.length ≤ k then D ++ List.replicate (k - D.length) '0' else D.take k ++ '.' :: D.drop k

/-- `%.pg` of a number that is not zero, without its sign. -/
def magnitudeText (p : ℕ) (x : ℚ) : List Char :=
  let r := significant p x
  let D := dropZeros (Nat.toDigits 10 r.1)
  if r.2 < -4 ∨ (p : ℤ) ≤ r.2 then pointAfter 1 D ++ exponentText r.2
  else if r.2 < 0 then '0' :: '.' :: (List.replicate (-r.2 - 1).toNat '0' ++ D)
  else pointAfter (r.2 + 1).toNat D

/-- `out << x` with the precision `p`, at least 1. -/
def numText (p : ℕ) : Dbl ℚ → List Char
  | .fin x => if x = 0 then ['0'] else if x < 0 then '-' :: magnitudeText p x else magnitudeText p x
  | .inf => ['i', 'n', 'f']
  | .ninf => ['-', 'i', 'n', 'f']
  | .nan => ['n', 'a', 'n']

end Genex
