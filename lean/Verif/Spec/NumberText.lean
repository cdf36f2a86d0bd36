import Verif.Spec.Decimal
import Verif.Model.Dataset

/-!
# Specification: reading a decimal number

What a text such as `-12.5` or `3.4e-07` means.
-/

namespace Genex.Spec

open Genex

/-- The whole number written in these digits. -/
def wholeOf (t : List Char) : Option ℕ := if t ≠ [] ∧ t.all Char.isDigit then some (Nat.ofDigitChars 10 t 0) else none

/-- The exponent at the end, if any. -/
def readExponent : List Char → Option ℤ
  | [] => some 0
  | 'e' :: '+' :: t => (wholeOf t).map fun (n : ℕ) => (n : ℤ)
  | 'e' :: '-' :: t => (wholeOf t).map fun (n : ℕ) => -(n : ℤ)
  | _ => none

/-- The digits after the point, if there is one, and what follows. -/
def readFraction : List Char → List Char × List Char
  | '.' :: t => (t.takeWhile Char.isDigit, t.dropWhile Char.isDigit)
  | t => ([], t)

/-- A number without a sign: digits, a point and digits, an exponent. -/
def readUnsigned (t : List Char) : Option ℚ :=
  let r := readFraction (t.dropWhile Char.isDigit)
  if t.takeWhile Char.isDigit = [] then none
  else (readExponent r.2).map fun (e : ℤ) =>
    (Nat.ofDigitChars 10 (t.takeWhile Char.isDigit ++ r.1) 0 : ℚ) * 10 ^ (e - (r.1.length : ℤ))

/-- The number a text means. -/
def readNumber : List Char → Option ℚ
  | '-' :: t => (readUnsigned t).map fun q => -q
  | t => readUnsigned t

/-- Zero, or a number of a size that every `double` has with all its digits. -/
def Ordinary (x : ℚ) : Prop := x = 0 ∨ 1 / 10 ^ 300 ≤ |x| ∧ |x| ≤ 10 ^ 300

/-- How `std::stod` reads: ordinary numbers as `rd` of what they mean. -/
def ReadsNumbers (parse : Text → Parsed ℚ) (rd : ℚ → ℚ) : Prop :=
  ∀ t q, readNumber t = some q → Ordinary q → parse t = .val (.fin (rd q))

/-- Not farther from a number than a `double` is. -/
def NearDouble (rd : ℚ → ℚ) : Prop := rd 0 = 0 ∧ ∀ q, Ordinary q → |rd q - q| ≤ |q| / 2 ^ 52

/-- A character between numbers. -/
def Separates (sep : Char) : Prop := sep ≠ '\n' ∧ sep.isDigit = false ∧ sep ∉ ['.', '+', '-', 'e', 'i', 'n', 'f', 'a']

end Genex.Spec
