import Verif.Model.CliOutput
import Verif.Spec.Cli
import Verif.Spec.Decimal

/-!
# Specification: reading what the command line program prints

A reader of the text, as a person or a script would be: it knows lines, whole numbers and the words of an answer, and nothing of how the
text was put together.
-/

namespace Genex.Spec

open Genex Genex.Cli

/-- The lines of a text. -/
def textLines : Text → List Text
  | [] => [[]]
  | c :: cs =>
    if c = '\n' then [] :: textLines cs
    else match textLines cs with
      | [] => [[c]]
      | l :: ls => (c :: l) :: ls

/-- What follows the words `p`. -/
def following (p : String) (t : Text) : Option Text := if p.toList <+: t then some (t.drop p.toList.length) else none

/-- A number in digits. -/
def readNat (t : Text) : Option (ℕ × Text) :=
  if t.takeWhile Char.isDigit = [] then none
  else some (Nat.ofDigitChars 10 (t.takeWhile Char.isDigit) 0, t.dropWhile Char.isDigit)

/-- A whole number. -/
def readInt (t : Text) : Option (Int × Text) :=
  match t with
  | '-' :: r => (readNat r).map fun p => (-(p.1 : Int), p.2)
  | t => (readNat t).map fun p => ((p.1 : Int), p.2)

/-- `i [a, b] ` -/
def readPlace (t : Text) : Option ((Int × Int × Int) × Text) :=
  (readInt t).bind fun i => (following " [" i.2).bind fun t => (readInt t).bind fun a =>
    (following ", " a.2).bind fun t => (readInt t).bind fun b => (following "] " b.2).map fun t => ((i.1, a.1, b.1), t)

/-- An answer of a search: the series, from where, to where, and the distance as it is written. -/
def readAnswer (l : Text) : Option (Int × Int × Int × Text) :=
  (following "Timeseries " l).bind fun t => (readPlace t).bind fun p =>
    (following "- distance = " p.2).map fun t => (p.1.1, p.1.2.1, p.1.2.2, t)

/-- The answers in a text, from top to bottom. -/
def answersIn (t : Text) : List (Int × Int × Int × Text) := (textLines t).filterMap readAnswer

/-- The series named as the best match in a text. -/
def bestIn (t : Text) : List (Int × Int × Int) :=
  (textLines t).filterMap fun l => (following "Best match is time series " l).bind fun r => (readPlace r).map Prod.fst

/-- What follows some words at the beginning of a line. -/
def afterWords (p : String) (t : Text) : List Text := (textLines t).filterMap (following p)

/-- A line that begins like this is in the text. -/
def HasLine (p : String) (t : Text) : Prop := ∃ l ∈ textLines t, p.toList <+: l

/-- The texts of numbers and of the clock are within a line. -/
structure Tidy {K : Type} (S : Screen K) : Prop where
  num : ∀ d x, '\n' ∉ S.num d x
  seconds : '\n' ∉ S.seconds

/-- Whoever reads the numbers on the screen reads them rounded to so many digits. -/
def Legible (S : Screen ℚ) (value : Text → Option ℚ) : Prop := ∀ d x, value (S.num d (.fin x)) = some (decimal d x)

section
variable {K : Type} [Field K] [LinearOrder K] [HasSqrt K] [Arith K] [BandOps]

/-- A session at the screen: lines, with the files and conversions at their times and with what came of them. -/
inductive Screened (E : Env K) : Console K → List (CliEnv K × String × Outcome K) → Console K → Prop
  | nil (c : Console K) : Screened E c [] c
  | snoc {c d e : Console K} {h : List (CliEnv K × String × Outcome K)} {P : CliEnv K} {line : String} {ps : List (Piece K)}
      {o : Outcome K} : Screened E c h d → Says E P d line e ps o → o ≠ .ended → Screened E c (h ++ [(P, line, o)]) e

/-- The first word of a line. -/
def Starts (line : String) (word : String) : Prop := ∃ ws, Manual.Words line.toList (word.toList :: ws)

end

end Genex.Spec
