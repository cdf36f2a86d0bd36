import Mathlib.Data.List.Basic

/-!
# Specification: lines and columns of a text file
-/

namespace Genex.Spec

/-- The lines of a text: the pieces between newlines, without the empty piece after a final newline. -/
def linesOf (content : List Char) : List (List Char) :=
  let pieces := content.splitOnP (fun c => decide (c = '\n'))
  if pieces.getLast? = some [] then pieces.dropLast else pieces

/-- The columns of a line: the non-empty pieces between separator characters. -/
def columns (sep line : List Char) : List (List Char) :=
  (line.splitOnP (fun c => decide (c ∈ sep))).filter (fun p => decide (p ≠ []))

/-- The first `m` lines of a text, all of them when `m ≤ 0`. -/
def firstLines (m : Int) (content : List Char) : List (List Char) :=
  if m ≤ 0 then linesOf content else (linesOf content).take m.toNat

/-- Number of columns before the first value: `startCol` and, if there is one, the name column. -/
def valueCol (startCol : ℕ) (hasName : Bool) : ℕ := if hasName then startCol + 1 else startCol

end Genex.Spec
