import Verif.Spec.Terminal

/-!
# Specification: what `list` shows of a session at the terminal

A reader of the table that `list dataset` shows, and what the lines typed before and the texts after them say about a dataset.
-/

namespace Genex.Spec

open Genex Genex.Cli

/-- The columns of a line. -/
def cutTabs : Text → List Text
  | [] => [[]]
  | c :: cs =>
    if c = '\t' then [] :: cutTabs cs
    else match cutTabs cs with
      | [] => [[c]]
      | l :: ls => (c :: l) :: ls

/-- A text without the blanks at its end. -/
def unpad (t : Text) : Text := (t.reverse.dropWhile (· = ' ')).reverse

/-- A row of the table: the name, how it is grouped, and whether it is normalized. -/
def readRow (l : Text) : Option (Text × Text × Text) :=
  (following "  " l).bind fun t =>
    match (cutTabs t).map unpad with
    | [a, b, c] => some (a, b, c)
    | _ => none

/-- The rows in a text. -/
def rowsIn (t : Text) : List (Text × Text × Text) := (textLines t).filterMap readRow

/-- The distances listed in a text: a blank, the name, a tab. -/
def distancesIn (t : Text) : List Text :=
  (textLines t).filterMap fun l => (following " " l).bind fun t => match cutTabs t with | [a, _] => some (unpad a) | _ => none

variable {K : Type} [Field K] [LinearOrder K] [HasSqrt K] [Arith K] [BandOps]

/-- What the screen says about a name: nothing is loaded, or whether it is normalized, and the distance and threshold of its groups.
There is no rule for `group` and `loadGroups` with an error on the screen. -/
inductive Status (name : String) : List (Entered K) → Option (Bool × Option (String × Dbl K)) → Prop
  | nil : Status name [] none
  | load {h : List (Entered K)} {e : Entered K} {st : Option (Bool × Option (String × Dbl K))} {args : List String} {file : Option Text}
      {path : Text} {sep : List Char} {maxNumRow startCol : Int} {hasName : Bool} (before : Status name h st) (typed : e.Typed args)
      (usage : Manual.Usage e.env args (.call (.call (.load name file path sep maxNumRow startCol hasName)))) (fine : e.Fine) :
      Status name (h ++ [e]) (some (false, none))
  | unload {h : List (Entered K)} {e : Entered K} {st : Option (Bool × Option (String × Dbl K))} (before : Status name h st)
      (typed : e.Typed ["unload", name]) (fine : e.Fine) : Status name (h ++ [e]) none
  | normalize {h : List (Entered K)} {e : Entered K} {b : Bool} {g : Option (String × Dbl K)} (before : Status name h (some (b, g)))
      (typed : e.Typed ["normalize", name]) (fine : e.Fine) : Status name (h ++ [e]) (some (true, g))
  | group {h : List (Entered K)} {e : Entered K} {b : Bool} {g : Option (String × Dbl K)} {args : List String} {t : Dbl K}
      {distance : String} {threads : Int} (before : Status name h (some (b, g))) (typed : e.Typed args)
      (usage : Manual.Usage e.env args (.call (.group name t distance threads false))) (fine : e.Fine) :
      Status name (h ++ [e]) (some (b, some (distance, t)))
  | loadGroups {h : List (Entered K)} {e : Entered K} {b : Bool} {g : Option (String × Dbl K)} {path : String} {n len : Int} {lo hi : ℕ}
      {distance : String} {t : Dbl K} {rest : List (Tok K)} (before : Status name h (some (b, g))) (typed : e.Typed ["loadGroups", name, path])
      (file : e.env.archive path = some (.int n :: .int len :: .size lo :: .size hi :: .str distance :: .dbl t :: rest)) (fine : e.Fine) :
      Status name (h ++ [e]) (some (b, some (distance, t)))
  | refused {h : List (Entered K)} {e : Entered K} {st : Option (Bool × Option (String × Dbl K))} (before : Status name h st)
      (typed : e.Touches ["load", "unload", "normalize"] name) (error : ¬ e.Fine) : Status name (h ++ [e]) st
  | other {h : List (Entered K)} {e : Entered K} {st : Option (Bool × Option (String × Dbl K))} (before : Status name h st)
      (typed : ¬ e.Touches ["load", "unload", "normalize", "group", "loadGroups"] name) : Status name (h ++ [e]) st

/-- The row for a dataset with this status. -/
def rowOf (S : Screen K) (name : String) (b : Bool) (g : Option (String × Dbl K)) : Text × Text × Text :=
  (name.toList,
    (match g with
      | none => "Not grouped".toList
      | some (d, t) => "Grouped (".toList ++ d.toList ++ ", TS = ".toList ++ S.num 6 t ++ ")".toList),
    if b then "Normalized".toList else "Not normalized".toList)

/-- Nothing typed contains a tab, and groups have been read from files without errors. -/
def Orderly (h : List (Entered K)) : Prop := ∀ e ∈ h, '\t' ∉ e.line.toList ∧ (Starts e.line "loadGroups" → e.Fine)

/-- Numbers are shown without line breaks and tabs, and the lines on the progress of grouping end. -/
structure Plain (S : Screen K) : Prop where
  num : ∀ x, '\n' ∉ S.num 6 x ∧ '\t' ∉ S.num 6 x
  progress : S.progress = [] ∨ S.progress.getLast? = some '\n'

/-- `normalize` marks the data as normalized. -/
def Marks (K : Type) [Arith K] : Prop := ∀ (ds ds' : Dataset K) p, Arith.normalize ds = .ok (ds', p) → ds'.normalized = true

end Genex.Spec
