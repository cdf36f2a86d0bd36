import Verif.Spec.Api
import Verif.Spec.Text
import Verif.Spec.Ready
import Verif.Spec.Search

/-!
# From the text file to the answer

What has been called so far, with the file that was loaded: `Loaded` and `Grouped` are about histories of calls only.
-/

namespace Genex.Registry

open Genex.Api

variable {K : Type} [Field K] [LinearOrder K] [HasSqrt K] [Arith K] [BandOps]

/-- The rows of the file that are read are lines of numbers `rows`, at least one line. -/
structure FileHas (parse : Text → Parsed K) (content : Text) (sep : List Char) (maxNumRow : Int) (startCol : ℕ)
    (hasName : Bool) (rows : List (List K)) : Prop where
  some : rows ≠ []
  reach : ∀ l ∈ Spec.firstLines maxNumRow content, Spec.valueCol startCol hasName ≤ (Spec.columns sep l).length
  numbers : (Spec.firstLines maxNumRow content).map
    (fun l => ((Spec.columns sep l).drop (Spec.valueCol startCol hasName)).map parse) =
      rows.map (·.map (fun x => .val (.fin x)))

/-- The numbers scaled so that the least of all is 0 and the greatest 1; all 0 if they are equal. -/
def Scales (raw rows : List (List K)) : Prop :=
  ∃ lo hi, IsLeast {x | ∃ r ∈ raw, x ∈ r} lo ∧ IsGreatest {x | ∃ r ∈ raw, x ∈ r} hi ∧
    rows = raw.map (·.map (fun x => if lo = hi then 0 else (x - lo) / (hi - lo)))

/-- A file was loaded under the name, the numbers scaled if it was normalised after that; these are `rows`.  Since then the data was
neither normalised nor unloaded. -/
inductive Loaded (E : Env K) (name : String) : List (List K) → Api K → Prop
  | mk {h h' : List (AnyCall K × Reply K)} {s s₁ s' : Api K} {content path : Text} {sep : List Char} {maxNumRow : Int}
      {startCol : ℕ} {hasName : Bool} {rows : List (List K)} {o : Out K} (before : History E fresh h s)
      (file : FileHas E.parse content sep maxNumRow startCol hasName rows)
      (load : s.exec E (.load name (some content) path sep maxNumRow startCol hasName) = (s₁, .ret (.ok o)))
      (after : History E s₁ h' s') (keeps : ∀ e ∈ h', ¬ ChangesData name e.1) : Loaded E name rows s'
  | normalised {h : List (AnyCall K × Reply K)} {s s₁ s' : Api K} {raw rows : List (List K)} {o : Out K} (before : Loaded E name raw s)
      (scaled : Scales raw rows) (normalize : s.exec E (.normalize name) = (s₁, .ret (.ok o)))
      (after : History E s₁ h s') (keeps : ∀ e ∈ h, ¬ ChangesData name e.1) : Loaded E name rows s'

/-- In such a state the dataset was grouped, and since then no call changed it. -/
inductive Grouped (E : Env K) (name : String) (rows : List (List K)) (distance : String) (t : Dbl K) (whole : Bool) :
    Api K → Prop
  | mk {h : List (AnyCall K × Reply K)} {s s₁ s' : Api K} {numThreads : Int} {o : Out K} (loaded : Loaded E name rows s)
      (group : Step E s (.group name t distance numThreads whole) s₁ (.ret (.ok o)))
      (after : History E s₁ h s')
      (keeps : ∀ e ∈ h, ¬ (Changes e.1 ∧ (name ∈ named e.1 ∨ e.1 = .call .unloadAll))) :
      Grouped E name rows distance t whole s'

/-- The numbers of a query, as `getTimeSeries` shows them. -/
def Query (E : Env K) (s : Api K) (name : String) (index start stop : Int) (q : List K) : Prop :=
  ∃ s', s.exec E (.series name index start stop) = (s', .ret (.ok (.series (q.map .fin))))

/-- The answer names the points from `p` up to (excluding) `p + ℓ` of series `i`. -/
def Names (c : Cand K) (i p ℓ : ℕ) : Prop := c.view.index = i ∧ c.view.start = p ∧ c.view.stop = p + ℓ

/-- The length of the longest row. -/
def longest (rows : List (List K)) : ℕ := (rows.map List.length).foldr max 0

/-- Number of parts of rows that have at least two points and a length comparable with `q`. -/
def partCount (rows : List (List K)) [BandOps] (ratio : ℚ) (q : ℕ) : ℕ := Spec.available rows (longest rows) false ratio q

end Genex.Registry
