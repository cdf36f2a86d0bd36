import Verif.Spec.EndToEnd
import Verif.Spec.Float
import Verif.Model.Overflow

/-!
# Specification: the interface in the arithmetic of `double`

`Serves` and `GroupedOn` are about histories of calls only, as `Loaded` and `Grouped`, and allow for `normalizeDataset`.
-/

namespace Genex.Registry

open Genex.Api

variable {K : Type} [Field K] [LinearOrder K] [HasSqrt K]

/-- IEEE double arithmetic: every result is rounded to 53 digits with gradual underflow, and infinite beyond the greatest number. -/
@[reducible] def doubleArith [FloorRing K] [BandOps] : Arith K := overflowArith (rndMax Spec.roundDouble maxDouble)

/-- The numbers are floats of at most this size. -/
def Sized (rd : K → K) (B : K) (rows : List (List K)) : Prop := ∀ r ∈ rows, Spec.Floats rd r ∧ ∀ x ∈ r, |x| ≤ B

/-- The rows scaled to `[0, 1]`, every result rounded by `rd`. -/
def Scaled (rd : K → K) (raw rows : List (List K)) : Prop :=
  ∃ lo hi, IsLeast {x | ∃ r ∈ raw, x ∈ r} lo ∧ IsGreatest {x | ∃ r ∈ raw, x ∈ r} hi ∧
    rows = raw.map (·.map (fun x => if lo = hi then 0 else rd (rd (x - lo) / rd (hi - lo))))

variable [Arith K] [BandOps]

/-- A file with the numbers `file`, at most `R` lines and `W` columns, was loaded under the name, and perhaps normalised since, which made
the numbers `rows` of it.  Otherwise the data was not changed. -/
inductive Serves (E : Env K) (rd : K → K) (name : String) (R W : ℕ) (file : List (List K)) : List (List K) → Api K → Prop
  | loaded {h h' : List (AnyCall K × Reply K)} {s s₁ s' : Api K} {content path : Text} {sep : List Char} {maxNumRow : Int}
      {startCol : ℕ} {hasName : Bool} {o : Out K} (before : History E fresh h s)
      (has : FileHas E.parse content sep maxNumRow startCol hasName file)
      (lines : (Spec.firstLines 0 content).length ≤ R) (wide : ∀ l ∈ Spec.firstLines 0 content, (Spec.columns sep l).length ≤ W)
      (load : s.exec E (.load name (some content) path sep maxNumRow startCol hasName) = (s₁, .ret (.ok o)))
      (after : History E s₁ h' s') (keeps : ∀ e ∈ h', ¬ ChangesData name e.1) : Serves E rd name R W file file s'
  | normalised {raw rows : List (List K)} {h : List (AnyCall K × Reply K)} {s s₁ s' : Api K} {o : Out K}
      (serves : Serves E rd name R W file raw s) (normalize : s.exec E (.normalize name) = (s₁, .ret (.ok o))) (scaled : Scaled rd raw rows)
      (after : History E s₁ h s') (keeps : ∀ e ∈ h, ¬ ChangesData name e.1) : Serves E rd name R W file rows s'

/-- In a state with `P` the dataset was grouped, and since then no call changed it. -/
inductive GroupedOn (E : Env K) (P : Api K → Prop) (name distance : String) (t : Dbl K) (whole : Bool) : Api K → Prop
  | mk {h : List (AnyCall K × Reply K)} {s s₁ s' : Api K} {numThreads : Int} {o : Out K} (start : P s)
      (group : Step E s (.group name t distance numThreads whole) s₁ (.ret (.ok o)))
      (after : History E s₁ h s')
      (keeps : ∀ e ∈ h, ¬ (Changes e.1 ∧ (name ∈ named e.1 ∨ e.1 = .call .unloadAll))) :
      GroupedOn E P name distance t whole s'

end Genex.Registry
