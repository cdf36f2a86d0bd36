import Verif.Spec.PyAnswer
import Verif.Spec.Double

/-!
# Specification: sessions of Python calls, in the arithmetic of `double`

As in `Spec/PyAnswer`, with the sizes of the file and the rounding of `normalize`.
-/

namespace Genex.Py

open Spec

variable {K : Type} [Field K] [LinearOrder K] [FloorRing K] [HasSqrt K] [Arith K] [BandOps]

/-- A file was loaded with `loadDataset`, the numbers scaled in double arithmetic if `normalize` was called after that; these are `rows`.  The
numbers of the file are doubles of at most `2 ^ 480`, no line has more than `W` columns, and the whole has at most `2 ^ 52` cells.  Since
then the data was neither normalised nor unloaded. -/
inductive PyServed (E : Env K) (name : String) (W : ℕ) : List (List K) → Api K → Prop
  | mk {l l' : List (Line K)} {s s₁ s' : Api K} {F : Files K} {content : Text} {path sep : String} {maxNumRow : Int} {startCol : ℕ}
      {hasName : Bool} {rows : List (List K)} {o : Obj K} (before : Session E Api.fresh l s) (text : F.text path = some content)
      (file : Registry.FileHas E.parse content sep.toList maxNumRow startCol hasName rows)
      (sized : Registry.Sized roundDouble (2 ^ 480) rows) (wide : ∀ x ∈ firstLines 0 content, (columns sep.toList x).length ≤ W)
      (cells : (firstLines 0 content).length * W ≤ 2 ^ 52)
      (load : Turn E F s "loadDataset" [.str name, .str path, .str sep, .int maxNumRow, .int startCol, .bool hasName] [] s₁ (.value o))
      (after : Session E s₁ l' s')
      (keeps : ∀ e ∈ l', Line.Spares ["loadDataset", "unloadDataset", "normalize"] name e) : PyServed E name W rows s'
  | normalised {l : List (Line K)} {s s₁ s' : Api K} {F : Files K} {raw rows : List (List K)} {o : Obj K} (before : PyServed E name W raw s)
      (scaled : Registry.Scaled roundDouble raw rows) (normalize : Turn E F s "normalize" [.str name] [] s₁ (.value o))
      (after : Session E s₁ l s') (keeps : ∀ e ∈ l, Line.Spares ["loadDataset", "unloadDataset", "normalize"] name e) :
      PyServed E name W rows s'

/-- In such a state the dataset was grouped with `group`, and since then no call changed it. -/
inductive PyServedGroups (E : Env K) (name : String) (W : ℕ) (rows : List (List K)) (distance : String) (t : Dbl K) (whole : Bool) :
    Api K → Prop
  | mk {l : List (Line K)} {s s₁ s' : Api K} {F : Files K} {numThreads : Int} {o : Obj K} (served : PyServed E name W rows s)
      (group : Turn E F s "group" [.str name, .float t, .str distance, .int numThreads, .bool whole] [] s₁ (.value o))
      (after : Session E s₁ l s')
      (keeps : ∀ e ∈ l, Line.Spares ["loadDataset", "unloadDataset", "normalize", "group", "loadGroups"] name e) :
      PyServedGroups E name W rows distance t whole s'

end Genex.Py
