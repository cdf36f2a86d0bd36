import Verif.Model.TimeSeriesObj
import Verif.Spec.Window

/-!
# What a `TimeSeries` object stands for, and histories of objects
-/

namespace Genex.Spec

variable {K : Type}

/-- Object `o` stands for the values `xs`: they are in the memory it points to. -/
def Valued (w : World K) (o : TsObj K) (xs : List (Dbl K)) : Prop :=
  o.length = xs.length ∧ ∃ p cs, o.data = some p ∧ w.bufs[p.buf]? = some (some cs) ∧ 0 ≤ p.off + o.start ∧
    ∀ (k : ℕ) x, xs[k]? = some x → cs[(p.off + o.start + k).toNat]? = some (some x)

/-- Object number `i` exists and is `o`. -/
def Object (w : World K) (i : ℕ) (o : TsObj K) : Prop := w.objs[i]? = some (some o)

/-- Object `o` refers to array `b`. -/
def Uses (o : TsObj K) (b : ℕ) : Prop := ∃ off, o.data = some ⟨b, off⟩

/-- The objects on array `b`, other than number `i`, keep no envelope. -/
def NoneKept (w : World K) (b : ℕ) (i : Option ℕ) : Prop :=
  ∀ j o, Object w j o → Uses o b → some j ≠ i → o.cacheValid = false

variable [Field K] [LinearOrder K]

/-- From state `w`, some sequence of operations leads to `w'`.  An operation that throws changes nothing. -/
inductive Steps (w : World K) : World K → Prop where
  | refl : Steps w w
  | step {w₁ w₂ : World K} (op : World.Op K) : Steps w w₁ → w₁.step op = .ok w₂ → Steps w w₂

/-- The states that can be reached from no objects at all. -/
def Reach (w : World K) : Prop := Steps ⟨[], []⟩ w

/-- The uses that do not leave an envelope behind which is no longer right: no write to an array while an object on it keeps an
envelope, except that `+=` discards that of its own left side; no assignment to an object that keeps one; no move from one;
no release of an array while another object on it keeps one. -/
def Careful (w : World K) : World.Op K → Prop
  | .copyAssign i _ => ∀ x, Object w i x → x.cacheValid = false ∧
      (x.owner = true → ∀ b, Uses x b → NoneKept w b none)
  | .moveAssign i j => ∀ x y, Object w i x → Object w j y → x.cacheValid = false ∧ y.cacheValid = false ∧
      (x.owner = true → ∀ b, Uses x b → NoneKept w b none)
  | .destroy i => ∀ x, Object w i x → x.owner = true → ∀ b, Uses x b → NoneKept w b (some i)
  | .setAt i _ _ => ∀ x b, Object w i x → Uses x b → NoneKept w b none
  | .addAssign i _ => ∀ x b, Object w i x → Uses x b → NoneKept w b (some i)
  | .poke b _ _ => NoneKept w b none
  | _ => True

/-- The states that can be reached by careful uses only. -/
inductive CarefulReach : World K → Prop where
  | empty : CarefulReach ⟨[], []⟩
  | step {w w' : World K} (op : World.Op K) : CarefulReach w → Careful w op → w.step op = .ok w' → CarefulReach w'

/-- The two arrays are the envelope of `xs` for the given band. -/
def IsEnvelope (xs : List K) (band : ℕ) (lu : OutArr K × OutArr K) : Prop :=
  ∀ i < xs.length, ∃ x y, lu.1 i = some (.fin x) ∧ lu.2 i = some (.fin y) ∧
    IsLeast (window xs band i) x ∧ IsGreatest (window xs band i) y

end Genex.Spec
