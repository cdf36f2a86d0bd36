import Verif.Model.Api
import Mathlib.Data.Finset.Card

/-!
# What the interface should do, stated on histories of calls

Only `Api.Step` and `Api.fresh` come from the model; what is loaded is read off the calls and their replies.
-/

namespace Genex.Registry

open Genex.Api

variable {K : Type} [Field K] [LinearOrder K] [HasSqrt K] [Arith K] [BandOps]

/-- The program goes on after this reply: the call returned or threw. -/
def Survives : Reply K → Prop
  | .ret (.ok _) => True
  | .ret (.error (.genex _)) => True
  | .ret (.error (.std _)) => True
  | _ => False

/-- A history: calls with their replies, from a state to a state, latest last.  The program goes on after each of them. -/
inductive History (E : Env K) : Api K → List (AnyCall K × Reply K) → Api K → Prop
  | nil (s : Api K) : History E s [] s
  | snoc {s t u : Api K} {h : List (AnyCall K × Reply K)} {c : AnyCall K} {r : Reply K} :
      History E s h t → Step E t c u r → Survives r → History E s (h ++ [(c, r)]) u

/-- The effect of one call with its reply on the set of loaded names. -/
def register (names : Finset String) (e : AnyCall K × Reply K) : Finset String :=
  match e with
  | (.call (.load name _ _ _ _ _ _), .ret (.ok _)) => insert name names
  | (.call (.unload name), .ret (.ok _)) => names.erase name
  | (.call .unloadAll, .ret (.ok _)) => ∅
  | _ => names

/-- The names with a loaded dataset after a history. -/
def loaded (h : List (AnyCall K × Reply K)) : Finset String := h.foldl register ∅

/-- The datasets that a call names. -/
def named : AnyCall K → List String
  | .group name _ _ _ _ => [name]
  | .call c =>
    match c with
    | .load name _ _ _ _ _ _ => [name]
    | .save name _ => [name]
    | .unload name => [name]
    | .unloadAll => []
    | .count => []
    | .seriesName name _ => [name]
    | .seriesLength name _ => [name]
    | .info name => [name]
    | .allInfo => []
    | .allDistances => []
    | .series name _ _ _ => [name]
    | .normalize name => [name]
    | .saveGroups name _ _ => [name]
    | .loadGroups name _ => [name]
    | .saveGroupsOld name _ _ _ => [name]
    | .loadGroupsOld name _ => [name]
    | .setRatio _ => []
    | .bestMatch target query _ _ _ => [target, query]
    | .kBest _ _ target query _ _ _ => [target, query]
    | .bruteForce _ target query _ _ _ _ => [target, query]
    | .preparePAA name _ => [name]
    | .kBestPAA _ target query _ _ _ _ => [target, query]
    | .distance name1 _ _ _ name2 _ _ _ _ => [name1, name2]
    | .matching name1 _ _ _ name2 _ _ _ _ => [name1, name2]

/-- The calls that may change the dataset they name. -/
def Changes : AnyCall K → Prop
  | .group _ _ _ _ _ => True
  | .call (.load _ _ _ _ _ _ _) => True
  | .call (.unload _) => True
  | .call .unloadAll => True
  | .call (.normalize _) => True
  | .call (.loadGroups _ _) => True
  | .call (.loadGroupsOld _ _) => True
  | _ => False

/-- The calls that may change the points of the dataset, or take it away. -/
def ChangesData (name : String) : AnyCall K → Prop
  | .call (.load n _ _ _ _ _ _) => n = name
  | .call (.unload n) => n = name
  | .call .unloadAll => True
  | .call (.normalize n) => n = name
  | _ => False

/-- The dataset with a name: its data and its groups. -/
def Holds (s : Api K) (name : String) (g : GSet K) : Prop :=
  ∃ id, (name, id) ∈ s.datasets ∧ s.heap[id]? = some (some g)

/-- The two interfaces have the same dataset under the name, or both none. -/
def SameAt (s s' : Api K) (name : String) : Prop := ∀ g, Holds s name g ↔ Holds s' name g

/-- Every grouping of the dataset and every loading of its groups in the history was successful, and none were loaded from text. -/
def NoFailedGrouping (h : List (AnyCall K × Reply K)) (name : String) : Prop :=
  ∀ e ∈ h, (((∃ t d n w, e.1 = .group name t d n w) ∨ ∃ f, e.1 = .call (.loadGroups name f)) → ∃ o, e.2 = .ret (.ok o)) ∧
    ∀ f, e.1 ≠ .call (.loadGroupsOld name f)

/-- The reply that rejects a name. -/
def rejected : Reply K := .ret (.error (.genex "There is no dataset with the given name"))

/-- The call uses a piecewise aggregate approximation. -/
def UsesPAA : AnyCall K → Prop
  | .call (.preparePAA _ _) => True
  | .call (.kBestPAA _ _ _ _ _ _ _) => True
  | _ => False

/-- The call concerns all datasets. -/
def Global : AnyCall K → Prop
  | .call .unloadAll => True
  | .call .count => True
  | .call .allInfo => True
  | _ => False

/-- `name` has been prepared for PAA in the history, with whatever outcome. -/
def Prepared (h : List (AnyCall K × Reply K)) (name : String) : Prop :=
  ∃ e ∈ h, ∃ b, e.1 = .call (.preparePAA name b)

/-- No dataset is unloaded after it was prepared for PAA. -/
def KeepsPrepared (h : List (AnyCall K × Reply K)) : Prop :=
  ∀ h₁ e h₂, h = h₁ ++ e :: h₂ →
    (∀ name, e.1 = .call (.unload name) → ¬ Prepared h₁ name) ∧ (e.1 = .call .unloadAll → ∀ name, ¬ Prepared h₁ name)

end Genex.Registry
