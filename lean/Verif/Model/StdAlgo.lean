import Mathlib.Data.List.Basic

/-!
# The standard algorithms the searches use

`std::make_heap`, `std::push_heap`, `std::pop_heap` and `std::sort` are used as the C++ standard specifies them, not as a
particular library implements them: the model takes the four functions as a parameter, and theorems assume only the
contract below, which demands something only where the comparison is a strict weak order on the elements.
-/

namespace Genex

variable {α : Type}

/-- The four algorithms on a whole vector. -/
structure Algos (α : Type) where
  makeHeap : List α → List α
  pushHeap : List α → List α
  popHeap : List α → List α
  sort : List α → List α

/-- A strict weak order on the elements of `l` ([alg.sorting.general]). -/
structure SWO (lt : α → α → Prop) (l : List α) : Prop where
  irrefl : ∀ a ∈ l, ¬ lt a a
  trans : ∀ a ∈ l, ∀ b ∈ l, ∀ c ∈ l, lt a b → lt b c → lt a c
  incomp : ∀ a ∈ l, ∀ b ∈ l, ∀ c ∈ l, ¬ lt a b → ¬ lt b a → ¬ lt b c → ¬ lt c b → ¬ lt a c ∧ ¬ lt c a

/-- A heap: no element is larger than its parent ([alg.heap.operations]). -/
def IsHeap (lt : α → α → Prop) (l : List α) : Prop :=
  ∀ (i : ℕ) a b, 0 < i → l[(i - 1) / 2]? = some a → l[i]? = some b → ¬ lt a b

/-- The contract of the four algorithms. -/
structure Algos.Lawful (A : Algos α) (lt : α → α → Prop) : Prop where
  make : ∀ l, SWO lt l → (A.makeHeap l).Perm l ∧ IsHeap lt (A.makeHeap l)
  push : ∀ l x, SWO lt (l ++ [x]) → IsHeap lt l →
    (A.pushHeap (l ++ [x])).Perm (l ++ [x]) ∧ IsHeap lt (A.pushHeap (l ++ [x]))
  pop : ∀ x l, SWO lt (x :: l) → IsHeap lt (x :: l) →
    ∃ l', A.popHeap (x :: l) = l' ++ [x] ∧ l'.Perm l ∧ IsHeap lt l'
  sort : ∀ l, SWO lt l → (A.sort l).Perm l ∧ (A.sort l).Pairwise (fun a b => ¬ lt b a)

/-! ## An implementation

Used in the examples, and to show that the contract can be met.  Vectors sorted downwards are heaps. -/

section impl

variable (lt : α → α → Prop) [DecidableRel lt]

/-- Insertion before the first element that is not smaller. -/
def insertUp (x : α) : List α → List α
  | [] => [x]
  | y :: ys => if lt y x then y :: insertUp x ys else x :: y :: ys

def sortUp (l : List α) : List α := l.foldr (insertUp lt) []

/-- Reference implementation of the four algorithms. -/
def refAlgos : Algos α where
  makeHeap l := (sortUp lt l).reverse
  pushHeap l := (sortUp lt l).reverse
  popHeap
    | [] => []
    | x :: l => (sortUp lt l).reverse ++ [x]
  sort l := sortUp lt l

end impl

end Genex
