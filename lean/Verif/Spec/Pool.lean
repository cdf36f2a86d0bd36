import Verif.Model.ThreadPool

/-!
# Specification: use of a thread pool
-/

namespace Genex.Pool

variable {n : ℕ} {S : Type}

/-- The tasks enqueued by the operations. -/
def enqs : List Op → List ℕ
  | [] => []
  | .enqueue t :: ops => t :: enqs ops
  | .get _ :: ops => enqs ops

/-- Only futures of tasks enqueued before are waited for. -/
def WfOps : List ℕ → List Op → Prop
  | _, [] => True
  | E, .enqueue t :: ops => WfOps (E ++ [t]) ops
  | E, .get t :: ops => t ∈ E ∧ WfOps E ops

/-- The final state of the slot of a task. -/
def Tasks.final (P : Tasks S) (slot0 : ℕ → S) (t : ℕ) : S := (P.prog t).foldl (fun x f => f x) (slot0 t)

end Genex.Pool
