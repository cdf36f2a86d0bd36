import Verif.Lemmas.Memory
import Verif.Props.Api

/-!
# C81: memory of the datasets
-/

namespace Genex.Props

open Dbl Api Registry

variable {K : Type} [Field K] [LinearOrder K] [HasSqrt K] [Arith K]

/-- C81: at any time the datasets allocated are as many as the names loaded. -/
theorem C81_allocated [BandOps] (E : Env K) {h : List (AnyCall K × Reply K)} {s : Api K} (hh : History E fresh h s) :
    (s.heap.filter Option.isSome).length = (loaded h).card := by
  rw [keys_card (inv_history inv_fresh hh) (keys_history hh), ← live_history hh, List.countP_eq_length_filter]

/-- C81: the destructor deletes nothing twice, and no dataset is left. -/
theorem C81_destroyed [BandOps] (E : Env K) {h : List (AnyCall K × Reply K)} {s : Api K} (hh : History E fresh h s) :
    ∃ s', s.destroy = some s' ∧ ∀ o ∈ s'.heap, o = none := by
  have hI := inv_history inv_fresh hh
  obtain ⟨s', h1, -⟩ := deleteAll_some (s := s) hI.ids hI.live
  refine ⟨s', h1, ?_⟩
  have h2 := deleteAll_live h1
  have h3 := live_history hh
  have h4 : s'.heap.countP Option.isSome = 0 := by omega
  intro o ho
  have := List.countP_eq_zero.1 h4 o ho
  cases o with
  | none => rfl
  | some g => exact absurd rfl this

/-- C81, part: nothing prepared for PAA is left either, if nothing was prepared.  Missing: the objects made for PAA are never deleted
(`C81_wrapper_false`). -/
theorem C81_wrappers_partial [BandOps] (E : Env K) {h : List (AnyCall K × Reply K)} {s : Api K} (hh : History E fresh h s)
    (hp : ∀ name, ¬ Prepared h name) : s.wrappers = [] := by
  cases hw : s.wrappers with
  | nil => rfl
  | cons e m =>
    refine absurd (prepared_history hh (name := e.1) (e := e.2) ?_) (hp e.1)
    obtain ⟨k, v⟩ := e
    rw [hw]
    simp [mapFind]

example := C81_allocated exEnv (run_fresh [exPairs, exTiny, .unload "e", exBroken "e"] (by decide +kernel))
example := C81_destroyed exEnv (run_fresh [exPairs, exTiny, .unload "e", exBroken "e"] (by decide +kernel))
example := C81_wrappers_partial exEnv (run_fresh [exPairs, exTiny, .unload "e", exBroken "e"] (by decide +kernel))
  (by
    rintro name ⟨e, he, b, hb⟩
    have := (List.of_mem_zip he).1
    simp only [List.map_cons, List.map_nil, List.mem_cons, List.not_mem_nil, or_false] at this
    rw [hb] at this
    rcases this with h | h | h | h <;> simp [exPairs, exTiny, exBroken] at h)
example : (((run fresh [exPairs, exTiny, .unload "e", exBroken "e"]).1.heap.map Option.isSome),
    ((run fresh [exPairs, exTiny, .unload "e", exBroken "e"]).1.destroy.map fun s => s.heap.map Option.isSome)) =
    ([false, true, false], some [false, false, false]) := by decide +kernel

/-- C81 is false for the objects made for PAA: they are kept when their dataset is unloaded, and when the interface is destroyed. -/
theorem C81_wrapper_false : ∃ (h : List (AnyCall ℚ × Reply ℚ)) (s s' : Api ℚ), History exEnv fresh h s ∧
    h.map Prod.fst = [exTiny, .preparePAA "d" 1, .unload "d"].map .call ∧ loaded h = ∅ ∧ s.wrappers.length = 1 ∧
    s.destroy = some s' ∧ s'.wrappers.length = 1 := by
  have hh := run_fresh [exTiny, .preparePAA "d" 1, .unload "d"] (by decide +kernel)
  have hI := inv_history inv_fresh hh
  obtain ⟨s', e, hw, -⟩ := deleteAll_some (s := (run fresh [exTiny, .preparePAA "d" 1, .unload "d"]).1) hI.ids hI.live
  exact ⟨_, _, s', hh, rfl, by decide +kernel, by decide +kernel, e, by rw [hw]; decide +kernel⟩

end Genex.Props
