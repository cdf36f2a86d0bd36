import Verif.Lemmas.TimeSeriesObj
import Verif.Model.SeriesArchive

/-!
# Series in archives
-/

namespace Genex.World

open Genex.Spec

set_option linter.unusedSectionVars false

variable {K : Type} [Field K] [LinearOrder K] {w w' : World K} {x : TsObj K}

/-- A write to point `k` of a series replaces that value. -/
theorem valued_write {ys : List (Dbl K)} (h : Valued w x ys) {k : ℕ} (hk : k < ys.length) (v : Dbl K) :
    ∃ w', w.write x.data (x.start + k) v = .ok w' ∧ Valued w' x (ys.set k v) := by
  obtain ⟨h1, p, cs, hp, hb, h0, hc⟩ := h
  have hin := hc k _ (List.getElem?_eq_getElem hk)
  have hlt := (List.getElem?_eq_some_iff.1 hin).1
  refine ⟨{ w with bufs := w.bufs.set p.buf (some (cs.set (p.off + (x.start + k)).toNat (some v))) }, ?_, ?_⟩
  · unfold write
    rw [hp]
    simp only [cells_eq_ok.2 hb, bind, Except.bind]
    rw [if_neg (by omega)]
  · have hl := (List.getElem?_eq_some_iff.1 hb).1
    refine ⟨by simpa using h1, p, _, hp, by simp only; rw [List.getElem?_set_self hl], h0, ?_⟩
    intro j y hj
    have hjl : j < ys.length := by simpa using (List.getElem?_eq_some_iff.1 hj).1
    by_cases hjk : k = j
    · subst hjk
      rw [List.getElem?_set_self hk] at hj
      rw [← hj, Int.add_assoc, List.getElem?_set_self (by rw [← Int.add_assoc]; exact hlt)]
    · rw [List.getElem?_set_ne hjk] at hj
      rw [List.getElem?_set_ne (by omega)]
      exact hc j y hj

/-- The loop stores the values that are there, one after the other. -/
theorem loadLoop_spec (n : ℕ) (rest : List (Tok K)) (xs : List (Dbl K)) :
    ∀ (k : ℕ) (ys : List (Dbl K)) (w : World K), Valued w x ys → k + xs.length ≤ ys.length →
      ∃ w', loadLoop x (List.range' k (xs.length + n)) w (xs.map Tok.dbl ++ rest) = loadLoop x (List.range' (k + xs.length) n) w' rest ∧
        Valued w' x (ys.take k ++ xs ++ ys.drop (k + xs.length)) ∧ w'.objs = w.objs ∧ Keeps (fun b => ¬ Uses x b) w w' := by
  induction xs with
  | nil => intro k ys w hv hk; exact ⟨w, by simp, by simpa using hv, rfl, Keeps.rfl'⟩
  | cons v xs ih =>
    intro k ys w hv hk
    simp only [List.length_cons] at hk
    obtain ⟨w1, e1, hv1⟩ := valued_write hv (show k < ys.length by omega) v
    obtain ⟨w2, e2, hv2, ho, hkp⟩ := ih (k + 1) (ys.set k v) w1 hv1 (by simp; omega)
    refine ⟨w2, ?_, ?_, by rw [ho, write_objs e1], Keeps.trans ((write_keeps e1).mono (fun b hb off e => hb ⟨off, e⟩)) hkp⟩
    · rw [show (v :: xs).length + n = (xs.length + n) + 1 by simp; omega, List.range'_succ]
      simp only [List.map_cons, List.cons_append, loadLoop, rdDbl, e1]
      rw [e2]
      simp only [List.length_cons]
      rw [show k + 1 + xs.length = k + (xs.length + 1) by omega]
    · convert hv2 using 1
      rw [List.drop_set_of_lt (by omega), List.take_succ, List.getElem?_set_self (by omega), List.take_set_of_le (by omega)]
      simp [Nat.add_assoc, Nat.add_comm 1]

end Genex.World
