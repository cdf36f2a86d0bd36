import Verif.Spec.PyDouble
import Verif.Lemmas.PyAnswer
import Verif.Props.Double

/-!
# Lemmas for `Props/PyDouble`
-/

set_option linter.unusedSectionVars false

namespace Genex.Py

open Dbl Spec Genex.Api Genex.Registry Genex.Props

variable {K : Type} [Field K] [LinearOrder K] [IsStrictOrderedRing K] [FloorRing K] [HasSqrt K] [A : Arith K] [BandOps]

theorem PyServed.serves {E : Env K} {name : String} {W : ℕ} {rows : List (List K)} {s : Api K} (h : PyServed E name W rows s) :
    ∃ R file, R * W ≤ 2 ^ 52 ∧ Sized roundDouble (2 ^ 480) file ∧ Serves E roundDouble name R W file rows s := by
  induction h with
  | @mk l l' s s₁ s' F content path sep mr sc hn rows o hb ht hf hsz hw hcells hl ha hk =>
    obtain ⟨h, hh, -⟩ := session_history hb
    obtain ⟨h', hh', hr'⟩ := session_history ha
    obtain ⟨out, hr⟩ := turn_load ht hl
    exact ⟨_, rows, hcells, hsz, .loaded hh hf le_rfl hw hr hh' (spares_keep hr' hk)⟩
  | @normalised l s s₁ s' F raw rows o _ hs hn ha hk ih =>
    obtain ⟨h', hh', hr'⟩ := session_history ha
    obtain ⟨out, hr⟩ := turn_normalize hn
    obtain ⟨R, file, k1, k2, k3⟩ := ih
    exact ⟨R, file, k1, k2, .normalised k3 hr hs hh' (spares_keep hr' hk)⟩

theorem PyServedGroups.grouped {E : Env K} {name : String} {W : ℕ} {rows : List (List K)} {d : String} {t : Dbl K} {w : Bool} {s : Api K}
    (h : PyServedGroups E name W rows d t w s) :
    ∃ R file, R * W ≤ 2 ^ 52 ∧ Sized roundDouble (2 ^ 480) file ∧ GroupedOn E (Serves E roundDouble name R W file rows) name d t w s := by
  obtain @⟨l, s, s₁, s', F, nt, o, hl, hg, ha, hk⟩ := h
  obtain ⟨h', hh', hr'⟩ := session_history ha
  obtain ⟨out, hr⟩ := turn_group hg
  obtain ⟨R, file, k1, k2, k3⟩ := hl.serves
  exact ⟨R, file, k1, k2, .mk k3 hr hh' (spares_groups hr' hk)⟩

theorem PyServedGroups.served {E : Env K} {name : String} {W : ℕ} {rows : List (List K)} {d : String} {t : Dbl K} {w : Bool} {s : Api K}
    (h : PyServedGroups E name W rows d t w s) : PyServed E name W rows s := by
  obtain ⟨hL, hg, ha', hk'⟩ := h
  cases hL with
  | mk hb ht hf hsz hw hc hl ha hk =>
    refine .mk hb ht hf hsz hw hc hl (session_trans (session_trans ha (.snoc (.nil _) hg trivial)) ha') ?_
    intro e he
    simp only [List.nil_append, List.mem_append, List.mem_singleton] at he
    rcases he with (he | rfl) | he
    · exact hk e he
    · exact ⟨by simp, by simp⟩
    · exact ⟨(hk' e he).1, fun h => (hk' e he).2 (by simp at h ⊢; tauto)⟩
  | normalised hb hs hn ha hk =>
    refine .normalised hb hs hn (session_trans (session_trans ha (.snoc (.nil _) hg trivial)) ha') ?_
    intro e he
    simp only [List.nil_append, List.mem_append, List.mem_singleton] at he
    rcases he with (he | rfl) | he
    · exact hk e he
    · exact ⟨by simp, by simp⟩
    · exact ⟨(hk' e he).1, fun h => (hk' e he).2 (by simp at h ⊢; tauto)⟩

/-- A part of a line, read back. -/
theorem served_reads (hA : A = doubleArith) {E : Env K} {F : Files K} {name : String} {W : ℕ} {rows : List (List K)} {s : Api K}
    (hsize : rows.length < 2 ^ 31 ∧ ∀ r ∈ rows, r.length < 2 ^ 31) (h : PyServed E name W rows s) {ℓ j p : ℕ} {y : List K}
    (hy : SubOf rows ℓ j p y) (hℓ : 1 ≤ ℓ) : Reads E F s name j p (p + ℓ) y ∧ Sized roundDouble (2 ^ 480) [y] := by
  obtain ⟨R, file, k1, k2, k3⟩ := h.serves
  obtain ⟨r, h1, h2, rfl⟩ := hy
  obtain ⟨hQ, hz⟩ := C88_query hA k2 k1 k3 j p (p + ℓ) r h1 (by omega) h2
  rw [Nat.add_sub_cancel_left] at hQ hz
  push_cast at hQ
  have hj := (List.getElem?_eq_some_iff.1 h1).1
  have hrl := hsize.2 r (List.mem_of_getElem? h1)
  have hrs := hsize.1
  refine ⟨reads_of hQ ?_ ?_ ?_, hz⟩
  · unfold IntSized; omega
  · unfold IntSized; omega
  · unfold IntSized; omega

end Genex.Py
