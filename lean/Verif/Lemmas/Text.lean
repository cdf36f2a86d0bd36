import Verif.Model.Dataset
import Verif.Spec.Text

/-! `fileLines` and `tokens` meet their specifications. -/

namespace Genex

open Spec

theorem fileLines_ne_nil {t : Text} (h : t ≠ []) : fileLines t ≠ [] := by
  cases t with
  | nil => exact absurd rfl h
  | cons c cs =>
    unfold fileLines
    split
    · simp
    · split <;> simp

theorem linesOf_eq (t : Text) : fileLines t = linesOf t := by
  induction t with
  | nil => simp [fileLines, linesOf]
  | cons c cs ih =>
    unfold fileLines
    rw [ih]
    unfold linesOf
    have hne := List.splitOnP_ne_nil (fun c : Char => decide (c = '\n')) cs
    obtain ⟨p, ps, hp⟩ := List.exists_cons_of_ne_nil hne
    rw [List.splitOnP_cons_eq_if_modifyHead, hp]
    simp only [decide_eq_true_eq]
    split
    · -- newline
      simp only [List.getLast?_cons_cons]
      split <;> simp
    · cases ps with
      | nil =>
        by_cases h : p = []
        · simp [h, List.modifyHead]
        · simp [h, List.modifyHead]
      | cons q qs =>
        simp only [List.modifyHead, List.getLast?_cons_cons]
        by_cases h : (q :: qs).getLast? = some []
        · simp only [if_pos h, List.dropLast]
        · simp only [if_neg h]

theorem splitOnP_dropWhile (P : Char → Bool) (l : Text) :
    (l.splitOnP P).filter (fun p => decide (p ≠ [])) = ((l.dropWhile P).splitOnP P).filter (fun p => decide (p ≠ [])) := by
  induction l with
  | nil => rfl
  | cons c cs ih =>
    by_cases h : P c
    · rw [List.splitOnP_cons_eq_if_modifyHead, if_pos h, List.dropWhile_cons_of_pos h, ← ih]
      simp
    · rw [List.dropWhile_cons_of_neg h]

theorem splitOnP_token (P : Char → Bool) (l : Text) :
    l.splitOnP P = match l.dropWhile (fun c => !P c) with
      | [] => [l.takeWhile (fun c => !P c)]
      | _ :: r => l.takeWhile (fun c => !P c) :: r.splitOnP P := by
  induction l with
  | nil => rfl
  | cons c cs ih =>
    by_cases h : P c
    · simp [List.splitOnP_cons_eq_if_modifyHead, h]
    · rw [List.splitOnP_cons_eq_if_modifyHead, if_neg h, ih]
      simp only [h, Bool.not_false, List.dropWhile_cons_of_pos, List.takeWhile_cons_of_pos]
      split <;> simp [List.modifyHead]

theorem dropWhile_length (P : Char → Bool) (l : Text) : (l.dropWhile P).length ≤ l.length :=
  (List.dropWhile_suffix P).sublist.length_le

theorem tokenLoop_eq (sep : List Char) (fuel : ℕ) : ∀ l : Text, l.length ≤ fuel →
    tokenLoop sep fuel l = columns sep l := by
  induction fuel with
  | zero =>
    intro l hl
    have : l = [] := List.length_eq_zero_iff.1 (by omega)
    subst this
    simp [tokenLoop, columns]
  | succ n ih =>
    intro l hl
    unfold tokenLoop
    have e := splitOnP_dropWhile (fun c => decide (c ∈ sep)) l
    have hlen := dropWhile_length (fun c => decide (c ∈ sep)) l
    have hhead := List.head?_dropWhile_not (fun c => decide (c ∈ sep)) l
    unfold columns
    rw [e]
    generalize l.dropWhile (fun c => decide (c ∈ sep)) = m at *
    cases m with
    | nil => simp
    | cons c cs =>
      simp only [List.head?_cons] at hhead
      simp only [List.length_cons] at hlen
      rw [splitOnP_token]
      have hc : (!decide (c ∈ sep)) = true := by simpa using hhead
      rw [List.dropWhile_cons_of_pos (p := fun c => !decide (c ∈ sep)) hc,
        List.takeWhile_cons_of_pos (p := fun c => !decide (c ∈ sep)) hc]
      have e1 : (fun c => decide (c ∉ sep)) = (fun c => !decide (c ∈ sep)) := by ext c; simp
      simp only [e1]
      have hl2 := dropWhile_length (fun c => !decide (c ∈ sep)) cs
      have hh2 := List.head?_dropWhile_not (fun c => !decide (c ∈ sep)) cs
      have e3 := ih (cs.dropWhile (fun c => !decide (c ∈ sep))) (by omega)
      rw [e3]
      unfold columns
      generalize cs.dropWhile (fun c => !decide (c ∈ sep)) = d at *
      cases d with
      | nil => simp
      | cons x xs =>
        simp only [List.head?_cons] at hh2
        have hx : decide (x ∈ sep) = true := by simpa using hh2
        rw [List.splitOnP_cons_eq_if_modifyHead, if_pos hx]
        simp

theorem tokens_eq (sep : List Char) (l : Text) : tokens sep l = columns sep l := tokenLoop_eq sep _ l le_rfl

end Genex
