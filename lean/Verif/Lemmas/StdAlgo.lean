import Verif.Model.StdAlgo
import Mathlib.Data.List.Perm.Basic

/-! Strict weak orders, heaps, and the reference implementation. -/

namespace Genex

variable {α : Type} {lt : α → α → Prop}

theorem SWO.mono {l l' : List α} (h : SWO lt l) (hs : ∀ a ∈ l', a ∈ l) : SWO lt l' :=
  ⟨fun a ha => h.irrefl a (hs a ha),
   fun a ha b hb c hc => h.trans a (hs a ha) b (hs b hb) c (hs c hc),
   fun a ha b hb c hc => h.incomp a (hs a ha) b (hs b hb) c (hs c hc)⟩

theorem SWO.asymm {l : List α} (h : SWO lt l) {a b : α} (ha : a ∈ l) (hb : b ∈ l) (hab : lt a b) : ¬ lt b a :=
  fun hba => h.irrefl a ha (h.trans a ha b hb a ha hab hba)

/-- "Not smaller" is transitive. -/
theorem SWO.not_trans {l : List α} (h : SWO lt l) {a b c : α} (ha : a ∈ l) (hb : b ∈ l) (hc : c ∈ l)
    (hab : ¬ lt a b) (hbc : ¬ lt b c) : ¬ lt a c := by
  intro hac
  by_cases h1 : lt b a
  · exact hbc (h.trans b hb a ha c hc h1 hac)
  · by_cases h2 : lt c b
    · exact hab (h.trans a ha c hc b hb hac h2)
    · exact (h.incomp a ha b hb c hc hab h1 hbc h2).1 hac

theorem IsHeap.front {x : α} {l : List α} (h : IsHeap lt (x :: l)) (hS : SWO lt (x :: l)) :
    ∀ y ∈ x :: l, ¬ lt x y := by
  have key : ∀ (i : ℕ) y, (x :: l)[i]? = some y → ¬ lt x y := by
    intro i
    induction i using Nat.strongRecOn with
    | ind i ih =>
      intro y hy
      by_cases h0 : i = 0
      · subst h0
        simp only [List.getElem?_cons_zero, Option.some.injEq] at hy
        subst hy
        exact hS.irrefl x (by simp)
      · have hi := (List.getElem?_eq_some_iff.1 hy).1
        have hp : (i - 1) / 2 < (x :: l).length := by omega
        have hp' := List.getElem?_eq_getElem hp
        exact hS.not_trans (by simp) (List.getElem_mem hp) (List.mem_of_getElem? hy)
          (ih _ (by omega) _ hp') (h i _ y (by omega) hp' hy)
  intro y hy
  obtain ⟨i, hi⟩ := List.mem_iff_getElem?.1 hy
  exact key i y hi

section impl

variable [DecidableRel lt]

theorem insertUp_perm (x : α) (l : List α) : (insertUp lt x l).Perm (x :: l) := by
  induction l with
  | nil => exact List.Perm.refl _
  | cons y ys ih =>
    unfold insertUp
    split
    · exact (List.Perm.cons y ih).trans (List.Perm.swap x y ys)
    · exact List.Perm.refl _

theorem sortUp_perm (l : List α) : (sortUp lt l).Perm l := by
  induction l with
  | nil => exact List.Perm.refl _
  | cons x xs ih => exact (insertUp_perm x _).trans (List.Perm.cons x ih)

theorem insertUp_sorted (x : α) (l : List α) (hS : SWO lt (x :: l)) (h : l.Pairwise (fun a b => ¬ lt b a)) :
    (insertUp lt x l).Pairwise (fun a b => ¬ lt b a) := by
  induction l with
  | nil => simp [insertUp]
  | cons y ys ih =>
    rw [List.pairwise_cons] at h
    unfold insertUp
    split
    · rename_i hlt
      rw [List.pairwise_cons]
      refine ⟨?_, ih (hS.mono (by simp; tauto)) h.2⟩
      intro z hz
      rcases List.mem_cons.1 ((insertUp_perm x ys).mem_iff.1 hz) with rfl | hz
      · exact hS.asymm (by simp) (by simp) hlt
      · exact h.1 z hz
    · rename_i hlt
      rw [List.pairwise_cons]
      refine ⟨?_, List.pairwise_cons.2 h⟩
      intro z hz
      rcases List.mem_cons.1 hz with rfl | hz'
      · exact hlt
      · exact hS.not_trans (by simp [hz']) (by simp) (by simp) (h.1 z hz') hlt

theorem sortUp_sorted (l : List α) (hS : SWO lt l) : (sortUp lt l).Pairwise (fun a b => ¬ lt b a) := by
  induction l with
  | nil => simp [sortUp]
  | cons x xs ih =>
    refine insertUp_sorted x _ (hS.mono ?_) (ih (hS.mono (by simp; tauto)))
    intro a ha
    rcases List.mem_cons.1 ha with rfl | ha
    · simp
    · exact List.mem_cons_of_mem _ ((sortUp_perm xs).mem_iff.1 ha)

omit [DecidableRel lt] in
theorem isHeap_of_desc {l : List α} (h : l.Pairwise (fun a b => ¬ lt a b)) : IsHeap lt l := by
  intro i a b hi ha hb
  obtain ⟨h1, rfl⟩ := List.getElem?_eq_some_iff.1 ha
  obtain ⟨h2, rfl⟩ := List.getElem?_eq_some_iff.1 hb
  exact List.pairwise_iff_getElem.1 h _ _ h1 h2 (by omega)

theorem desc_heap (l : List α) (hS : SWO lt l) :
    (sortUp lt l).reverse.Perm l ∧ IsHeap lt (sortUp lt l).reverse :=
  ⟨(List.reverse_perm _).trans (sortUp_perm l),
   isHeap_of_desc (List.pairwise_reverse.2 (sortUp_sorted l hS))⟩

variable (lt) in
/-- The contract can be met, for every comparison. -/
theorem refAlgos_lawful : (refAlgos lt).Lawful lt where
  make l hS := desc_heap l hS
  push l x hS _ := desc_heap (l ++ [x]) hS
  pop x l hS _ := ⟨_, rfl, desc_heap l (hS.mono (by simp; tauto))⟩
  sort l hS := ⟨sortUp_perm l, sortUp_sorted l hS⟩

end impl

end Genex
