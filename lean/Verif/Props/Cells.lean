import Verif.Lemmas.Cells

/-!
# C66: a distance deletes what it allocates
-/

set_option linter.unusedSectionVars false

namespace Genex.Props

open Dbl

section

variable {K : Type} [Field K] [LinearOrder K] [HasSqrt K]

/-- C66: a computation that comes to an end has a list of events, and it never deletes an array twice or before it is made, and never
overwrites the pointer to an array. -/
theorem C66_once (M : DM K) [BandOps] (ratio : ℚ) (a b : List (Dbl K)) (d v : Dbl K) (g p : List (ℕ × ℕ))
    (h : warpedDistance M ratio a b d g = .ok (v, p)) :
    ∃ evs, warpedEvents M ratio a b d = .ok evs ∧ Spec.DeletesOnce evs := by
  by_cases hn : a.length = 1 ∧ b.length = 1
  · refine ⟨[.new (0, 0), .del (0, 0)], by unfold warpedEvents; simp only; rw [if_pos hn], ?_⟩
    exact deletesOnce_of (f := [(0, 0)]) (cl := [(0, 0)]) (by simp) (by simp) (by simp)
  · obtain ⟨h1, h2, rows, hr, he⟩ := warpedEvents_of h hn
    refine ⟨_, he, deletesOnce_of ?_ (cleanCells_nodup _ _ _) (fun c hc => (mem_cleanCells.mp hc).1)⟩
    rw [List.nodup_append]
    refine ⟨borderCells_nodup _ _ _, rows_nodup _ _ (hr.sublist.nodup (List.nodup_range' (step := 1))), ?_⟩
    intro c hc c' hc' e
    subst e
    rw [List.mem_flatMap] at hc'
    obtain ⟨i, hi, hc'⟩ := hc'
    have h3 := mem_rowCells hc'
    have h4 := mem_borderCells h1 h2 hc
    have h5 := hr.subset hi
    rw [List.mem_range'_1] at h5
    omega

/-- C66, part: two single points leak nothing, and otherwise no array of a cell outside the first row and column leaks.  Missing: the
first row and column (`C66_false`). -/
theorem C66_partial (M : DM K) [BandOps] (ratio : ℚ) (a b : List (Dbl K)) (d v : Dbl K) (g p : List (ℕ × ℕ)) (evs : List MemEv)
    (h : warpedDistance M ratio a b d g = .ok (v, p)) (he : warpedEvents M ratio a b d = .ok evs) (c : ℕ × ℕ)
    (hc : (a.length = 1 ∧ b.length = 1) ∨ (c.1 ≠ 0 ∧ c.2 ≠ 0)) : ¬ Spec.Leaks evs c := by
  by_cases hn : a.length = 1 ∧ b.length = 1
  · unfold warpedEvents at he
    simp only at he
    rw [if_pos hn] at he
    cases he
    rintro ⟨h1, h2⟩
    simp only [List.mem_cons, MemEv.new.injEq, reduceCtorEq, List.not_mem_nil, or_false] at h1
    subst h1
    simp at h2
  · have hc := hc.resolve_left hn
    obtain ⟨h1, h2, rows, hr, he'⟩ := warpedEvents_of h hn
    rw [he'] at he
    cases he
    rintro ⟨h3, h4⟩
    simp only [List.mem_append, List.mem_map, MemEv.new.injEq, exists_eq_right, reduceCtorEq, and_false, exists_false, or_false] at h3
    apply h4
    refine List.mem_append_right _ (List.mem_map_of_mem ?_)
    rw [mem_cleanCells]
    refine ⟨List.mem_append.mpr h3, ?_⟩
    rcases h3 with h3 | h3
    · have := mem_borderCells h1 h2 h3
      omega
    · rw [List.mem_flatMap] at h3
      obtain ⟨i, hi, h3⟩ := h3
      have h5 := mem_rowCells h3
      have h6 := hr.subset hi
      rw [List.mem_range'_1] at h6
      omega

/-- C66 is false: every computation on series that are not both single points loses `min(2r+1, m) + min(2r+1, n) - 1` arrays, with the
band `r`. -/
theorem C66_false (M : DM K) [BandOps] (ratio : ℚ) (hr0 : 0 ≤ ratio) (a b : List (Dbl K)) (d v : Dbl K) (g p : List (ℕ × ℕ)) (evs : List MemEv)
    (h : warpedDistance M ratio a b d g = .ok (v, p)) (he : warpedEvents M ratio a b d = .ok evs)
    (hn : ¬ (a.length = 1 ∧ b.length = 1)) :
    ∃ lost : List (ℕ × ℕ), lost.Nodup ∧ (∀ c, c ∈ lost ↔ Spec.Leaks evs c) ∧
      (lost.length : Int) = min (2 * band ratio (max a.length b.length : ℕ) + 1) a.length +
        min (2 * band ratio (max a.length b.length : ℕ) + 1) b.length - 1 := by
  obtain ⟨h1, h2, rows, hr, he'⟩ := warpedEvents_of h hn
  rw [he'] at he
  cases he
  refine ⟨_, borderCells_nodup (band ratio (max a.length b.length : ℕ)) a.length b.length, ?_, ?_⟩
  · intro c
    constructor
    · intro hc
      refine ⟨List.mem_append_left _ (List.mem_map_of_mem (List.mem_append_left _ hc)), ?_⟩
      intro hd
      simp only [List.mem_append, List.mem_map, MemEv.del.injEq, exists_eq_right, reduceCtorEq, and_false, exists_false,
        false_or] at hd
      rw [mem_cleanCells] at hd
      have := mem_borderCells h1 h2 hc
      omega
    · rintro ⟨h3, h4⟩
      simp only [List.mem_append, List.mem_map, MemEv.new.injEq, exists_eq_right, reduceCtorEq, and_false, exists_false,
        or_false] at h3
      rcases h3 with h3 | h3
      · exact h3
      · exfalso
        apply h4
        refine List.mem_append_right _ (List.mem_map_of_mem ?_)
        rw [mem_cleanCells]
        refine ⟨List.mem_append_right _ h3, ?_⟩
        rw [List.mem_flatMap] at h3
        obtain ⟨i, hi, h3⟩ := h3
        have h5 := mem_rowCells h3
        have h6 := hr.subset hi
        rw [List.mem_range'_1] at h6
        omega
  · have hb : 0 ≤ band ratio (max a.length b.length : ℕ) := by
      unfold band
      have := Int.floor_nonneg.2 (BandOps.nonneg ratio (max a.length b.length) (by assumption))
      omega
    have := borderCells_length (band ratio (max a.length b.length : ℕ)) a.length b.length hb h1 h2
    omega

end

example : warpedEvents (sorensen ℚ) (1 / 2) [fin 1, fin 2] [fin 1, fin 3] .inf = .ok
    [.new (0, 0), .new (1, 0), .new (0, 1), .new (1, 1), .del (1, 1)] := by decide +kernel
example := C66_false (sorensen ℚ) (1 / 2) (by norm_num) [fin 1, fin 2] [fin 1, fin 3] .inf (fin (1 / 7)) [] [(0, 0), (1, 1)] _
  (by decide +kernel) (show warpedEvents (sorensen ℚ) (1 / 2) [fin 1, fin 2] [fin 1, fin 3] .inf = .ok
    [.new (0, 0), .new (1, 0), .new (0, 1), .new (1, 1), .del (1, 1)] by decide +kernel) (by decide)

end Genex.Props
