import Verif.Spec.Cells

/-!
# Lemmas about the arrays of the accumulators
-/

set_option linter.unusedSectionVars false

namespace Genex

variable {K : Type} [Field K] [LinearOrder K] [HasSqrt K]

theorem rowsEntered_of {M : DM K} (a b : List (Dbl K)) (r : Int) (d : Dbl K) (is : List ℕ) (mt : Mat M) {x : Mat M × Bool}
    (h : rowsLoop a b r d is mt = .ok x) : ∃ l, rowsEntered a b r d is mt = .ok l ∧ l <+: is := by
  induction is generalizing mt with
  | nil => exact ⟨[], rfl, List.prefix_refl _⟩
  | cons i is ih =>
    unfold rowsLoop at h
    unfold rowsEntered
    split at h
    · cases h
    · rename_i mt' best hr
      simp only [hr]
      split at h
      · rename_i hd
        exact ⟨[i], by rw [if_pos hd], ⟨is, rfl⟩⟩
      · rename_i hd
        obtain ⟨l, h1, h2⟩ := ih _ h
        exact ⟨i :: l, by rw [if_neg hd, h1], by simpa using h2⟩

/-- The shape of the events of a finished call. -/
theorem warpedEvents_of {M : DM K} [BandOps] {ratio : ℚ} {a b : List (Dbl K)} {d v : Dbl K} {g p : List (ℕ × ℕ)}
    (h : warpedDistance M ratio a b d g = .ok (v, p)) (hn : ¬ (a.length = 1 ∧ b.length = 1)) :
    0 < a.length ∧ 0 < b.length ∧ ∃ rows, rows <+: List.range' 1 (a.length - 1) ∧
      warpedEvents M ratio a b d = .ok
        ((borderCells (band ratio (max a.length b.length : ℕ)) a.length b.length ++
            rows.flatMap (rowCells (band ratio (max a.length b.length : ℕ)) b.length)).map .new ++
          (cleanCells a.length b.length
            (borderCells (band ratio (max a.length b.length : ℕ)) a.length b.length ++
              rows.flatMap (rowCells (band ratio (max a.length b.length : ℕ)) b.length))).map .del) := by
  unfold warpedDistance at h
  unfold warpedEvents
  simp only at h ⊢
  rw [if_neg hn] at h ⊢
  split at h
  · cases h
  rename_i h0
  rw [if_neg h0]
  refine ⟨by omega, by omega, ?_⟩
  split at h
  · cases h
  rename_i hm0
  split at h
  · cases h
  rename_i hm1
  split at h
  · cases h
  rename_i hm2
  split at h
  · cases h
  rename_i hm3
  obtain ⟨l, h1, h2⟩ := rowsEntered_of _ _ _ _ _ _ hm3
  exact ⟨l, h2, by simp only [hm0, hm1, hm2, h1]⟩

theorem mem_borderCells {r : Int} {m n : ℕ} {c : ℕ × ℕ} (hm : 0 < m) (hn : 0 < n) (h : c ∈ borderCells r m n) :
    (c.1 = 0 ∨ c.2 = 0) ∧ c.1 < m ∧ c.2 < n := by
  unfold borderCells at h
  simp only [List.mem_cons, List.mem_append, List.mem_map, List.mem_range'_1] at h
  rcases h with h | ⟨i, hi, rfl⟩ | ⟨j, hj, rfl⟩
  · subst h; exact ⟨.inl rfl, hm, hn⟩
  · refine ⟨.inr rfl, ?_, hn⟩
    simp only
    omega
  · refine ⟨.inl rfl, hm, ?_⟩
    simp only
    omega

theorem mem_rowCells {r : Int} {n i : ℕ} {c : ℕ × ℕ} (h : c ∈ rowCells r n i) : c.1 = i ∧ c.2 ≠ 0 ∧ c.2 < n := by
  unfold rowCells rowRange at h
  simp only [List.mem_map, List.mem_filter, List.mem_range] at h
  obtain ⟨j, ⟨⟨hj, _⟩, hj0⟩, rfl⟩ := h
  exact ⟨rfl, by simpa using hj0, hj⟩

theorem borderCells_nodup (r : Int) (m n : ℕ) : (borderCells r m n).Nodup := by
  unfold borderCells
  rw [List.nodup_cons, List.nodup_append]
  refine ⟨?_, ?_, ?_, ?_⟩
  · simp only [List.mem_append, List.mem_map, List.mem_range'_1, not_or]
    constructor
    · rintro ⟨i, hi, h⟩
      simp only [Prod.mk.injEq] at h
      omega
    · rintro ⟨i, hi, h⟩
      simp only [Prod.mk.injEq] at h
      omega
  · exact (List.nodup_range' (step := 1)).map (fun x y h => by simpa using h)
  · exact (List.nodup_range' (step := 1)).map (fun x y h => by simpa using h)
  · intro c hc c' hc'
    simp only [List.mem_map, List.mem_range'_1] at hc hc'
    obtain ⟨i, hi, rfl⟩ := hc
    obtain ⟨j, hj, rfl⟩ := hc'
    intro h
    simp only [Prod.mk.injEq] at h
    omega

theorem rowCells_nodup (r : Int) (n i : ℕ) : (rowCells r n i).Nodup := by
  unfold rowCells rowRange
  exact ((List.nodup_range.filter _).filter _).map (fun x y h => by simpa using h)

theorem rows_nodup {rows : List ℕ} (r : Int) (n : ℕ) (h : rows.Nodup) : (rows.flatMap (rowCells r n)).Nodup := by
  induction rows with
  | nil => exact List.nodup_nil
  | cons i rows ih =>
    rw [List.flatMap_cons, List.nodup_append]
    rw [List.nodup_cons] at h
    refine ⟨rowCells_nodup r n i, ih h.2, ?_⟩
    intro c hc c' hc' e
    rw [List.mem_flatMap] at hc'
    obtain ⟨i', hi', hc'⟩ := hc'
    have h1 := (mem_rowCells hc).1
    have h2 := (mem_rowCells hc').1
    rw [← e, h1] at h2
    exact h.1 (h2 ▸ hi')

theorem borderCells_length (r : Int) (m n : ℕ) (hr : 0 ≤ r) (hm : 0 < m) (hn : 0 < n) :
    (borderCells r m n).length + 1 = (min (2 * r + 1) m).toNat + (min (2 * r + 1) n).toNat := by
  unfold borderCells
  simp only [List.length_cons, List.length_append, List.length_map, List.length_range']
  omega

theorem mem_cleanCells {m n : ℕ} {filled : List (ℕ × ℕ)} {c : ℕ × ℕ} :
    c ∈ cleanCells m n filled ↔ c ∈ filled ∧ (1 ≤ c.1 ∧ c.1 < m) ∧ 1 ≤ c.2 ∧ c.2 < n := by
  unfold cleanCells
  simp only [List.mem_flatMap, List.mem_filter, List.mem_map, List.mem_range'_1, decide_eq_true_eq]
  constructor
  · rintro ⟨i, hi, ⟨j, hj, rfl⟩, hf⟩
    exact ⟨hf, ⟨by simp only; omega, by simp only; omega⟩, by simp only; omega, by simp only; omega⟩
  · rintro ⟨hf, hi, hj⟩
    exact ⟨c.1, by omega, ⟨c.2, by omega, rfl⟩, hf⟩

theorem cleanCells_nodup (m n : ℕ) (filled : List (ℕ × ℕ)) : (cleanCells m n filled).Nodup := by
  unfold cleanCells
  have : ∀ l : List ℕ, l.Nodup → (l.flatMap (fun i => ((List.range' 1 (n - 1)).map (i, ·)).filter (· ∈ filled))).Nodup := by
    intro l hl
    induction l with
    | nil => exact List.nodup_nil
    | cons i l ih =>
      rw [List.nodup_cons] at hl
      rw [List.flatMap_cons, List.nodup_append]
      refine ⟨((List.nodup_range' (step := 1)).map (fun x y h => by simpa using h)).filter _, ih hl.2, ?_⟩
      intro c hc c' hc' e
      simp only [List.mem_filter, List.mem_map, List.mem_flatMap] at hc hc'
      obtain ⟨⟨j, -, rfl⟩, -⟩ := hc
      obtain ⟨i', hi', ⟨⟨j', -, rfl⟩, -⟩⟩ := hc'
      simp only [Prod.mk.injEq] at e
      exact hl.1 (e.1 ▸ hi')
  exact this _ (List.nodup_range' (step := 1))

theorem count_new_del (l : List (ℕ × ℕ)) (c : ℕ × ℕ) : (l.map MemEv.new).count (.del c) = 0 := by
  rw [List.count_eq_zero]; simp

theorem count_del_new (l : List (ℕ × ℕ)) (c : ℕ × ℕ) : (l.map MemEv.del).count (.new c) = 0 := by
  rw [List.count_eq_zero]; simp

theorem count_new_new (l : List (ℕ × ℕ)) (c : ℕ × ℕ) : (l.map MemEv.new).count (.new c) = l.count c :=
  List.count_map_of_injective l MemEv.new (fun _ _ h => by cases h; rfl) c

theorem count_del_del (l : List (ℕ × ℕ)) (c : ℕ × ℕ) : (l.map MemEv.del).count (.del c) = l.count c :=
  List.count_map_of_injective l MemEv.del (fun _ _ h => by cases h; rfl) c

theorem deletesOnce_of {f cl : List (ℕ × ℕ)} (hf : f.Nodup) (hc : cl.Nodup) (h : ∀ c ∈ cl, c ∈ f) :
    Spec.DeletesOnce (f.map .new ++ cl.map .del) := by
  constructor
  · intro c
    rw [List.count_append, count_new_new, count_del_new]
    exact List.nodup_iff_count_le_one.mp hf c
  · intro p hp c
    rcases List.prefix_or_prefix_of_prefix hp (List.prefix_append _ _) with hp | ⟨q, rfl⟩
    · have : p.count (.del c) = 0 := by
        rw [List.count_eq_zero]
        intro hm
        have := hp.subset hm
        simp at this
      omega
    · have hq := (List.prefix_append_right_inj _).mp hp
      rw [List.count_append, List.count_append, count_new_del, count_new_new]
      have h1 : q.count (.del c) ≤ cl.count c := by
        rw [← count_del_del]; exact hq.sublist.count_le _
      have h2 : cl.count c ≤ f.count c := by
        by_cases hm : c ∈ cl
        · rw [List.count_eq_one_of_mem hc hm, List.count_eq_one_of_mem hf (h c hm)]
        · rw [List.count_eq_zero_of_not_mem hm]; omega
      omega

end Genex
