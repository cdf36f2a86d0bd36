import Verif.Lemmas.DatasetOps
import Verif.Lemmas.Dbl
import Mathlib.Order.Bounds.Basic

/-! `normalize` on well-formed datasets. -/

set_option linter.unusedSectionVars false

namespace Genex

open Spec Dbl

variable {K : Type} [Field K] [LinearOrder K] [IsStrictOrderedRing K]

/-- The cells of rows of given lengths with stride `mc`, in loop order. -/
def cellList (mc : Int) (rows : List (List (Dbl K))) : List Int :=
  (rows.mapIdx (fun i r => (List.range r.length).map (fun (j : ℕ) => (i : Int) * mc + j))).flatten

theorem cells_ok {ds : Dataset K} {rows : List (List (Dbl K))} (H : Holds ds rows) :
    ds.cells = .ok (cellList ds.maxCol rows) := by
  unfold Dataset.cells cellList
  have key : ∀ ts ∈ List.range ds.itemCount, (do
      let len ← ds.getItemLength ts
      if len < 0 then .error (.ub "loop bound wraps around")
      else .ok ((List.range len.toNat).map (fun (i : ℕ) => (ts : Int) * ds.maxCol + i)) : Res (List Int)) =
      .ok ((List.range (rows.getD ts []).length).map (fun (i : ℕ) => (ts : Int) * ds.maxCol + i)) := by
    intro ts hts
    rw [List.mem_range, H.count] at hts
    rw [H.getItemLength (getElem?_getD' hts [])]
    simp only [bind, Except.bind]
    rw [if_neg (by omega), Int.toNat_natCast]
  rw [mapM_ok _ _ _ key]
  simp only [bind, Except.bind]
  congr 2
  apply List.ext_getElem?
  intro i
  rw [List.getElem?_map, List.getElem?_mapIdx, H.count]
  by_cases hi : i < rows.length
  · rw [List.getElem?_range hi, getElem?_getD' hi []]
    rfl
  · rw [List.getElem?_eq_none (by rw [List.length_range]; omega), List.getElem?_eq_none (l := rows) (by omega)]
    rfl

theorem mem_cellList {mc : Int} {rows : List (List (Dbl K))} {c : Int} :
    c ∈ cellList mc rows ↔ ∃ (i j : ℕ) (r : List (Dbl K)) (x : Dbl K), rows[i]? = some r ∧ r[j]? = some x ∧
      c = (i : Int) * mc + j := by
  unfold cellList
  simp only [List.mem_flatten, List.mem_mapIdx]
  constructor
  · rintro ⟨l, ⟨i, hi, rfl⟩, hc⟩
    obtain ⟨j, hj, rfl⟩ := List.mem_map.1 hc
    rw [List.mem_range] at hj
    exact ⟨i, j, rows[i], rows[i][j], List.getElem?_eq_getElem hi, List.getElem?_eq_getElem hj, rfl⟩
  · rintro ⟨i, j, r, x, hr, hx, rfl⟩
    obtain ⟨hi, rfl⟩ := List.getElem?_eq_some_iff.1 hr
    obtain ⟨hj, -⟩ := List.getElem?_eq_some_iff.1 hx
    exact ⟨_, ⟨i, hi, rfl⟩, List.mem_map.2 ⟨j, List.mem_range.2 hj, rfl⟩⟩

theorem cell_inj {mc : Int} {i j i' j' : ℕ} (hj : (j : Int) < mc) (hj' : (j' : Int) < mc)
    (h : (i : Int) * mc + j = (i' : Int) * mc + j') : i = i' ∧ j = j' := by
  rcases lt_trichotomy i i' with hlt | rfl | hlt
  · have : ((i : Int) + 1) * mc ≤ (i' : Int) * mc := by
      apply mul_le_mul_of_nonneg_right (by exact_mod_cast hlt) (by omega)
    rw [add_mul] at this; omega
  · exact ⟨rfl, by omega⟩
  · have : ((i' : Int) + 1) * mc ≤ (i : Int) * mc := by
      apply mul_le_mul_of_nonneg_right (by exact_mod_cast hlt) (by omega)
    rw [add_mul] at this; omega

theorem cellList_nodup {mc : Int} {rows : List (List (Dbl K))} (h : ∀ r ∈ rows, (r.length : Int) ≤ mc) :
    (cellList mc rows).Nodup := by
  unfold cellList
  rw [List.nodup_flatten]
  constructor
  · intro l hl
    rw [List.mem_mapIdx] at hl
    obtain ⟨i, hi, rfl⟩ := hl
    refine List.Nodup.map (fun a b hab => ?_) List.nodup_range
    omega
  · rw [List.pairwise_iff_getElem]
    intro a b ha hb hab
    simp only [List.length_mapIdx] at ha hb
    rw [List.getElem_mapIdx, List.getElem_mapIdx]
    intro c hc hc'
    simp only [List.mem_map, List.mem_range] at hc hc'
    obtain ⟨j, hj, rfl⟩ := hc
    obtain ⟨j', hj', e⟩ := hc'
    have h1 := h _ (List.getElem_mem ha)
    have h2 := h _ (List.getElem_mem hb)
    obtain ⟨e1, -⟩ := cell_inj (mc := mc) (by omega) (by omega) e
    omega

theorem read_write {ds ds' : Dataset K} {c : Int} {x : Dbl K} (h : ds.write c x = .ok ds') (c' : Int) :
    ds'.read c' = if c' = c then .ok x else ds.read c' := by
  unfold Dataset.write at h
  cases hd : ds.data with
  | none => simp [hd] at h
  | some buf =>
    simp only [hd] at h
    split at h
    · rename_i hb
      rw [Except.ok.injEq] at h
      subst h
      unfold Dataset.read
      simp only [hd]
      by_cases hc : c' = c
      · subst hc
        rw [if_pos rfl, if_neg (by omega), List.getElem?_set_self (by omega)]
      · rw [if_neg hc]
        split
        · rfl
        · rw [List.getElem?_set_ne (by omega)]
    · simp at h

theorem write_ok {ds : Dataset K} {c : Int} {y : Dbl K} (h : ds.read c = .ok y) (x : Dbl K) :
    ∃ buf, ds.write c x = .ok { ds with data := some buf } := by
  unfold Dataset.read at h
  unfold Dataset.write
  cases hd : ds.data with
  | none => simp [hd] at h
  | some buf =>
    simp only [hd] at h ⊢
    split at h
    · simp at h
    · rename_i hc
      cases hb : buf[c.toNat]? with
      | none => simp [hb] at h
      | some z =>
        obtain ⟨hl, -⟩ := List.getElem?_eq_some_iff.1 hb
        rw [if_pos ⟨by omega, by omega⟩]
        exact ⟨_, rfl⟩

/-- A loop that rewrites distinct cells. -/
theorem rewriteLoop (g : Dbl K → Dbl K) (step : Dataset K → Int → Res (Dataset K))
    (hstep : ∀ d c x, d.read c = .ok x → step d c = d.write c (g x)) : ∀ (cs : List Int) (ds : Dataset K), cs.Nodup →
    (∀ c ∈ cs, ∃ x, ds.read c = .ok x) → ∃ ds', cs.foldlM step ds = .ok ds' ∧
      (∃ dat, ds' = { ds with data := dat }) ∧
      (∀ c ∈ cs, ∀ x, ds.read c = .ok x → ds'.read c = .ok (g x)) ∧ ∀ c, c ∉ cs → ds'.read c = ds.read c := by
  intro cs
  induction cs with
  | nil => intro ds _ _; exact ⟨ds, rfl, ⟨ds.data, rfl⟩, by simp, fun _ _ => rfl⟩
  | cons c cs ih =>
    intro ds hnd hr
    rw [List.nodup_cons] at hnd
    obtain ⟨x, hx⟩ := hr c (by simp)
    obtain ⟨buf, hw⟩ := write_ok hx (g x)
    have hrw := read_write hw
    obtain ⟨ds', e, ⟨dat, hdat⟩, h1, h2⟩ := ih { ds with data := some buf } hnd.2 (fun c' hc' => by
      rw [hrw]
      have : c' ≠ c := fun e => hnd.1 (e ▸ hc')
      rw [if_neg this]
      exact hr c' (by simp [hc']))
    refine ⟨ds', ?_, ⟨dat, by rw [hdat]⟩, ?_, ?_⟩
    · rw [List.foldlM_cons, hstep _ _ _ hx, hw]
      exact e
    · intro c' hc' y hy
      rcases List.mem_cons.1 hc' with rfl | hc'
      · rw [hx, Except.ok.injEq] at hy
        subst hy
        rw [h2 _ hnd.1, hrw, if_pos rfl]
      · refine h1 c' hc' y ?_
        have hcc : c' ≠ c := fun e => hnd.1 (e ▸ hc')
        rw [hrw, if_neg hcc, hy]
    · intro c' hc'
      simp only [List.mem_cons, not_or] at hc'
      rw [h2 c' hc'.2, hrw, if_neg hc'.1]

/-- The search for the extremes over readable finite cells. -/
theorem minMax_ok (ds : Dataset K) : ∀ (cs : List Int) (m : Dbl K × Dbl K) (S : Set K),
    (∀ c ∈ cs, ∃ x, ds.read c = .ok (fin x)) →
    ((m = (.inf, .ninf) ∧ S = ∅) ∨ ∃ a b, m = (fin a, fin b) ∧ IsLeast S a ∧ IsGreatest S b) →
    ∃ m', cs.foldlM ds.minMaxStep m = .ok m' ∧
      ((m' = (.inf, .ninf) ∧ (S ∪ {x | ∃ c ∈ cs, ds.read c = .ok (fin x)}) = ∅) ∨
        ∃ a b, m' = (fin a, fin b) ∧ IsLeast (S ∪ {x | ∃ c ∈ cs, ds.read c = .ok (fin x)}) a ∧
          IsGreatest (S ∪ {x | ∃ c ∈ cs, ds.read c = .ok (fin x)}) b) := by
  intro cs
  induction cs with
  | nil => intro m S _ h; exact ⟨m, rfl, by simpa using h⟩
  | cons c cs ih =>
    intro m S hr h
    obtain ⟨x, hx⟩ := hr c (by simp)
    have hstep : ds.minMaxStep m c = .ok (if fin x < m.1 then fin x else m.1, if m.2 < fin x then fin x else m.2) := by
      unfold Dataset.minMaxStep
      rw [hx]; rfl
    obtain ⟨m', e, h'⟩ := ih (if fin x < m.1 then fin x else m.1, if m.2 < fin x then fin x else m.2) (S ∪ {x})
      (fun c' hc' => hr c' (by simp [hc'])) (by
        right
        rcases h with ⟨rfl, rfl⟩ | ⟨a, b, rfl, ha, hb⟩
        · exact ⟨x, x, by simp, by simp, by simp⟩
        · refine ⟨min a x, max b x, ?_, ?_, ?_⟩
          · simp only [fin_lt_fin, Prod.mk.injEq]
            constructor
            · split
              · rename_i hlt; rw [min_eq_right (_root_.le_of_lt hlt)]
              · rename_i hlt; rw [min_eq_left (_root_.not_lt.1 hlt)]
            · split
              · rename_i hlt; rw [max_eq_right (_root_.le_of_lt hlt)]
              · rename_i hlt; rw [max_eq_left (_root_.not_lt.1 hlt)]
          · exact ha.union isLeast_singleton
          · exact hb.union isGreatest_singleton)
    have hS : S ∪ {x} ∪ {y | ∃ c ∈ cs, ds.read c = .ok (fin y)} = S ∪ {y | ∃ c' ∈ c :: cs, ds.read c' = .ok (fin y)} := by
      ext y
      simp only [Set.mem_union, Set.mem_singleton_iff, Set.mem_ofPred_eq, List.mem_cons, exists_eq_or_imp, hx,
        Except.ok.injEq, Dbl.fin.injEq, eq_comm (a := x), or_assoc]
    rw [hS] at h'
    exact ⟨m', by rw [List.foldlM_cons, hstep]; exact e, h'⟩

/-- Values of the rows as a set. -/
def valSet (rows : List (List K)) : Set K := {x | ∃ r ∈ rows, x ∈ r}

theorem readSet {ds : Dataset K} {rows : List (List K)} (H : Holds ds (rows.map (·.map fin))) :
    {x | ∃ c ∈ cellList ds.maxCol (rows.map (·.map fin)), ds.read c = .ok (fin x)} = valSet rows := by
  ext x
  simp only [Set.mem_ofPred_eq, mem_cellList, valSet]
  constructor
  · rintro ⟨c, ⟨i, j, r, y, hr, hy, rfl⟩, hc⟩
    rw [H.cells i r hr j y hy, Except.ok.injEq] at hc
    subst hc
    rw [List.getElem?_map, Option.map_eq_some_iff] at hr
    obtain ⟨r', hr', rfl⟩ := hr
    rw [List.getElem?_map, Option.map_eq_some_iff] at hy
    obtain ⟨y', hy', e⟩ := hy
    rw [Dbl.fin.injEq] at e
    subst e
    exact ⟨r', List.mem_of_getElem? hr', List.mem_of_getElem? hy'⟩
  · rintro ⟨r, hr, hx⟩
    obtain ⟨i, hi⟩ := List.mem_iff_getElem?.1 hr
    obtain ⟨j, hj⟩ := List.mem_iff_getElem?.1 hx
    have h1 : (rows.map (·.map fin))[i]? = some (r.map fin) := by rw [List.getElem?_map, hi]; rfl
    have h2 : (r.map fin)[j]? = some (fin x) := by rw [List.getElem?_map, hj]; rfl
    exact ⟨_, ⟨i, j, _, _, h1, h2, rfl⟩, H.cells i _ h1 j _ h2⟩

/-- Rewriting every cell keeps the dataset well-formed. -/
theorem holds_rewrite (g : Dbl K → Dbl K) (step : Dataset K → Int → Res (Dataset K))
    (hstep : ∀ d c x, d.read c = .ok x → step d c = d.write c (g x)) {ds : Dataset K} {rows : List (List (Dbl K))}
    (H : Holds ds rows) : ∃ ds', (cellList ds.maxCol rows).foldlM step ds = .ok ds' ∧
      (∃ dat, ds' = { ds with data := dat }) ∧ Holds ds' (rows.map (·.map g)) := by
  have hfit : ∀ r ∈ rows, (r.length : Int) ≤ ds.maxCol := fun r hr => by
    obtain ⟨i, hi⟩ := List.mem_iff_getElem?.1 hr
    exact H.fits i r hi
  obtain ⟨ds', e, ⟨dat, rfl⟩, h1, -⟩ := rewriteLoop g step hstep (cellList ds.maxCol rows) ds (cellList_nodup hfit)
    (fun c hc => by
      obtain ⟨i, j, r, x, hr, hx, rfl⟩ := mem_cellList.1 hc
      exact ⟨x, H.cells i r hr j x hx⟩)
  refine ⟨_, e, ⟨dat, rfl⟩, ?_, ?_, ?_, ?_⟩
  · simpa using H.count
  · simp [H.lens]
  · intro i r hr
    rw [List.getElem?_map, Option.map_eq_some_iff] at hr
    obtain ⟨r', hr', rfl⟩ := hr
    simpa using H.fits i r' hr'
  · intro i r hr j x hx
    rw [List.getElem?_map, Option.map_eq_some_iff] at hr
    obtain ⟨r', hr', rfl⟩ := hr
    rw [List.getElem?_map, Option.map_eq_some_iff] at hx
    obtain ⟨x', hx', rfl⟩ := hx
    exact h1 _ (mem_cellList.2 ⟨i, j, r', x', hr', hx', rfl⟩) x' (H.cells i r' hr' j x' hx')

theorem holds_normalized {ds : Dataset K} {rows : List (List (Dbl K))} (H : Holds ds rows) (b : Bool) :
    Holds { ds with normalized := b } rows := ⟨H.count, H.lens, H.fits, H.cells⟩

/-- What `normalize` does to one value. -/
def scale (lo hi x : K) : K := if lo = hi then 0 else (x - lo) / (hi - lo)

theorem normalize_ok {ds : Dataset K} {rows : List (List K)} (H : Holds ds (rows.map (·.map fin)))
    (hne : (valSet rows).Nonempty) : ∃ ds' lo hi, ds.normalize = .ok (ds', (fin lo, fin hi)) ∧
      IsLeast (valSet rows) lo ∧ IsGreatest (valSet rows) hi ∧ ds'.normalized = true ∧
      Holds ds' (rows.map (·.map (fun x => fin (scale lo hi x)))) ∧
      ds'.names = ds.names ∧ ds'.filePath = ds.filePath ∧ ds'.maxCol = ds.maxCol := by
  have hcount : ds.itemCount ≠ 0 := by
    obtain ⟨x, r, hr, -⟩ := hne
    rw [H.count, List.length_map]
    exact fun h => by rw [List.length_eq_zero_iff.1 h] at hr; simp at hr
  obtain ⟨m, em, hm⟩ := minMax_ok ds (cellList ds.maxCol (rows.map (·.map fin))) (.inf, .ninf) ∅ (fun c hc => by
      obtain ⟨i, j, r, x, hr, hx, rfl⟩ := mem_cellList.1 hc
      have := H.cells i r hr j x hx
      rw [List.getElem?_map, Option.map_eq_some_iff] at hr
      obtain ⟨r', hr', rfl⟩ := hr
      rw [List.getElem?_map, Option.map_eq_some_iff] at hx
      obtain ⟨x', hx', rfl⟩ := hx
      exact ⟨x', this⟩) (Or.inl ⟨rfl, rfl⟩)
  rw [readSet H, Set.empty_union] at hm
  rcases hm with ⟨-, hm⟩ | ⟨lo, hi, rfl, hlo, hhi⟩
  · exact absurd hm hne.ne_empty
  have hle : lo ≤ hi := hlo.2 hhi.1
  have hall : ∀ r ∈ rows, ∀ x ∈ r, lo ≤ x ∧ x ≤ hi := fun r hr x hx => ⟨hlo.2 ⟨r, hr, hx⟩, hhi.2 ⟨r, hr, hx⟩⟩
  unfold Dataset.normalize
  rw [if_neg hcount, cells_ok H]
  simp only [bind, Except.bind]
  rw [em]
  simp only [fin_sub_fin]
  by_cases hd : lo = hi
  · subst hd
    have e1 : Dbl.eqD (fin (lo - lo) : Dbl K) 0 := by
      constructor
      · rw [sub_self]; rfl
      · simp
    rw [if_pos e1]
    by_cases h0 : lo = 0
    · subst h0
      have e0 : Dbl.eqD (fin 0 : Dbl K) 0 := ⟨rfl, by simp⟩
      rw [if_pos e0]
      refine ⟨_, _, _, rfl, hlo, hhi, rfl, ?_, rfl, rfl, rfl⟩
      have : rows.map (fun r => r.map (fun x => fin (scale 0 0 x))) = rows.map (·.map fin) := by
        apply List.map_congr_left
        intro r hr
        apply List.map_congr_left
        intro x hx
        have := hall r hr x hx
        rw [scale, if_pos rfl, _root_.le_antisymm this.2 this.1]
      rw [this]
      exact holds_normalized H true
    · rw [if_neg (fun h : Dbl.eqD (fin lo : Dbl K) 0 => h0 (by have := h.1; rw [zero_def] at this; simpa using this))]
      obtain ⟨ds', e, ⟨dat, rfl⟩, H'⟩ := holds_rewrite (fun _ => (0 : Dbl K)) (fun d c => d.write c 0)
        (fun _ _ _ _ => rfl) H
      rw [e]
      refine ⟨_, _, _, rfl, hlo, hhi, rfl, ?_, rfl, rfl, rfl⟩
      have : rows.map (fun r => r.map (fun x => fin (scale lo lo x))) =
          (rows.map (·.map fin)).map (·.map (fun _ => (0 : Dbl K))) := by
        simp [scale, zero_def]
      rw [this]
      exact holds_normalized H' true
  · have hpos : hi - lo ≠ 0 := sub_ne_zero.2 (fun e => hd e.symm)
    rw [if_neg (fun h : Dbl.eqD (fin (hi - lo) : Dbl K) 0 => hpos (by
      have := h.1; rw [zero_def] at this; simpa using this))]
    obtain ⟨ds', e, ⟨dat, rfl⟩, H'⟩ := holds_rewrite (fun x => (x - fin lo) / fin (hi - lo))
      (fun d c => do let x ← d.read c; d.write c ((x - fin lo) / fin (hi - lo)))
      (fun d c x hx => by simp only [hx, bind, Except.bind]) H
    simp only [bind, Except.bind] at e
    rw [e]
    refine ⟨_, _, _, rfl, hlo, hhi, rfl, ?_, rfl, rfl, rfl⟩
    have : rows.map (fun r => r.map (fun x => fin (scale lo hi x))) =
        (rows.map (·.map fin)).map (·.map (fun x => (x - fin lo) / fin (hi - lo))) := by
      simp [scale, hd, fin_div_fin hpos]
    rw [this]
    exact holds_normalized H' true

end Genex
