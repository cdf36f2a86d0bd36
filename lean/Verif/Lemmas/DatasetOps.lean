import Verif.Lemmas.DatasetFail

/-! Access, saving and normalisation of well-formed datasets. -/

set_option linter.unusedSectionVars false

namespace Genex

open Spec

theorem getElem?_getD' {α : Type} {l : List α} {i : ℕ} (h : i < l.length) (d : α) : l[i]? = some (l.getD i d) := by
  rw [List.getD_eq_getElem?_getD, List.getElem?_eq_getElem h]; rfl

theorem mapM_ok {α β : Type} (f : α → Res β) (g : α → β) : ∀ l : List α, (∀ x ∈ l, f x = .ok (g x)) →
    l.mapM f = .ok (l.map g) := by
  intro l
  induction l with
  | nil => intro _; rfl
  | cons x xs ih =>
    intro h
    rw [List.mapM_cons, h x (by simp), ih (fun y hy => h y (by simp [hy]))]
    rfl

variable {K : Type} [Field K]

theorem Spec.Holds.getItemLength {ds : Dataset K} {rows : List (List (Dbl K))} (H : Holds ds rows) {i : ℕ}
    {r : List (Dbl K)} (hr : rows[i]? = some r) : ds.getItemLength i = .ok (r.length : Int) := by
  unfold Dataset.getItemLength
  rw [if_neg (by omega), Int.toNat_natCast, H.lens, List.getElem?_map, hr]
  rfl

theorem Spec.Holds.lt {ds : Dataset K} {rows : List (List (Dbl K))} (H : Holds ds rows) {i : ℕ}
    {r : List (Dbl K)} (hr : rows[i]? = some r) : i < ds.itemCount := by
  rw [H.count]
  exact (List.getElem?_eq_some_iff.1 hr).1

/-- Points `s .. e-1` of a row. -/
def slice (r : List (Dbl K)) (s e : ℕ) : List (Dbl K) := (r.drop s).take (e - s)

theorem slice_length (r : List (Dbl K)) (s e : ℕ) (h : e ≤ r.length) : (slice r s e).length = e - s := by
  unfold slice; rw [List.length_take, List.length_drop]; omega

theorem slice_getElem? (r : List (Dbl K)) (s e j : ℕ) (h : j < e - s) : (slice r s e)[j]? = r[s + j]? := by
  unfold slice; rw [List.getElem?_take, if_pos h, List.getElem?_drop]

theorem Spec.Holds.points {ds : Dataset K} {rows : List (List (Dbl K))} (H : Holds ds rows) {i s e : ℕ}
    {r : List (Dbl K)} (hr : rows[i]? = some r) (he : e ≤ r.length) :
    ds.points { base := i * ds.maxCol, index := i, start := s, stop := e } = .ok (slice r s e) := by
  unfold Dataset.points
  have hlen : ({ base := (i : Int) * ds.maxCol, index := i, start := s, stop := e } : View).length.toNat = e - s := by
    simp only [View.length]; omega
  rw [hlen, mapM_ok _ (fun j => r.getD (s + j) .nan)]
  · congr 1
    apply List.ext_getElem?
    intro j
    rw [List.getElem?_map]
    by_cases hj : j < e - s
    · rw [List.getElem?_range hj, slice_getElem? _ _ _ _ hj, Option.map_some,
        List.getD_eq_getElem?_getD, List.getElem?_eq_getElem (by omega)]
      rfl
    · rw [List.getElem?_eq_none (by simp; omega), List.getElem?_eq_none (by rw [slice_length _ _ _ he]; omega)]
      rfl
  · intro j hj
    rw [List.mem_range] at hj
    unfold Dataset.pointAt
    rw [if_neg (by simp only [View.length]; omega)]
    have hx : r[s + j]? = some (r.getD (s + j) .nan) := by
      rw [List.getD_eq_getElem?_getD, List.getElem?_eq_getElem (by omega)]; rfl
    have := H.cells i r hr (s + j) _ hx
    rw [← this]
    congr 1
    push_cast
    ring

theorem Spec.Holds.getTimeSeries {ds : Dataset K} {rows : List (List (Dbl K))} (H : Holds ds rows) {i s e : ℕ}
    {r : List (Dbl K)} (hr : rows[i]? = some r) (hs : s < e) (he : e ≤ r.length) :
    ds.getTimeSeries i s e = .ok { base := i * ds.maxCol, index := i, start := s, stop := e } := by
  have := H.lt hr
  unfold Dataset.getTimeSeries
  rw [if_neg (by omega), if_neg (by omega), H.getItemLength hr]
  simp only [bind, Except.bind]
  rw [if_neg (by omega)]

theorem Spec.Holds.whole {ds : Dataset K} {rows : List (List (Dbl K))} (H : Holds ds rows) {i : ℕ} {r : List (Dbl K)}
    (hr : rows[i]? = some r) (s e : Int) (hs : s < 0) (he : e < 0) :
    ds.getTimeSeries i s e = .ok { base := i * ds.maxCol, index := i, start := 0, stop := r.length } := by
  have := H.lt hr
  unfold Dataset.getTimeSeries
  rw [if_neg (by omega), if_pos ⟨hs, he⟩, H.getItemLength hr]
  rfl

theorem slice_all (r : List (Dbl K)) : slice r 0 r.length = r := by simp [slice]

theorem Spec.Holds.shows {ds : Dataset K} {rows : List (List (Dbl K))} (H : Holds ds rows) : Shows ds rows := by
  refine ⟨H.count, fun i r hr => ⟨H.getItemLength hr, ?_⟩⟩
  rw [H.whole hr _ _ (by omega) (by omega)]
  have := H.points (s := 0) hr le_rfl
  rw [slice_all] at this
  simpa [bind, Except.bind] using this

/-! ### Saving -/

/-- The text of one row. -/
def rowText (print : Dbl K → Text) (sep : Char) (name : Option Text) (r : List (Dbl K)) : Text :=
  (match name with | none => [] | some n => n ++ [sep]) ++ (r.map (fun x => print x ++ [sep])).flatten

theorem saveData_ok (print : Dbl K → Text) (sep : Char) {ds : Dataset K} {rows : List (List (Dbl K))} (H : Holds ds rows)
    (hn : ds.names = [] ∨ ds.names.length = rows.length) :
    ds.saveData print sep = .ok ((rows.mapIdx (fun i r => rowText print sep ds.names[i]? r ++ ['\n'])).flatten) := by
  unfold Dataset.saveData
  have key : ∀ i ∈ List.range ds.itemCount, ds.saveRow print sep i =
      .ok (rowText print sep ds.names[i]? (rows.getD i []) ++ ['\n']) := by
    intro i hi
    rw [List.mem_range, H.count] at hi
    have hr : rows[i]? = some (rows.getD i []) := getElem?_getD' hi []
    have hc : (List.range (((rows.getD i []).length : Int)).toNat).mapM
        (fun (j : ℕ) => ds.read ((i : Int) * ds.maxCol + j)) = .ok (rows.getD i []) := by
      rw [Int.toNat_natCast, mapM_ok _ (fun j => (rows.getD i []).getD j .nan)]
      · congr 1
        apply List.ext_getElem?
        intro j
        rw [List.getElem?_map]
        by_cases hj : j < (rows.getD i []).length
        · rw [List.getElem?_range hj, Option.map_some, getElem?_getD' hj .nan]
        · rw [List.getElem?_eq_none (by rw [List.length_range]; omega), List.getElem?_eq_none (by omega)]
          rfl
      · intro j hj
        rw [List.mem_range] at hj
        exact H.cells i _ hr j _ (getElem?_getD' hj .nan)
    unfold Dataset.saveRow
    generalize rows.getD i [] = r at *
    rcases hn with h | h
    · simp only [h, H.getItemLength hr, hc, bind, Except.bind, List.isEmpty_nil, if_true]
      simp [rowText]
    · have hne : ds.names.isEmpty = false := by
        cases hnm : ds.names with
        | nil => rw [hnm] at h; simp at h; omega
        | cons a b => rfl
      have hni : ds.names[i]? = some (ds.names[i]'(by omega)) := List.getElem?_eq_getElem (by omega)
      simp only [hne, hni, H.getItemLength hr, hc, bind, Except.bind, Bool.false_eq_true, if_false]
      simp [rowText]
  rw [mapM_ok _ _ _ key]
  simp only [bind, Except.bind]
  congr 2
  apply List.ext_getElem?
  intro i
  rw [List.getElem?_map, List.getElem?_mapIdx, H.count]
  by_cases hi : i < rows.length
  · rw [List.getElem?_range hi, getElem?_getD' hi []]
    rfl
  · rw [List.getElem?_eq_none (by rw [List.length_range]; omega),
      List.getElem?_eq_none (l := rows) (by omega)]
    rfl

/-- Reading back lines that contain no newline. -/
theorem fileLines_flatten (ls : List Text) (h : ∀ l ∈ ls, '\n' ∉ l) :
    fileLines ((ls.map (· ++ ['\n'])).flatten) = ls := by
  have one : ∀ (l rest : Text), '\n' ∉ l → fileLines (l ++ '\n' :: rest) = l :: fileLines rest := by
    intro l
    induction l with
    | nil => intro rest _; simp [fileLines]
    | cons c cs ih =>
      intro rest hc
      simp only [List.mem_cons, not_or] at hc
      rw [List.cons_append, fileLines, if_neg (fun e => hc.1 e.symm), ih rest hc.2]
  induction ls with
  | nil => rfl
  | cons l ls ih =>
    simp only [List.map_cons, List.flatten_cons, List.append_assoc, List.singleton_append]
    rw [one _ _ (h l (by simp)), ih (fun l' h' => h l' (by simp [h']))]

/-- Splitting a line made of non-empty pieces that do not contain the separator. -/
theorem tokens_pieces (sep : Char) (ps : List Text) (h : ∀ p ∈ ps, p ≠ [] ∧ sep ∉ p) :
    tokens [sep] ((ps.map (· ++ [sep])).flatten) = ps := by
  rw [tokens_eq]
  unfold columns
  induction ps with
  | nil => simp
  | cons p ps ih =>
    have hp := h p (by simp)
    simp only [List.map_cons, List.flatten_cons, List.append_assoc, List.singleton_append]
    have e : (p ++ sep :: ((ps.map (· ++ [sep])).flatten)).splitOnP (fun c => decide (c ∈ [sep])) =
        p :: ((ps.map (· ++ [sep])).flatten).splitOnP (fun c => decide (c ∈ [sep])) := by
      have : ∀ q : Text, sep ∉ q → ∀ rest, (q ++ sep :: rest).splitOnP (fun c => decide (c ∈ [sep])) =
          q :: rest.splitOnP (fun c => decide (c ∈ [sep])) := by
        intro q
        induction q with
        | nil => intro _ rest; simp [List.splitOnP_cons_eq_if_modifyHead]
        | cons c cs ihq =>
          intro hq rest
          simp only [List.mem_cons, not_or] at hq
          rw [List.cons_append, List.splitOnP_cons_eq_if_modifyHead, ihq hq.2,
            if_neg (by simpa using fun e : c = sep => hq.1 e.symm)]
          rfl
      exact this p hp.2 _
    rw [e, List.filter_cons_of_pos (by simpa using hp.1), ih (fun q hq => h q (by simp [hq]))]

end Genex
