import Verif.Lemmas.Normalize
import Verif.Lemmas.DatasetFail

/-! Dataset facts in the vocabulary of the specification. -/

set_option linter.unusedSectionVars false

namespace Genex

open Spec Dbl

variable {K : Type} [Field K]

theorem valueCol_eq (s : ℕ) (h : Bool) : valueCol s h = s + hn h := by cases h <;> rfl

theorem firstLines_eq (m : Int) (content : Text) :
    (fileLines content).take (rowsRead m (fileLines content).length) = firstLines m content := by
  rw [linesOf_eq]
  unfold rowsRead firstLines
  split
  · rw [List.take_length]
  · rw [← List.take_take, List.take_length]

/-- The parsed values of the rows that are read. -/
def readVals (parse : Text → Parsed K) (m : Int) (s : ℕ) (sep : List Char) (h : Bool) (content : Text) :
    List (List (Parsed K)) :=
  (firstLines m content).map (fun l => ((columns sep l).drop (valueCol s h)).map parse)

theorem readVals_eq (parse : Text → Parsed K) (m : Int) (s : ℕ) (sep : List Char) (h : Bool) (content : Text) :
    ((fileLines content).take (rowsRead m (fileLines content).length)).map (lineVals parse sep (s + hn h)) =
      readVals parse m s sep h content := by
  rw [firstLines_eq]
  unfold readVals lineVals
  simp only [tokens_eq, valueCol_eq]

theorem nameOf_some {l : List Text} {s : ℕ} (h : s + 1 ≤ l.length) : nameOf true s l 0 = [l.getD s []] := by
  unfold nameOf
  rw [if_pos ⟨rfl, Nat.zero_le _⟩, Nat.sub_zero, List.getD_eq_getElem?_getD, List.getElem?_eq_getElem (by omega)]
  rfl

theorem names_eq (sep : List Char) (s : ℕ) (h : Bool) (ls : List Text)
    (hl : ∀ l ∈ ls, valueCol s h ≤ (columns sep l).length) :
    ls.flatMap (fun l => nameOf h s (tokens sep l) 0) = if h then ls.map (fun l => (columns sep l).getD s []) else [] := by
  cases h with
  | false =>
    simp [nameOf]
  | true =>
    simp only [if_true]
    induction ls with
    | nil => rfl
    | cons l ls ih =>
      rw [List.flatMap_cons, List.map_cons, ih (fun x hx => hl x (by simp [hx])), tokens_eq, nameOf_some]
      · rfl
      · exact hl l (by simp)

theorem load_holds (parse : Text → Parsed K) (content path : Text) (m : Int) (s : ℕ) (sep : List Char) (h : Bool)
    (rows : List (List (Dbl K))) (hx : readVals parse m s sep h content = rows.map (·.map .val))
    (hl : ∀ l ∈ firstLines m content, valueCol s h ≤ (columns sep l).length) :
    ∃ ds, Dataset.loadData parse (some content) path m s sep h (Dataset.fresh : Dataset K) = (ds, .ok ()) ∧
      Holds ds rows ∧ ds.names = (if h then (firstLines m content).map (fun l => (columns sep l).getD s []) else []) ∧
      ds.filePath = path ∧ ds.normalized = false := by
  obtain ⟨ds, e, h1, h2, h3, h4, h5, h6, h7, -⟩ := loadData_ok parse content path m s sep h Dataset.fresh rows
    (by rw [readVals_eq]; exact hx)
    (by rw [firstLines_eq, ← valueCol_eq]; intro l hl'; rw [tokens_eq]; exact hl l hl')
  refine ⟨ds, e, ⟨h1, ?_, h3, h4⟩, ?_, h6, h7⟩
  · rw [h2]; rfl
  · rw [h5, firstLines_eq, names_eq _ _ _ _ hl]

theorem load_rejects (parse : Text → Parsed K) (content path : Text) (m : Int) (s : ℕ) (sep : List Char) (h : Bool)
    (ds0 : Dataset K) (hx : ∃ l ∈ readVals parse m s sep h content, ∃ p ∈ l, p.isVal = false) :
    ∃ msg L, Dataset.loadData parse (some content) path m s sep h ds0 =
      ({ ds0.clearData with lengths := L }, .error (.genex msg)) := by
  apply loadData_fail
  rw [firstLines_eq]
  obtain ⟨l, hl, p, hp, hp'⟩ := hx
  unfold readVals at hl
  obtain ⟨t, ht, rfl⟩ := List.mem_map.1 hl
  refine ⟨t, ht, p, ?_, hp'⟩
  unfold lineVals
  rw [tokens_eq, ← valueCol_eq]
  exact hp

theorem all_vals {L : List (List (Parsed K))} (h : ∀ l ∈ L, ∀ p ∈ l, p.isVal = true) :
    ∃ rows : List (List (Dbl K)), L = rows.map (·.map .val) := by
  induction L with
  | nil => exact ⟨[], rfl⟩
  | cons l L ih =>
    obtain ⟨rows, hr⟩ := ih (fun l' hl' => h l' (by simp [hl']))
    obtain ⟨xs, hxs⟩ := exists_vals (h l (by simp))
    exact ⟨xs :: rows, by rw [List.map_cons, hxs, hr]⟩

/-! ### The row count, without assumptions on the rows -/

theorem loadToks_count (parse : Text → Parsed K) (raw s : Int) (hasName : Bool) (row : ℕ) : ∀ (toks : List Text) (col : ℕ)
    (ds ds' : Dataset K), Dataset.loadToks parse raw s hasName row toks col ds = (ds', .ok ()) →
    ds'.itemCount = ds.itemCount := by
  intro toks
  induction toks with
  | nil =>
    intro col ds ds' h
    simp only [Dataset.loadToks, Prod.mk.injEq] at h
    rw [h.1]
  | cons t ts ih =>
    intro col ds ds' h
    unfold Dataset.loadToks at h
    split at h
    · split at h
      · exact ih _ { ds with names := ds.names ++ [t] } _ h
      · split at h
        · simp at h
        · simp at h
        · rename_i x hx
          split at h
          · simp at h
          · rename_i d hw
            rw [ih _ _ _ h]
            unfold Dataset.write at hw
            split at hw
            · simp at hw
            · split at hw
              · rw [Except.ok.injEq] at hw
                rw [← hw]
              · simp at hw
    · exact ih _ _ _ h

theorem loadRows_count (parse : Text → Parsed K) (sep : List Char) (raw s : Int) (hasName : Bool) : ∀ (ls : List Text)
    (row : ℕ) (ds ds' : Dataset K), Dataset.loadRows parse sep raw s hasName ls row ds = (ds', .ok ()) →
    ds'.itemCount = ds.itemCount + ls.length := by
  intro ls
  induction ls with
  | nil =>
    intro row ds ds' h
    simp only [Dataset.loadRows, Prod.mk.injEq] at h
    rw [h.1]; rfl
  | cons l ls ih =>
    intro row ds ds' h
    unfold Dataset.loadRows at h
    simp only at h
    split at h
    · simp at h
    · rename_i u hr
      rw [ih _ _ _ h]
      have := loadToks_count parse raw s hasName row (tokens sep l) 0
        { ds with lengths := ds.lengths ++ [((tokens sep l).length : Int) - s - b2i hasName] } _ (Prod.ext rfl hr)
      have this' : (Dataset.loadToks parse raw s hasName row (tokens sep l) 0
        { ds with lengths := ds.lengths ++ [((tokens sep l).length : Int) - s - b2i hasName] }).1.itemCount =
        ds.itemCount := this
      simp only [List.length_cons]
      rw [this']
      omega

theorem loadData_count (parse : Text → Parsed K) (content path : Text) (m s : Int) (sep : List Char) (h : Bool)
    (ds0 ds : Dataset K) (e : Dataset.loadData parse (some content) path m s sep h ds0 = (ds, .ok ())) :
    ds.itemCount = (firstLines m content).length := by
  rw [← firstLines_eq]
  unfold Dataset.loadData at e
  simp only at e
  split at e
  · simp at e
  · rename_i u hr
    simp only [Prod.mk.injEq] at e
    have := loadRows_count _ _ _ _ _ _ _ _ _ (Prod.ext rfl hr)
    rw [← e.1, this, Nat.zero_add]
    rfl

/-! ### Saving and loading again -/

/-- The pieces of a saved line. -/
def linePieces (print : Dbl K → Text) (name : Option Text) (r : List (Dbl K)) : List Text := name.toList ++ r.map print

theorem rowText_eq (print : Dbl K → Text) (sep : Char) (name : Option Text) (r : List (Dbl K)) :
    rowText print sep name r = ((linePieces print name r).map (· ++ [sep])).flatten := by
  unfold rowText linePieces
  cases name <;> simp [Function.comp_def]

theorem mem_flatten_sep {sep c : Char} {ps : List Text} (hc : c ≠ sep) (h : ∀ p ∈ ps, c ∉ p) :
    c ∉ (ps.map (· ++ [sep])).flatten := by
  intro hm
  obtain ⟨l, hl, hcl⟩ := List.mem_flatten.1 hm
  obtain ⟨p, hp, rfl⟩ := List.mem_map.1 hl
  rcases List.mem_append.1 hcl with h' | h'
  · exact h p hp h'
  · exact hc (by simpa using h')

/-- The file that `saveData` leaves. -/
theorem save_file (print : Dbl K → Text) (parse : Text → Parsed K) (rd : Dbl K → Dbl K) (sep : Char)
    (hsep : sep ≠ '\n') (hprint : ∀ x, print x ≠ [] ∧ sep ∉ print x ∧ '\n' ∉ print x)
    (hparse : ∀ x, parse (print x) = .val (rd x)) {ds : Dataset K} {rows : List (List (Dbl K))} (H : Holds ds rows)
    (hnames : ds.names = [] ∨ ds.names.length = rows.length)
    (hname : ∀ n ∈ ds.names, n ≠ [] ∧ sep ∉ n ∧ '\n' ∉ n) :
    ∃ text, ds.saveData print sep = .ok text ∧
      firstLines 0 text = rows.mapIdx (fun i r => rowText print sep ds.names[i]? r) ∧
      (∀ (i : ℕ) (r : List (Dbl K)), columns [sep] (rowText print sep ds.names[i]? r) = linePieces print ds.names[i]? r) ∧
      readVals parse 0 0 [sep] (decide (ds.names ≠ [])) text = (rows.map (·.map rd)).map (·.map Parsed.val) ∧
      ∀ l ∈ firstLines 0 text, valueCol 0 (decide (ds.names ≠ [])) ≤ (columns [sep] l).length := by
  set b := decide (ds.names ≠ []) with hb
  have hgood : ∀ (i : ℕ) (r : List (Dbl K)), ∀ p ∈ linePieces print ds.names[i]? r, p ≠ [] ∧ sep ∉ p ∧ '\n' ∉ p := by
    intro i r p hp
    unfold linePieces at hp
    rcases List.mem_append.1 hp with h | h
    · apply hname
      rw [Option.mem_toList] at h
      exact List.mem_of_getElem? h
    · obtain ⟨x, -, rfl⟩ := List.mem_map.1 h
      exact hprint x
  set ls := rows.mapIdx (fun i r => rowText print sep ds.names[i]? r) with hls
  have hsave := saveData_ok print sep H hnames
  have htext : (rows.mapIdx (fun i r => rowText print sep ds.names[i]? r ++ ['\n'])).flatten =
      (ls.map (· ++ ['\n'])).flatten := by
    congr 1
    apply List.ext_getElem?
    intro i
    rw [hls, List.getElem?_map, List.getElem?_mapIdx, List.getElem?_mapIdx, Option.map_map]
    rfl
  rw [htext] at hsave
  have hlines : firstLines 0 ((ls.map (· ++ ['\n'])).flatten) = ls := by
    unfold firstLines
    rw [if_pos le_rfl, ← linesOf_eq, fileLines_flatten]
    intro l hl
    rw [hls, List.mem_mapIdx] at hl
    obtain ⟨i, hi, rfl⟩ := hl
    rw [rowText_eq]
    exact mem_flatten_sep (fun e => hsep e.symm) (fun p hp => (hgood i _ p hp).2.2)
  have hcols : ∀ (i : ℕ) (r : List (Dbl K)), columns [sep] (rowText print sep ds.names[i]? r) =
      linePieces print ds.names[i]? r := by
    intro i r
    rw [rowText_eq, ← tokens_eq, tokens_pieces]
    exact fun p hp => ⟨(hgood i r p hp).1, (hgood i r p hp).2.1⟩
  have hopt : ∀ i, i < rows.length → (ds.names[i]?).toList.length = valueCol 0 b := by
    intro i hi
    rcases hnames with h | h
    · simp [h, hb, valueCol]
    · have : ds.names ≠ [] := by
        intro e; rw [e] at h; simp at h; omega
      rw [List.getElem?_eq_getElem (by omega)]
      simp [this, hb, valueCol]
  have hvals : readVals parse 0 0 [sep] b ((ls.map (· ++ ['\n'])).flatten) =
      (rows.map (·.map rd)).map (·.map Parsed.val) := by
    unfold readVals
    rw [hlines, hls]
    apply List.ext_getElem?
    intro i
    by_cases hi : i < rows.length
    · simp only [List.getElem?_map, List.getElem?_mapIdx, getElem?_getD' hi [], Option.map_some, hcols,
        Option.some.injEq]
      unfold linePieces
      rw [← hopt i hi, List.drop_left, List.map_map, List.map_map]
      apply List.map_congr_left
      intro x _
      exact hparse x
    · have h0 : rows[i]? = none := List.getElem?_eq_none (by omega)
      simp only [List.getElem?_map, List.getElem?_mapIdx, h0, Option.map_none]
  have hreach : ∀ l ∈ firstLines 0 ((ls.map (· ++ ['\n'])).flatten), valueCol 0 b ≤ (columns [sep] l).length := by
    rw [hlines]
    intro l hl
    rw [hls, List.mem_mapIdx] at hl
    obtain ⟨i, hi, rfl⟩ := hl
    rw [hcols, ← hopt i hi]
    unfold linePieces
    simp
  exact ⟨_, hsave, hlines, hcols, hvals, hreach⟩

theorem save_load (print : Dbl K → Text) (parse : Text → Parsed K) (rd : Dbl K → Dbl K) (sep : Char) (path : Text)
    (hsep : sep ≠ '\n') (hprint : ∀ x, print x ≠ [] ∧ sep ∉ print x ∧ '\n' ∉ print x)
    (hparse : ∀ x, parse (print x) = .val (rd x)) {ds : Dataset K} {rows : List (List (Dbl K))} (H : Holds ds rows)
    (hnames : ds.names = [] ∨ ds.names.length = rows.length)
    (hname : ∀ n ∈ ds.names, n ≠ [] ∧ sep ∉ n ∧ '\n' ∉ n) :
    ∃ text ds', ds.saveData print sep = .ok text ∧
      Dataset.loadData parse (some text) path 0 0 [sep] (decide (ds.names ≠ [])) (Dataset.fresh : Dataset K) =
        (ds', .ok ()) ∧ Holds ds' (rows.map (·.map rd)) ∧ ds'.names = ds.names := by
  obtain ⟨text, hsave, hlines, hcols, hvals, hreach⟩ := save_file print parse rd sep hsep hprint hparse H hnames hname
  obtain ⟨ds', e, H', hn', -, -⟩ := load_holds parse _ path 0 0 [sep] _ _ hvals hreach
  refine ⟨_, ds', hsave, e, H', ?_⟩
  rw [hn', hlines]
  rcases hnames with h | h
  · simp [h]
  · by_cases h0 : ds.names = []
    · simp [h0]
    · rw [if_pos (by simp [h0])]
      apply List.ext_getElem?
      intro i
      by_cases hi : i < rows.length
      · simp only [List.getElem?_map, List.getElem?_mapIdx, getElem?_getD' hi [], Option.map_some, hcols]
        unfold linePieces
        rw [List.getElem?_eq_getElem (l := ds.names) (by omega)]
        rfl
      · have h0 : rows[i]? = none := List.getElem?_eq_none (by omega)
        simp only [List.getElem?_map, List.getElem?_mapIdx, h0, Option.map_none]
        rw [List.getElem?_eq_none (by omega)]

end Genex
