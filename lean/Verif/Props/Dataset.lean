import Verif.Lemmas.DatasetProps

/-! Properties C17, C18, C20-C24: loading, saving, reading and normalising datasets. -/

set_option linter.unusedSectionVars false

namespace Genex.Props

open Genex Spec Dbl

section

variable {K : Type} [Field K]

/-! ## A small number format for the examples -/

/-- Decimal digits. -/
def exParse (t : Text) : Parsed ℚ :=
  if t = [] then .invalid
  else if t.all (·.isDigit) then .val (fin (t.foldl (fun (n : ℕ) c => 10 * n + (c.toNat - 48)) 0 : ℕ))
  else .invalid

/-- Rows of different length, a name column, two separators, no newline at the end. -/
def exFile : Text := "a 1,22,3\nbb,4 5\n\nc,7".toList

/-- Like `exFile` with every row reaching the first value. -/
def exFile2 : Text := "a 1,22,3\nbb,4 5\nc,7".toList

/-! ## C17 -/

/-- C17: when loading succeeds and every row that was read reaches the first value column, then every value column was a
number, and the dataset shows exactly these numbers: as many series as rows read, each as long as its row has value
columns, point by point.  `C17_names` is about the names. -/
theorem C17_contents (parse : Text → Parsed K) (content path : Text) (maxNumRow : Int) (startCol : ℕ) (sep : List Char)
    (hasName : Bool) (hreach : ∀ l ∈ firstLines maxNumRow content, valueCol startCol hasName ≤ (columns sep l).length)
    (ds : Dataset K)
    (h : Dataset.loadData parse (some content) path maxNumRow startCol sep hasName Dataset.fresh = (ds, .ok ())) :
    ∃ rows : List (List (Dbl K)),
      (firstLines maxNumRow content).map (fun l => ((columns sep l).drop (valueCol startCol hasName)).map parse) =
        rows.map (·.map .val) ∧ Shows ds rows ∧ Holds ds rows ∧ ds.filePath = path ∧ ds.normalized = false := by
  by_cases hv : ∀ l ∈ readVals parse maxNumRow startCol sep hasName content, ∀ p ∈ l, p.isVal = true
  · obtain ⟨rows, hr⟩ := all_vals hv
    obtain ⟨ds', e, H, -, hp, hn⟩ := load_holds parse content path maxNumRow startCol sep hasName rows hr hreach
    rw [h, Prod.mk.injEq] at e
    obtain ⟨rfl, -⟩ := e
    exact ⟨rows, hr, H.shows, H, hp, hn⟩
  · push Not at hv
    obtain ⟨l, hl, p, hp, hb⟩ := hv
    obtain ⟨msg, L, e⟩ := load_rejects parse content path maxNumRow startCol sep hasName Dataset.fresh
      ⟨l, hl, p, hp, by simpa using hb⟩
    rw [h, Prod.mk.injEq] at e
    simp at e

/-- C17: names are the name column; without one, the name of a series is its index. -/
theorem C17_names (parse : Text → Parsed K) (content path : Text) (maxNumRow : Int) (startCol : ℕ) (sep : List Char)
    (hasName : Bool) (hreach : ∀ l ∈ firstLines maxNumRow content, valueCol startCol hasName ≤ (columns sep l).length)
    (ds : Dataset K)
    (h : Dataset.loadData parse (some content) path maxNumRow startCol sep hasName Dataset.fresh = (ds, .ok ())) (i : ℕ)
    (l : List Char) (hi : (firstLines maxNumRow content)[i]? = some l) :
    ∃ name, ds.getTimeSeriesName i = .ok name ∧
      if hasName then (columns sep l)[startCol]? = some name else name = (toString (i : Int)).toList := by
  obtain ⟨rows, hr, -, H, -⟩ := C17_contents parse content path maxNumRow startCol sep hasName hreach ds h
  obtain ⟨ds', e, -, hn, -⟩ := load_holds parse content path maxNumRow startCol sep hasName rows hr hreach
  rw [h, Prod.mk.injEq] at e
  obtain ⟨rfl, -⟩ := e
  have hlt : i < ds.itemCount := by
    have h1 := congrArg List.length hr
    rw [List.length_map, List.length_map] at h1
    rw [H.count, ← h1]
    exact (List.getElem?_eq_some_iff.1 hi).1
  unfold Dataset.getTimeSeriesName
  rw [if_neg (by omega), hn, Int.toNat_natCast]
  cases hasName with
  | false => exact ⟨_, rfl, rfl⟩
  | true =>
    simp only [if_true]
    rw [List.getElem?_map, hi]
    refine ⟨_, rfl, ?_⟩
    have := hreach l (List.mem_of_getElem? hi)
    exact getElem?_getD' (by simpa [valueCol] using this) []

/-- C17: a file whose value columns are all numbers is accepted. -/
theorem C17_accepts (parse : Text → Parsed K) (content path : Text) (maxNumRow : Int) (startCol : ℕ) (sep : List Char)
    (hasName : Bool) (hreach : ∀ l ∈ firstLines maxNumRow content, valueCol startCol hasName ≤ (columns sep l).length)
    (hnum : ∀ l ∈ firstLines maxNumRow content, ∀ t ∈ (columns sep l).drop (valueCol startCol hasName),
      ∃ x, parse t = .val x) :
    ∃ ds, Dataset.loadData parse (some content) path maxNumRow startCol sep hasName (Dataset.fresh : Dataset K) =
      (ds, .ok ()) := by
  have hv : ∀ l ∈ readVals parse maxNumRow startCol sep hasName content, ∀ p ∈ l, p.isVal = true := by
    intro l hl p hp
    unfold readVals at hl
    obtain ⟨l', hl', rfl⟩ := List.mem_map.1 hl
    obtain ⟨t, ht, rfl⟩ := List.mem_map.1 hp
    obtain ⟨x, hx⟩ := hnum l' hl' t ht
    rw [hx]; rfl
  obtain ⟨rows, hr⟩ := all_vals hv
  obtain ⟨ds', e, -⟩ := load_holds parse content path maxNumRow startCol sep hasName rows hr hreach
  exact ⟨ds', e⟩

/-- C17: a file with a value column that is not a number is rejected with an exception, and the object is empty. -/
theorem C17_rejects (parse : Text → Parsed K) (content path : Text) (maxNumRow : Int) (startCol : ℕ) (sep : List Char)
    (hasName : Bool) (l : List Char) (hl : l ∈ firstLines maxNumRow content) (t : List Char)
    (ht : t ∈ (columns sep l).drop (valueCol startCol hasName)) (hbad : ∀ x, parse t ≠ .val x) (ds0 : Dataset K) :
    ∃ ds msg, Dataset.loadData parse (some content) path maxNumRow startCol sep hasName ds0 =
      (ds, .error (.genex msg)) ∧ ds.itemCount = 0 ∧ ds.data = none ∧ ds.names = [] := by
  obtain ⟨msg, L, e⟩ := load_rejects parse content path maxNumRow startCol sep hasName ds0
    ⟨_, List.mem_map.2 ⟨l, hl, rfl⟩, parse t, List.mem_map.2 ⟨t, ht, rfl⟩, by
      cases hp : parse t with
      | val x => exact absurd hp (hbad x)
      | invalid => rfl
      | range => rfl⟩
  exact ⟨_, msg, e, rfl, rfl, rfl⟩

example : firstLines 0 exFile2 = ["a 1,22,3".toList, "bb,4 5".toList, "c,7".toList] ∧
    (∀ l ∈ firstLines 0 exFile2, valueCol 0 true ≤ (columns [' ', ','] l).length) ∧
    (∀ l ∈ firstLines 0 exFile2, ∀ t ∈ (columns [' ', ','] l).drop (valueCol 0 true), ∃ x, exParse t = .val x) := by
  refine ⟨by decide +kernel, by decide +kernel, ?_⟩
  have : ∀ l ∈ firstLines 0 exFile2, ∀ t ∈ (columns [' ', ','] l).drop (valueCol 0 true), (exParse t).isVal = true := by
    decide +kernel
  intro l hl t ht
  have := this l hl t ht
  cases h : exParse t with
  | val x => exact ⟨x, rfl⟩
  | invalid => rw [h] at this; cases this
  | range => rw [h] at this; cases this

example : (Dataset.loadData exParse (some exFile2) [] 2 0 [' ', ','] true Dataset.fresh).1 =
    { data := some [fin 1, fin 22, fin 3, fin 4, fin 5, 0, 0, 0], names := ["a".toList, "bb".toList], lengths := [3, 2],
      itemCount := 2, maxCol := 3, filePath := [], normalized := false } := by decide +kernel

/-- A row that does not reach the first value column gets a negative length. -/
example : (Dataset.loadData exParse (some exFile) [] 0 0 [' ', ','] true Dataset.fresh).1.lengths = [3, 2, -1, 1] := by
  decide +kernel

/-! ## C18 -/

/-- C18: a successful load reads `min (maxNumRow, number of lines)` lines, or all of them if `maxNumRow ≤ 0`: every file,
every argument, every state of the object. -/
theorem C18_count (parse : Text → Parsed K) (content path : Text) (maxNumRow startCol : Int) (sep : List Char)
    (hasName : Bool) (ds0 ds : Dataset K)
    (h : Dataset.loadData parse (some content) path maxNumRow startCol sep hasName ds0 = (ds, .ok ())) :
    (ds.itemCount : Int) = if maxNumRow ≤ 0 then ((linesOf content).length : Int)
      else min maxNumRow (linesOf content).length := by
  rw [loadData_count parse content path maxNumRow startCol sep hasName ds0 ds h]
  unfold firstLines
  split
  · rfl
  · rw [List.length_take]; omega

/-- C18: the rows read are the first ones: a limited load shows the first rows of the full load. -/
theorem C18_prefix (parse : Text → Parsed K) (content path path' : Text) (maxNumRow : Int) (startCol : ℕ)
    (sep : List Char) (hasName : Bool)
    (hreach : ∀ l ∈ linesOf content, valueCol startCol hasName ≤ (columns sep l).length)
    (full : Dataset K) (rows : List (List (Dbl K)))
    (hfull : Dataset.loadData parse (some content) path 0 startCol sep hasName Dataset.fresh = (full, .ok ()))
    (hrows : Shows full rows) :
    ∃ ds, Dataset.loadData parse (some content) path' maxNumRow startCol sep hasName (Dataset.fresh : Dataset K) =
      (ds, .ok ()) ∧ Shows ds (if maxNumRow ≤ 0 then rows else rows.take maxNumRow.toNat) := by
  obtain ⟨rows', hr, hs, -⟩ := C17_contents parse content path 0 startCol sep hasName
    (by unfold firstLines; rw [if_pos le_rfl]; exact hreach) full hfull
  have heq : rows' = rows := by
    apply List.ext_getElem?
    intro i
    by_cases hi : i < rows.length
    · have hi' : i < rows'.length := by have := hs.1; have := hrows.1; omega
      have h1 := (hs.2 i _ (List.getElem?_eq_getElem hi')).2
      have h2 := (hrows.2 i _ (List.getElem?_eq_getElem hi)).2
      rw [h1, Except.ok.injEq] at h2
      rw [List.getElem?_eq_getElem hi', List.getElem?_eq_getElem hi, h2]
    · rw [List.getElem?_eq_none (by have := hs.1; have := hrows.1; omega), List.getElem?_eq_none (l := rows) (by omega)]
  subst heq
  have hr' : (linesOf content).map (fun l => ((columns sep l).drop (valueCol startCol hasName)).map parse) =
      rows'.map (·.map .val) := by
    unfold firstLines at hr
    rw [if_pos le_rfl] at hr
    exact hr
  have hv : readVals parse maxNumRow startCol sep hasName content =
      (if maxNumRow ≤ 0 then rows' else rows'.take maxNumRow.toNat).map (·.map .val) := by
    unfold readVals firstLines
    split
    · exact hr'
    · rw [List.map_take, hr', List.map_take]
  obtain ⟨ds, e, H, -⟩ := load_holds parse content path' maxNumRow startCol sep hasName _ hv (by
    intro l hl
    apply hreach
    unfold firstLines at hl
    split at hl
    · exact hl
    · exact List.mem_of_mem_take hl)
  exact ⟨ds, e, H.shows⟩

example : (Dataset.loadData exParse (some exFile2) [] 2 0 [' ', ','] true Dataset.fresh).1.itemCount = 2 ∧
    (Dataset.loadData exParse (some exFile2) [] 7 0 [' ', ','] true Dataset.fresh).1.itemCount = 3 ∧
    (Dataset.loadData exParse (some exFile2) [] (-1) 0 [' ', ','] true Dataset.fresh).1.itemCount = 3 := by
  decide +kernel

/-! ## C20 -/

/-- C20 is false: the lengths of the previous contents stay in front of the new ones.  Here a second load makes the only
series of the second file, of three points, appear to have two. -/
theorem C20_reload_false :
    let A : Text := "1 2\n".toList
    let B : Text := "3 4 5\n".toList
    let first := (Dataset.loadData exParse (some A) [] 0 0 [' '] false Dataset.fresh).1
    let second := Dataset.loadData exParse (some B) [] 0 0 [' '] false first
    let direct := Dataset.loadData exParse (some B) [] 0 0 [' '] false Dataset.fresh
    second.2 = .ok () ∧ direct.2 = .ok () ∧ second.1 ≠ direct.1 ∧
      second.1.getItemLength 0 = .ok 2 ∧ direct.1.getItemLength 0 = .ok 3 := by
  decide +kernel

/-- C20, what holds: for every file, every argument and every previous state, a reload has the same outcome as a load into
a fresh object, with the same values, names, series count and row stride; only the list of lengths keeps the previous
lengths in front, and the normalised flag (and, after a failure, the path) are kept.  Missing: exactly these three. -/
theorem C20_reload_partial (parse : Text → Parsed K) (file : Option Text) (path : Text) (maxNumRow startCol : Int)
    (sep : List Char) (hasName : Bool) (ds : Dataset K) :
    let direct := Dataset.loadData parse file path maxNumRow startCol sep hasName (Dataset.fresh : Dataset K)
    let again := Dataset.loadData parse file path maxNumRow startCol sep hasName ds
    again.2 = direct.2 ∧ again.1.data = direct.1.data ∧ again.1.names = direct.1.names ∧
      again.1.itemCount = direct.1.itemCount ∧ again.1.maxCol = direct.1.maxCol ∧
      again.1.lengths = ds.lengths ++ direct.1.lengths ∧ again.1.normalized = ds.normalized ∧
      (direct.2 = .ok () → ds.lengths = [] → ds.normalized = false → again = direct) := by
  intro direct again
  have h := loadData_carry parse file path maxNumRow startCol sep hasName ds
  have hf := loadData_carry parse file path maxNumRow startCol sep hasName (Dataset.fresh : Dataset K)
  simp only at h hf
  have hd : again = _ := h
  rw [hd]
  refine ⟨rfl, rfl, rfl, rfl, rfl, rfl, rfl, ?_⟩
  intro hok hL hN
  rw [hL, hN]
  have hd : direct = _ := hf
  rw [hd]
  have hok' : (Dataset.loadData parse file path maxNumRow startCol sep hasName (Dataset.fresh : Dataset K)).2 = .ok () := hok
  rw [hok']
  rfl

example : (Dataset.loadData exParse (some "3 x 5\n".toList) [] 0 0 [' '] false
    (Dataset.loadData exParse (some exFile2) [] 0 0 [' ', ','] true Dataset.fresh).1).2 =
      .error (.genex "Dataset file contains unparsable text") := by decide +kernel

/-! ## C21 -/

/-- C21: save and load.  The number format is a pair `print`, `parse` with `parse (print x) = rd x`; printed numbers and
names are non-empty and contain neither the separator nor a newline.  The dataset that comes back has the same series
count, the same lengths and names, and the values `rd x`. -/
theorem C21_save_load (print : Dbl K → Text) (parse : Text → Parsed K) (rd : Dbl K → Dbl K) (sep : Char) (path : Text)
    (hsep : sep ≠ '\n') (hprint : ∀ x, print x ≠ [] ∧ sep ∉ print x ∧ '\n' ∉ print x)
    (hparse : ∀ x, parse (print x) = .val (rd x)) (ds : Dataset K) (rows : List (List (Dbl K))) (H : Holds ds rows)
    (hnames : ds.names = [] ∨ ds.names.length = rows.length) (hname : ∀ n ∈ ds.names, n ≠ [] ∧ sep ∉ n ∧ '\n' ∉ n) :
    ∃ text ds', ds.saveData print sep = .ok text ∧
      Dataset.loadData parse (some text) path 0 0 [sep] (decide (ds.names ≠ [])) (Dataset.fresh : Dataset K) =
        (ds', .ok ()) ∧
      ds'.itemCount = ds.itemCount ∧ ds'.lengths = ds.lengths ∧ ds'.names = ds.names ∧
      Holds ds' (rows.map (·.map rd)) ∧ Shows ds' (rows.map (·.map rd)) := by
  obtain ⟨text, ds', h1, h2, h3, h4⟩ := save_load print parse rd sep path hsep hprint hparse H hnames hname
  refine ⟨text, ds', h1, h2, ?_, ?_, h4, h3, h3.shows⟩
  · rw [h3.count, H.count, List.length_map]
  · rw [h3.lens, H.lens, List.map_map]
    apply List.map_congr_left
    intro r _
    simp

/-- C21: a second round changes nothing more, provided printing a printed-and-parsed number gives the same number again. -/
theorem C21_second_round (print : Dbl K → Text) (parse : Text → Parsed K) (rd : Dbl K → Dbl K) (sep : Char)
    (path path' : Text) (hsep : sep ≠ '\n') (hprint : ∀ x, print x ≠ [] ∧ sep ∉ print x ∧ '\n' ∉ print x)
    (hparse : ∀ x, parse (print x) = .val (rd x)) (hrd : ∀ x, rd (rd x) = rd x) (ds : Dataset K)
    (rows : List (List (Dbl K))) (H : Holds ds rows)
    (hnames : ds.names = [] ∨ ds.names.length = rows.length) (hname : ∀ n ∈ ds.names, n ≠ [] ∧ sep ∉ n ∧ '\n' ∉ n)
    (text : Text) (ds1 : Dataset K) (hs : ds.saveData print sep = .ok text)
    (hl : Dataset.loadData parse (some text) path 0 0 [sep] (decide (ds.names ≠ [])) Dataset.fresh = (ds1, .ok ())) :
    ∃ text' ds2, ds1.saveData print sep = .ok text' ∧
      Dataset.loadData parse (some text') path' 0 0 [sep] (decide (ds1.names ≠ [])) (Dataset.fresh : Dataset K) =
        (ds2, .ok ()) ∧ ds2.names = ds1.names ∧ ds2.lengths = ds1.lengths ∧
      ∃ rows1, Shows ds1 rows1 ∧ Shows ds2 rows1 := by
  obtain ⟨t0, d0, h1, h2, h3, -, h4, h5, h6⟩ := C21_save_load print parse rd sep path hsep hprint hparse ds rows H hnames hname
  rw [hs, Except.ok.injEq] at h1
  subst h1
  rw [hl, Prod.mk.injEq] at h2
  obtain ⟨rfl, -⟩ := h2
  obtain ⟨t1, d1, g1, g2, -, g3, g4, -, g6⟩ := C21_save_load print parse rd sep path' hsep hprint hparse ds1 _ h5
    (by rw [h4, List.length_map]; exact hnames) (by rw [h4]; exact hname)
  refine ⟨t1, d1, g1, g2, g4, g3, _, h6, ?_⟩
  have : (rows.map (·.map rd)).map (·.map rd) = rows.map (·.map rd) := by
    simp [Function.comp_def, hrd]
  rw [this] at g6
  exact g6

/-- A number format that keeps only the sign bit, as an instance of the hypotheses. -/
def exPrint (x : Dbl ℚ) : Text := if x = 0 then ['0'] else ['1']

/-- What `exPrint` keeps of a number. -/
def exRd (x : Dbl ℚ) : Dbl ℚ := if x = 0 then 0 else fin 1

example : (∀ x, exPrint x ≠ [] ∧ ',' ∉ exPrint x ∧ '\n' ∉ exPrint x) ∧ (∀ x, exParse (exPrint x) = .val (exRd x)) ∧
    (∀ x, exRd (exRd x) = exRd x) := by
  have h1 : exParse ['1'] = .val (fin 1) := by decide +kernel
  have h0 : exParse ['0'] = .val 0 := by decide +kernel
  refine ⟨fun x => ?_, fun x => ?_, fun x => ?_⟩
  · unfold exPrint; split <;> decide
  · unfold exPrint exRd
    split
    · exact h0
    · exact h1
  · have h3 : (fin 1 : Dbl ℚ) ≠ 0 := by decide +kernel
    unfold exRd
    by_cases h : x = 0 <;> simp [h, h3]

example : (Dataset.saveData exPrint ',' (Dataset.loadData exParse (some "a 0 2 3\nb 4 0\n".toList) [] 0 0 [' '] true
    Dataset.fresh).1) = .ok "a,0,1,1,\nb,1,0,\n".toList := by decide +kernel

/-! ## C22 -/

/-- C22: `getTimeSeries i s e` with valid arguments is the points `s .. e-1` of series `i`, in order, and reading any other
index of it throws. -/
theorem C22_slice (ds : Dataset K) (rows : List (List (Dbl K))) (H : Holds ds rows) (i : ℕ) (r : List (Dbl K))
    (hr : rows[i]? = some r) (s e : ℕ) (hs : s < e) (he : e ≤ r.length) :
    ∃ v, ds.getTimeSeries i s e = .ok v ∧ v.length = (e : Int) - s ∧ ds.points v = .ok ((r.drop s).take (e - s)) ∧
      (∀ (k : ℕ) x, k < e - s → r[s + k]? = some x → ds.pointAt v k = .ok x) ∧
      ∀ k : Int, k < 0 ∨ (e : Int) - s ≤ k → ds.pointAt v k = .error (.genex "Data point index is out of range") := by
  refine ⟨_, H.getTimeSeries hr hs he, rfl, H.points hr he, ?_, ?_⟩
  · intro k x hk hx
    unfold Dataset.pointAt
    rw [if_neg (by simp only [View.length]; omega)]
    have := H.cells i r hr (s + k) x hx
    rw [← this]
    congr 1
    push_cast; ring
  · intro k hk
    unfold Dataset.pointAt
    rw [if_pos (by simp only [View.length]; omega)]

/-- C22: `getTimeSeries i (-1) (-1)` is the whole series. -/
theorem C22_whole (ds : Dataset K) (rows : List (List (Dbl K))) (H : Holds ds rows) (i : ℕ) (r : List (Dbl K))
    (hr : rows[i]? = some r) :
    ∃ v, ds.getTimeSeries i (-1) (-1) = .ok v ∧ v.length = r.length ∧ ds.points v = .ok r := by
  refine ⟨_, H.whole hr _ _ (by omega) (by omega), by simp [View.length], ?_⟩
  have := H.points (s := 0) hr le_rfl
  rw [slice_all] at this
  exact this

/-- C22: everything else throws: an index that is not that of a series, or a range that is not within the series (a pair of
negative bounds means the whole series). -/
theorem C22_throws (ds : Dataset K) (rows : List (List (Dbl K))) (H : Holds ds rows) (i s e : Int)
    (hbad : (∀ (n : ℕ) r, i = n → rows[n]? = some r → (0 ≤ s ∨ 0 ≤ e) ∧ ¬ (0 ≤ s ∧ s < e ∧ e ≤ r.length))) :
    ∃ msg, ds.getTimeSeries i s e = .error (.genex msg) := by
  unfold Dataset.getTimeSeries
  by_cases hi : i < 0 ∨ (ds.itemCount : Int) ≤ i
  · rw [if_pos hi]; exact ⟨_, rfl⟩
  · rw [if_neg hi]
    have hn : i.toNat < rows.length := by rw [← H.count]; omega
    have hr := List.getElem?_eq_getElem hn
    obtain ⟨h1, h2⟩ := hbad i.toNat _ (by omega) hr
    have hl : ds.getItemLength i = .ok ((rows[i.toNat].length : ℕ) : Int) := by
      have := H.getItemLength hr
      rw [← this]; congr 1; omega
    rw [if_neg (by omega), hl]
    simp only [bind, Except.bind]
    rw [if_pos (by omega)]
    exact ⟨_, rfl⟩

/-- C22: whatever the arguments, reading through the result never leaves the values of that series: each read yields one of
its points or throws, and is never undefined. -/
theorem C22_confined (ds : Dataset K) (rows : List (List (Dbl K))) (H : Holds ds rows) (i s e : Int) (v : View)
    (hv : ds.getTimeSeries i s e = .ok v) (k : Int) :
    ∃ (n : ℕ) (r : List (Dbl K)), i = n ∧ rows[n]? = some r ∧
      ((∃ (j : ℕ) (x : Dbl K), r[j]? = some x ∧ ds.pointAt v k = .ok x) ∨ ∃ msg, ds.pointAt v k = .error (.genex msg)) := by
  by_cases hi : i < 0 ∨ (ds.itemCount : Int) ≤ i
  · unfold Dataset.getTimeSeries at hv
    rw [if_pos hi] at hv
    cases hv
  have hn : i.toNat < rows.length := by rw [← H.count]; omega
  have hr := List.getElem?_eq_getElem hn
  have hin : i = ((i.toNat : ℕ) : Int) := by omega
  refine ⟨i.toNat, _, hin, hr, ?_⟩
  have key : ∀ (a b : ℕ), b ≤ rows[i.toNat].length → ∀ k : Int,
      (∃ (j : ℕ) (x : Dbl K), rows[i.toNat][j]? = some x ∧
        ds.pointAt { base := i * ds.maxCol, index := i, start := a, stop := b } k = .ok x) ∨
      ∃ msg, ds.pointAt { base := i * ds.maxCol, index := i, start := a, stop := b } k = .error (.genex msg) := by
    intro a b hb k
    unfold Dataset.pointAt
    by_cases hk : k < 0 ∨ ({ base := i * ds.maxCol, index := i, start := a, stop := b } : View).length ≤ k
    · rw [if_pos hk]; exact Or.inr ⟨_, rfl⟩
    · rw [if_neg hk]
      simp only [View.length] at hk
      left
      have hj : a + k.toNat < rows[i.toNat].length := by omega
      refine ⟨a + k.toNat, _, List.getElem?_eq_getElem hj, ?_⟩
      have := H.cells i.toNat _ hr (a + k.toNat) _ (List.getElem?_eq_getElem hj)
      rw [← this]
      congr 1
      rw [← hin]
      push_cast
      omega
  by_cases hneg : s < 0 ∧ e < 0
  · have := H.whole hr s e hneg.1 hneg.2
    rw [← hin, hv, Except.ok.injEq] at this
    rw [this]
    exact key 0 _ le_rfl k
  · by_cases hb : s < 0 ∨ e ≤ s ∨ (rows[i.toNat].length : Int) < e
    · obtain ⟨msg, hm⟩ := C22_throws ds rows H i s e (by
        intro n r hn' hr'
        have : n = i.toNat := by omega
        subst this
        rw [hr, Option.some.injEq] at hr'
        subst hr'
        exact ⟨by omega, by omega⟩)
      rw [hv] at hm; cases hm
    · have := H.getTimeSeries hr (s := s.toNat) (e := e.toNat) (by omega) (by omega)
      rw [← hin, show ((s.toNat : ℕ) : Int) = s by omega, show ((e.toNat : ℕ) : Int) = e by omega, hv,
        Except.ok.injEq] at this
      rw [this]
      have := key s.toNat e.toNat (by omega) k
      rw [show ((s.toNat : ℕ) : Int) = s by omega, show ((e.toNat : ℕ) : Int) = e by omega] at this
      exact this

end

/-- A dataset with two series of different length. -/
def exData : Dataset ℚ :=
  (Dataset.loadData exParse (some "a 7 2 3\nb 4 12\n".toList) [] 0 0 [' '] true Dataset.fresh).1

theorem exData_holds : Holds exData [[fin 7, fin 2, fin 3], [fin 4, fin 12]] := by
  obtain ⟨ds, e, H, -⟩ := load_holds exParse "a 7 2 3\nb 4 12\n".toList [] 0 0 [' '] true
    [[fin 7, fin 2, fin 3], [fin 4, fin 12]] (by decide +kernel) (by decide +kernel)
  have : exData = ds := congrArg Prod.fst e
  rw [this]; exact H

example : (exData.getTimeSeries 0 1 3 >>= exData.points) = .ok [fin 2, fin 3] ∧
    exData.getTimeSeries 1 1 3 = .error (.genex "Invalid starting or ending position of a time series") ∧
    exData.getTimeSeries 2 0 1 = .error (.genex "Invalid time series index") := by decide +kernel

/-! ## C23, C24 -/

variable {K : Type} [Field K] [LinearOrder K] [IsStrictOrderedRing K]

/-- C23: `normalize` returns the minimum and maximum over all points, and every point `x` has become
`(x - min) / (max - min)`, or `0` when all points are equal.  Names and lengths are kept. -/
theorem C23_normalize (ds : Dataset K) (rows : List (List K)) (H : Holds ds (rows.map (·.map fin)))
    (hne : ∃ r ∈ rows, r ≠ []) :
    ∃ ds' lo hi, ds.normalize = .ok (ds', (fin lo, fin hi)) ∧
      IsLeast {x | ∃ r ∈ rows, x ∈ r} lo ∧ IsGreatest {x | ∃ r ∈ rows, x ∈ r} hi ∧
      Holds ds' (rows.map (·.map (fun x => fin (if lo = hi then 0 else (x - lo) / (hi - lo))))) ∧
      ds'.normalized = true ∧ ds'.names = ds.names := by
  obtain ⟨r, hr, hr'⟩ := hne
  obtain ⟨x, hx⟩ := List.exists_mem_of_ne_nil r hr'
  obtain ⟨ds', lo, hi, e, h1, h2, h3, h4, h5, -⟩ := normalize_ok H ⟨x, r, hr, hx⟩
  exact ⟨ds', lo, hi, e, h1, h2, h4, h3, h5⟩

/-- C23: afterwards every point lies in `[0, 1]`, both ends are attained unless all points were equal, and the order of any
two points is kept. -/
theorem C23_range (ds ds' : Dataset K) (rows : List (List K)) (H : Holds ds (rows.map (·.map fin)))
    (hne : ∃ r ∈ rows, r ≠ []) (m : Dbl K × Dbl K) (e : ds.normalize = .ok (ds', m)) :
    ∃ f : K → K, Holds ds' (rows.map (·.map (fun x => fin (f x)))) ∧
      (∀ r ∈ rows, ∀ x ∈ r, 0 ≤ f x ∧ f x ≤ 1) ∧
      (∀ r ∈ rows, ∀ x ∈ r, ∀ r' ∈ rows, ∀ y ∈ r', (f x < f y ↔ x < y)) ∧
      ((∃ r ∈ rows, ∃ x ∈ r, ∃ r' ∈ rows, ∃ y ∈ r', x ≠ y) →
        (∃ r ∈ rows, ∃ x ∈ r, f x = 0) ∧ ∃ r ∈ rows, ∃ x ∈ r, f x = 1) ∧
      ((∀ r ∈ rows, ∀ x ∈ r, ∀ r' ∈ rows, ∀ y ∈ r', x = y) → ∀ x, f x = 0) := by
  obtain ⟨ds1, lo, hi, e', hlo, hhi, H', -⟩ := C23_normalize ds rows H hne
  rw [e, Except.ok.injEq, Prod.mk.injEq] at e'
  obtain ⟨rfl, -⟩ := e'
  have hall : ∀ r ∈ rows, ∀ x ∈ r, lo ≤ x ∧ x ≤ hi := fun r hr x hx => ⟨hlo.2 ⟨r, hr, hx⟩, hhi.2 ⟨r, hr, hx⟩⟩
  obtain ⟨rl, hrl, hl⟩ := hlo.1
  obtain ⟨rh, hrh, hh⟩ := hhi.1
  refine ⟨fun x => if lo = hi then 0 else (x - lo) / (hi - lo), H', ?_, ?_, ?_, ?_⟩
  · intro r hr x hx
    obtain ⟨h1, h2⟩ := hall r hr x hx
    by_cases hd : lo = hi
    · simp [hd]
    · have hpos : 0 < hi - lo := sub_pos.2 (_root_.lt_of_le_of_ne (h1.trans h2) hd)
      simp only [if_neg hd]
      exact ⟨div_nonneg (sub_nonneg.2 h1) hpos.le, (div_le_one hpos).2 (sub_le_sub_right h2 lo)⟩
  · intro r hr x hx r' hr' y hy
    obtain ⟨h1, h2⟩ := hall r hr x hx
    obtain ⟨h3, h4⟩ := hall r' hr' y hy
    by_cases hd : lo = hi
    · have hxy : x = y := by
        have a : x = lo := _root_.le_antisymm (by rw [hd]; exact h2) h1
        have b : y = lo := _root_.le_antisymm (by rw [hd]; exact h4) h3
        rw [a, b]
      simp [hxy]
    · have hpos : 0 < hi - lo := sub_pos.2 (_root_.lt_of_le_of_ne (h1.trans h2) hd)
      simp only [if_neg hd]
      rw [div_lt_div_iff_of_pos_right hpos, sub_lt_sub_iff_right]
  · rintro ⟨r, hr, x, hx, r', hr', y, hy, hxy⟩
    have hd : lo ≠ hi := by
      intro hd
      apply hxy
      obtain ⟨h1, h2⟩ := hall r hr x hx
      obtain ⟨h3, h4⟩ := hall r' hr' y hy
      rw [_root_.le_antisymm (hd ▸ h2) h1, _root_.le_antisymm (hd ▸ h4) h3]
    refine ⟨⟨rl, hrl, lo, hl, ?_⟩, ⟨rh, hrh, hi, hh, ?_⟩⟩
    · simp [hd]
    · simp only [if_neg hd]
      exact div_self (sub_ne_zero.2 (Ne.symm hd))
  · intro heq x
    simp [heq rl hrl lo hl rh hrh hi hh]

/-- C23: an empty dataset is refused. -/
theorem C23_empty (ds : Dataset K) (h : ds.itemCount = 0) : ∃ msg, ds.normalize = .error (.genex msg) := by
  unfold Dataset.normalize
  rw [if_pos h]
  exact ⟨_, rfl⟩

example : (exData.normalize).map Prod.snd = .ok (fin 2, fin 12) ∧
    ((exData.normalize).bind (fun p => p.1.getTimeSeries 0 (-1) (-1) >>= p.1.points)) =
      .ok [fin (1 / 2), fin 0, fin (1 / 10)] := by decide +kernel

/-- C24: normalising a normalised dataset changes no value. -/
theorem C24_idempotent (ds ds1 : Dataset K) (rows : List (List K)) (H : Holds ds (rows.map (·.map fin)))
    (hne : ∃ r ∈ rows, r ≠ []) (m : Dbl K × Dbl K) (e : ds.normalize = .ok (ds1, m)) :
    ∃ ds2 m' rows1, ds1.normalize = .ok (ds2, m') ∧ Holds ds1 rows1 ∧ Holds ds2 rows1 ∧ Shows ds1 rows1 ∧
      Shows ds2 rows1 := by
  obtain ⟨f, H1, h01, -, hext, hconst⟩ := C23_range ds ds1 rows H hne m e
  have hm : rows.map (·.map (fun x => fin (f x))) = (rows.map (·.map f)).map (·.map fin) := by
    simp [Function.comp_def]
  have hne1 : ∃ r ∈ rows.map (·.map f), r ≠ [] := by
    obtain ⟨r, hr, hr'⟩ := hne
    exact ⟨r.map f, List.mem_map.2 ⟨r, hr, rfl⟩, by simpa using hr'⟩
  obtain ⟨ds2, lo, hi, e2, hlo, hhi, H2, -⟩ := C23_normalize ds1 (rows.map (·.map f)) (hm ▸ H1) hne1
  have hsame : (rows.map (·.map f)).map (·.map (fun x => fin (if lo = hi then 0 else (x - lo) / (hi - lo)))) =
      rows.map (·.map (fun x => fin (f x))) := by
    rw [hm, List.map_map, List.map_map]
    apply List.map_congr_left
    intro r hr
    simp only [Function.comp_apply, List.map_map]
    apply List.map_congr_left
    intro x hx
    have mem : ∀ r ∈ rows, ∀ x ∈ r, f x ∈ {y | ∃ r ∈ rows.map (·.map f), y ∈ r} := fun r hr x hx =>
      ⟨r.map f, List.mem_map.2 ⟨r, hr, rfl⟩, List.mem_map.2 ⟨x, hx, rfl⟩⟩
    simp only [Function.comp_apply]
    congr 1
    by_cases hc : ∀ r ∈ rows, ∀ x ∈ r, ∀ r' ∈ rows, ∀ y ∈ r', x = y
    · have h0 := hconst hc
      obtain ⟨r1, hr1, hl⟩ := hlo.1
      obtain ⟨q1, -, rfl⟩ := List.mem_map.1 hr1
      obtain ⟨z, -, rfl⟩ := List.mem_map.1 hl
      obtain ⟨r2, hr2, hh⟩ := hhi.1
      obtain ⟨q2, -, rfl⟩ := List.mem_map.1 hr2
      obtain ⟨w, -, rfl⟩ := List.mem_map.1 hh
      rw [if_pos (by rw [h0, h0]), h0]
    · push Not at hc
      obtain ⟨a1, ha1, x1, hx1, b1, hb1, y1, hy1, hxy⟩ := hc
      obtain ⟨⟨r0, hr0, x0, hx0, e0⟩, ⟨r3, hr3, x3, hx3, e3⟩⟩ := hext ⟨a1, ha1, x1, hx1, b1, hb1, y1, hy1, hxy⟩
      have hlo0 : lo = 0 := by
        apply _root_.le_antisymm
        · have := hlo.2 (mem r0 hr0 x0 hx0); rwa [e0] at this
        · obtain ⟨r1, hr1, hl⟩ := hlo.1
          obtain ⟨q1, hq1, rfl⟩ := List.mem_map.1 hr1
          obtain ⟨z, hz, rfl⟩ := List.mem_map.1 hl
          exact (h01 q1 hq1 z hz).1
      have hhi1 : hi = 1 := by
        apply _root_.le_antisymm
        · obtain ⟨r1, hr1, hl⟩ := hhi.1
          obtain ⟨q1, hq1, rfl⟩ := List.mem_map.1 hr1
          obtain ⟨z, hz, rfl⟩ := List.mem_map.1 hl
          exact (h01 q1 hq1 z hz).2
        · have := hhi.2 (mem r3 hr3 x3 hx3); rwa [e3] at this
      rw [hlo0, hhi1, if_neg zero_ne_one, sub_zero, sub_zero, div_one]
  rw [hsame] at H2
  exact ⟨ds2, _, _, e2, H1, H2, H1.shows, H2.shows⟩

example : (exData.normalize).bind (fun p => p.1.normalize.map (fun q => (decide (q.1 = p.1), q.2))) =
    .ok (true, (fin 0, fin 1)) := by decide +kernel

end Genex.Props
