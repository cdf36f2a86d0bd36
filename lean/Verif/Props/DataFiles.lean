import Verif.Lemmas.DataFiles
import Verif.Props.Archives

/-!
# C116: datasets kept in a text file between sessions

`saveData` writes numbers with `operator<<` (genex/TimeSeriesSet.cpp:165), that is with six digits.
-/

set_option linter.unusedSectionVars false

namespace Genex.Props

open Dbl Api Registry Spec Cli Manual

/-! ## The text of a number -/

/-- C116: the text of a number means the number rounded to so many digits. -/
theorem C116_reads (p : ℕ) (hp : 1 ≤ p) (x : ℚ) : readNumber (numText p (fin x)) = some (decimal p x) := read_numText hp x

/-- C116: that is near, no number of so many digits is nearer, and the order of numbers is kept. -/
theorem C116_near (p : ℕ) (hp : 1 ≤ p) (x y : ℚ) (h : readNumber (numText p (fin x)) = some y) :
    |y - x| ≤ 1 / 2 * 10 ^ (1 - (p : ℤ)) * |x| ∧ (∀ d, Digits p d → |y - x| ≤ |d - x|) ∧
    (∀ x' y', readNumber (numText p (fin x')) = some y' → x ≤ x' → y ≤ y') := by
  rw [C116_reads p hp, Option.some.injEq] at h
  subst h
  refine ⟨decimal_err x, fun d hd => decimal_nearest' hp hd, ?_⟩
  intro x' y' h' hx
  rw [C116_reads p hp, Option.some.injEq] at h'
  subst h'
  exact decimal_mono hp hx

/-- C116: two numbers have the same text iff they round to the same. -/
theorem C116_alike (p : ℕ) (hp : 1 ≤ p) (x y : ℚ) : numText p (fin x) = numText p (fin y) ↔ decimal p x = decimal p y := numText_iff hp x y

/-- C116: there is an exponent only for numbers below 10⁻⁴ or with more places than digits are shown, and no zero at the end of a fraction. -/
theorem C116_form (p : ℕ) (hp : 1 ≤ p) (x : ℚ) :
    ('e' ∈ numText p (fin x) ↔ x ≠ 0 ∧ (|decimal p x| < 1 / 10 ^ 4 ∨ 10 ^ p ≤ |decimal p x|)) ∧
    ('.' ∈ numText p (fin x) → ∃ c, ((numText p (fin x)).takeWhile (· ≠ 'e')).getLast? = some c ∧ c.isDigit = true ∧ c ≠ '0') :=
  numText_form hp x

example : numText 6 (fin (-1234567)) = "-1.23457e+06".toList := by decide +kernel
example : numText 6 (fin (1 / 3)) = "0.333333".toList := by decide +kernel
example : numText 4 (fin (99999 / 10000)) = "10".toList := by decide +kernel
example : numText 16 (fin (3 / 100000)) = "3e-05".toList := by decide +kernel
example : readNumber "-1.23457e+06".toList = some (-1234570) := by decide +kernel
example : readNumber "12..5".toList = none := by decide +kernel

/-! ## A dataset saved and loaded -/

/-- Exact numbers are not farther than doubles. -/
theorem nearDouble_id : NearDouble id := ⟨rfl, fun q _ => by simp only [id, sub_self, abs_zero]; positivity⟩

/-- Doubles are not farther than doubles. -/
theorem nearDouble_round : NearDouble roundDouble := by
  refine ⟨roundSub_zero (K := ℚ) 53 (-1074), ?_⟩
  intro q hq
  rcases hq with rfl | ⟨h1, -⟩
  · have : roundDouble (0 : ℚ) = 0 := roundSub_zero (K := ℚ) 53 (-1074)
    rw [this]; simp
  have h2 : |roundDouble q - q| ≤ 1 / 2 ^ 53 * |q| + 1 / 2 ^ 1074 := by
    have := (roundDouble_ops (K := ℚ)).err q
    refine le_trans this ?_
    have : (1 / 2 ^ 537 : ℚ) ^ 2 = 1 / 2 ^ 1074 := by rw [div_pow, one_pow, ← pow_mul]
    rw [this]
  have h3 : (10 : ℚ) ^ 300 ≤ 2 ^ 1000 := by
    rw [show (10 : ℚ) ^ 300 = (10 ^ 3) ^ 100 by rw [← pow_mul], show (2 : ℚ) ^ 1000 = (2 ^ 10) ^ 100 by rw [← pow_mul]]
    exact pow_le_pow_left₀ (by norm_num) (by norm_num) 100
  have h4 : (1 : ℚ) / 2 ^ 1000 ≤ 1 / 10 ^ 300 := one_div_le_one_div_of_le (by positivity) h3
  have h5 : (1 : ℚ) / 2 ^ 1074 ≤ 1 / 2 ^ 53 * (1 / 2 ^ 1000) := by
    rw [show (1 : ℚ) / 2 ^ 53 * (1 / 2 ^ 1000) = 1 / 2 ^ 1053 by rw [div_mul_div_comm, one_mul, ← pow_add]]
    exact one_div_le_one_div_of_le (by positivity) (pow_le_pow_right₀ (by norm_num) (by norm_num))
  generalize (1 : ℚ) / 2 ^ 1074 = a at *
  generalize (1 : ℚ) / 2 ^ 1000 = b at *
  generalize (1 : ℚ) / 10 ^ 300 = c at *
  have h6 : (1 : ℚ) / 2 ^ 53 * b ≤ 1 / 2 ^ 53 * |q| := by
    refine mul_le_mul_of_nonneg_left (by linarith) (by positivity)
  have h7 : |q| / 2 ^ 52 = 1 / 2 ^ 53 * |q| + 1 / 2 ^ 53 * |q| := by ring
  rw [h7]
  linarith

/-- C116, part: what comes back after saving and loading is what was saved up to six digits, and a little more if numbers are doubles;
names, number and lengths of the series are kept.  Missing: it is not the same (`C116_false`). -/
theorem C116_saved_partial (parse : Text → Parsed ℚ) (rd : ℚ → ℚ) (hr : ReadsNumbers parse rd) (hd : NearDouble rd) (sep : Char)
    (hs : Separates sep) (ds : Dataset ℚ) (rows : List (List ℚ)) (H : Holds ds (rows.map (·.map fin)))
    (ho : ∀ r ∈ rows, ∀ x ∈ r, Ordinary x) (hnames : ds.names = [] ∨ ds.names.length = rows.length)
    (hname : ∀ n ∈ ds.names, n ≠ [] ∧ sep ∉ n ∧ '\n' ∉ n) (path : Text) :
    ∃ text ds' rows', ds.saveData (numText 6) sep = .ok text ∧
      Dataset.loadData parse (some text) path 0 0 [sep] (decide (ds.names ≠ [])) (Dataset.fresh : Dataset ℚ) = (ds', .ok ()) ∧
      Holds ds' (rows'.map (·.map fin)) ∧ ds'.names = ds.names ∧
      List.Forall₂ (List.Forall₂ fun x y => |y - x| ≤ 51 / 10 ^ 7 * |x| ∧ (Digits 6 x → y = rd x)) rows rows' := by
  obtain ⟨text, ds', h1, h2, h3, h4, h5, h6⟩ := save_numbers hr (p := 6) (by norm_num) hs H ho hnames hname path
  refine ⟨text, ds', rows.map (·.map fun x => rd (decimal 6 x)), h1, h4, ?_, h6, ?_⟩
  · simpa [List.map_map, Function.comp_def] using h5
  · rw [List.forall₂_map_right_iff]
    refine List.forall₂_same.2 fun r hr' => ?_
    rw [List.forall₂_map_right_iff]
    refine List.forall₂_same.2 fun x hx => ⟨?_, fun hx6 => by rw [decimal_exact (by norm_num) hx6]⟩
    exact kept_near hd (ho r hr' x hx)

/-- C116: saving what came back leaves the same file again. -/
theorem C116_again (parse : Text → Parsed ℚ) (rd : ℚ → ℚ) (hr : ReadsNumbers parse rd) (hd : NearDouble rd) (sep : Char)
    (hs : Separates sep) (ds : Dataset ℚ) (rows : List (List ℚ)) (H : Holds ds (rows.map (·.map fin)))
    (ho : ∀ r ∈ rows, ∀ x ∈ r, Ordinary x) (hnames : ds.names = [] ∨ ds.names.length = rows.length)
    (hname : ∀ n ∈ ds.names, n ≠ [] ∧ sep ∉ n ∧ '\n' ∉ n) (path text : Text) (ds' : Dataset ℚ)
    (h1 : ds.saveData (numText 6) sep = .ok text)
    (h2 : Dataset.loadData parse (some text) path 0 0 [sep] (decide (ds.names ≠ [])) (Dataset.fresh : Dataset ℚ) = (ds', .ok ())) :
    ds'.saveData (numText 6) sep = .ok text := by
  obtain ⟨text', ds'', g1, -, -, g4, g5, g6⟩ := save_numbers hr (p := 6) (by norm_num) hs H ho hnames hname path
  rw [h1, Except.ok.injEq] at g1
  subst g1
  rw [h2, Prod.mk.injEq] at g4
  obtain ⟨rfl, -⟩ := g4
  rw [saveData_ok (numText 6) sep H (by simpa using hnames)] at h1
  rw [saveData_ok (numText 6) sep g5 (by rw [g6]; simpa using hnames), ← h1, g6]
  congr 2
  apply List.ext_getElem?
  intro i
  simp only [List.getElem?_mapIdx, List.getElem?_map, Option.map_map]
  cases hi : rows[i]? with
  | none => rfl
  | some r =>
    simp only [Option.map_some, Function.comp_def, Option.some.injEq]
    have hl : (r.map fun x => fin (rd (decimal 6 x))).map (numText 6) = (r.map fin).map (numText 6) := by
      simp only [List.map_map]
      apply List.map_congr_left
      intro x hx
      simp only [Function.comp_def]
      rw [numText_iff (by norm_num)]
      have hox := ho r (List.mem_of_getElem? hi) x hx
      refine decimal_stable (by norm_num) (le_trans (hd.2 _ (ordinary_decimal (by norm_num) hox)) ?_)
      exact div_le_div_of_nonneg_left (abs_nonneg _) (by norm_num) (by norm_num)
    rw [rowText_eq, rowText_eq]
    unfold linePieces
    rw [hl]

/-- The reader of the examples. -/
def exStod (t : Text) : Parsed ℚ := match readNumber t with | some q => .val (fin q) | none => .invalid

theorem exStod_reads : ReadsNumbers exStod id := by
  intro t q h _
  unfold exStod
  rw [h]
  rfl

/-- A dataset with two named series. -/
def exKept : Dataset ℚ :=
  { data := some [fin 1234567, fin (1 / 3), fin 5, fin 0], names := ["a".toList, "b".toList], lengths := [2, 1],
    itemCount := 2, maxCol := 2, filePath := [], normalized := false }

theorem exKept_holds : Holds exKept ([[1234567, 1 / 3], [5]].map (·.map fin)) := by
  refine ⟨rfl, rfl, ?_, ?_⟩
  · intro i r h
    rcases i with _ | _ | i <;> simp at h <;> subst h <;> decide
  · intro i r h j x hx
    rcases i with _ | _ | i <;> simp at h <;> subst h
    · rcases j with _ | _ | j <;> simp at hx <;> subst hx <;> decide +kernel
    · rcases j with _ | j <;> simp at hx <;> subst hx
      rfl

theorem exKept_ordinary : ∀ r ∈ [[1234567, 1 / 3], [5]], ∀ x ∈ r, Ordinary (x : ℚ) := by
  intro r hr x hx
  refine .inr ?_
  simp only [List.mem_cons, List.not_mem_nil, or_false] at hr
  rcases hr with rfl | rfl
  · simp only [List.mem_cons, List.not_mem_nil, or_false] at hx
    rcases hx with rfl | rfl
    · exact ordinary_between (by norm_num) (by norm_num)
    · exact ordinary_between (by norm_num) (by norm_num)
  · simp only [List.mem_cons, List.not_mem_nil, or_false] at hx
    subst hx
    exact ordinary_between (by norm_num) (by norm_num)

theorem exSpace : Separates ' ' := by
  unfold Separates
  decide

example := C116_saved_partial exStod id exStod_reads nearDouble_id ' ' exSpace exKept _ exKept_holds exKept_ordinary (.inr rfl) (by decide) []
example : exKept.saveData (numText 6) ' ' = .ok "a 1.23457e+06 0.333333 \nb 5 \n".toList := by decide +kernel

/-- C116 fails otherwise: with more than six digits what comes back is another number. -/
theorem C116_false : ∃ (ds ds' : Dataset ℚ) (rows : List (List ℚ)) (text : Text), Holds ds (rows.map (·.map fin)) ∧
    (∀ r ∈ rows, ∀ x ∈ r, Ordinary x) ∧ ds.saveData (numText 6) ' ' = .ok text ∧
    Dataset.loadData exStod (some text) [] 0 0 [' '] (decide (ds.names ≠ [])) (Dataset.fresh : Dataset ℚ) = (ds', .ok ()) ∧
    ¬ Holds ds' (rows.map (·.map fin)) := by
  obtain ⟨text, ds', rows', h1, h2, h3, -, -⟩ := C116_saved_partial exStod id exStod_reads nearDouble_id ' ' exSpace exKept _ exKept_holds
    exKept_ordinary (.inr rfl) (by decide) []
  refine ⟨exKept, ds', _, text, exKept_holds, exKept_ordinary, h1, h2, ?_⟩
  intro H
  have e : text = "a 1.23457e+06 0.333333 \nb 5 \n".toList := by
    have : exKept.saveData (numText 6) ' ' = .ok "a 1.23457e+06 0.333333 \nb 5 \n".toList := by decide +kernel
    rw [h1] at this
    exact Except.ok.inj this
  have h5 := H.cells 0 [fin 1234567, fin (1 / 3)] rfl 0 (fin 1234567) rfl
  rw [e] at h2
  have h6 : (Dataset.loadData exStod (some "a 1.23457e+06 0.333333 \nb 5 \n".toList) [] 0 0 [' '] true
      (Dataset.fresh : Dataset ℚ)).1.read 0 = .ok (fin 1234570) := by decide +kernel
  have h7 : decide (exKept.names ≠ []) = true := rfl
  rw [h7] at h2
  rw [h2] at h6
  simp only [Nat.cast_zero, zero_mul, add_zero] at h5
  rw [h6] at h5
  revert h5
  decide +kernel

/-- C116 fails otherwise: a name that was loaded with a blank in it is written as it is, so that after saving with blanks its end comes back as
a point of the series, without an error. -/
theorem C116_names_false : ∃ (ds ds' : Dataset ℚ) (file text : Text),
    Dataset.loadData exStod (some file) [] 0 0 [','] true (Dataset.fresh : Dataset ℚ) = (ds, .ok ()) ∧
    Holds ds [[fin 1, fin 2]] ∧ ds.names = ["run 7".toList] ∧ ds.saveData (numText 6) ' ' = .ok text ∧
    Dataset.loadData exStod (some text) [] 0 0 [' '] true (Dataset.fresh : Dataset ℚ) = (ds', .ok ()) ∧
    Holds ds' [[fin 7, fin 1, fin 2]] ∧ ds'.names = ["run".toList] := by
  obtain ⟨ds, g1, g2, g3, -, -⟩ := load_holds exStod "run 7,1,2".toList [] 0 0 [','] true [[fin 1, fin 2]] (by decide +kernel) (by decide +kernel)
  obtain ⟨ds', k1, k2, k3, -, -⟩ := load_holds exStod "run 7 1 2 \n".toList [] 0 0 [' '] true [[fin 7, fin 1, fin 2]] (by decide +kernel)
    (by decide +kernel)
  refine ⟨ds, ds', _, "run 7 1 2 \n".toList, g1, g2, by rw [g3]; decide +kernel, ?_, k1, k2, by rw [k3]; decide +kernel⟩
  have e : (Dataset.loadData exStod (some "run 7,1,2".toList) [] 0 0 [','] true (Dataset.fresh : Dataset ℚ)).1 = ds := by
    simpa using congrArg Prod.fst g1
  rw [← e]
  decide +kernel

/-- C116 fails otherwise: `save` takes any character as separator, also one that numbers are written with. -/
theorem C116_separator_false : ∃ (ds ds' : Dataset ℚ) (file text : Text),
    Dataset.loadData exStod (some file) [] 0 0 [' '] false (Dataset.fresh : Dataset ℚ) = (ds, .ok ()) ∧
    Holds ds [[fin (3 / 2), fin 2]] ∧ ds.saveData (numText 6) '.' = .ok text ∧
    Dataset.loadData exStod (some text) [] 0 0 ['.'] false (Dataset.fresh : Dataset ℚ) = (ds', .ok ()) ∧
    Holds ds' [[fin 1, fin 5, fin 2]] := by
  obtain ⟨ds, g1, g2, -, -, -⟩ := load_holds exStod "1.5 2".toList [] 0 0 [' '] false [[fin (3 / 2), fin 2]] (by decide +kernel) (by decide +kernel)
  obtain ⟨ds', k1, k2, -, -, -⟩ := load_holds exStod "1.5.2.\n".toList [] 0 0 ['.'] false [[fin 1, fin 5, fin 2]] (by decide +kernel)
    (by decide +kernel)
  refine ⟨ds, ds', _, "1.5.2.\n".toList, g1, g2, ?_, k1, k2⟩
  have e : (Dataset.loadData exStod (some "1.5 2".toList) [] 0 0 [' '] false (Dataset.fresh : Dataset ℚ)).1 = ds := by
    simpa using congrArg Prod.fst g1
  rw [← e]
  decide +kernel

/-! ## Two sessions at the terminal -/

/-- C116: after a dataset has been loaded at the terminal, normalized or not, `save` can be typed; there is no error, and a file is left. -/
theorem C116_save (E : Env ℚ) (hpr : E.print = numText 6) (rd : ℚ → ℚ) (hr : ReadsNumbers E.parse rd) (S : Screen ℚ)
    (hP : S.progress = [] ∨ S.progress.getLast? = some '\n') (h : List (Entered ℚ)) (c : Console ℚ) (ht : Terminal E S Console.fresh h c)
    (name : String) (ns : List Text) (rows : List (List ℚ)) (hl : NamedBy E name ns h rows) (ho : ∀ r ∈ rows, ∀ x ∈ r, Ordinary x) (sep : Char)
    (hs : Separates sep) (hname : ∀ n ∈ ns, n ≠ [] ∧ sep ∉ n ∧ '\n' ∉ n) (P : CliEnv ℚ) (line : String) (hline : '\n' ∉ line.toList)
    (args : List String) (hwords : Words line.toList (args.map String.toList)) (hu : Usage P args (.call (.call (.save name sep)))) :
    ∃ T c' text, Terminal E S Console.fresh (h ++ [⟨P, line, T⟩]) c' ∧
      T = "Saved dataset ".toList ++ (name.toList ++ (" to ".toList ++ ((args.getD 2 "").toList ++ ['\n', '\n']))) ∧
      SavesAs E S h name sep text := by
  obtain ⟨g, hg, H, hn, hlen, -⟩ := named_data hP ht hl
  obtain ⟨id, k1, k2⟩ := (terminal_kept ht).holds.1 hg
  have hp := usage_runs (e := ⟨P, line, []⟩) hwords hu (usage_save hu)
  obtain ⟨text, ds', h1, -⟩ := save_numbers hr (p := 6) (by norm_num) hs H ho (by rw [hn]; exact hlen) (by rw [hn]; exact hname) []
  have hex : c.api.exec E (.save name sep) = (c.api, .ret (.ok (.text text))) := by
    simp only [exec]
    rw [withSet_some k1 k2, hpr, h1]
    rfl
  have hsay := says_call E P c line (.call (.save name sep)) _ _ hp hex
  have ha : arg (splitLine line) 2 = args.getD 2 "" := by
    unfold splitLine
    rw [words_unique hwords]
    simp [arg]
  refine ⟨_, _, text, .snoc ht hline hsay (by simp), ?_, c, _, P, line, args, _, ht, hwords, hu, hsay⟩
  unfold report before
  rw [ha]
  generalize "Saved dataset " = t1, " to " = t2
  simp [Piece.texts, Piece.text]

/-- C116: the file holds the same names and the numbers rounded to six digits; a session that has loaded it without an error has these. -/
theorem C116_load (E : Env ℚ) (hpr : E.print = numText 6) (rd : ℚ → ℚ) (hr : ReadsNumbers E.parse rd) (S : Screen ℚ)
    (hP : S.progress = [] ∨ S.progress.getLast? = some '\n') (h : List (Entered ℚ)) (name : String) (ns : List Text) (rows : List (List ℚ))
    (hl : NamedBy E name ns h rows) (ho : ∀ r ∈ rows, ∀ x ∈ r, Ordinary x) (sep : Char) (hs : Separates sep)
    (hname : ∀ n ∈ ns, n ≠ [] ∧ sep ∉ n ∧ '\n' ∉ n) (text : Text) (hw : SavesAs E S h name sep text) :
    FileHas E.parse text [sep] 0 0 (decide (ns ≠ [])) (rows.map (·.map fun x => rd (decimal 6 x))) ∧
    titles text [sep] 0 0 (decide (ns ≠ [])) = ns ∧
    ∀ (h₁ h₂ : List (Entered ℚ)) (e : Entered ℚ) (args : List String) (name' : String) (path : Text), e.Typed args →
      Usage e.env args (.call (.call (.load name' (some text) path [sep] 0 0 (decide (ns ≠ []))))) → e.Fine →
      (∀ x ∈ h₂, ¬ x.Touches ["load", "unload", "normalize"] name') →
      NamedBy E name' ns (h₁ ++ e :: h₂) (rows.map (·.map fun x => rd (decimal 6 x))) := by
  obtain ⟨c, ht, hsv⟩ := writes_save hw
  obtain ⟨g, hg, H, hn, hlen, hne⟩ := named_data hP ht hl
  have h0 := hsv g hg
  obtain ⟨text', ds', h1, h2, h3, h4, h5, h6⟩ := save_numbers hr (p := 6) (by norm_num) hs H ho (by rw [hn]; exact hlen)
    (by rw [hn]; exact hname) []
  rw [hpr, h1, Except.ok.injEq] at h0
  subst h0
  rw [hn] at h2 h3 h4 h6
  have hf : FileHas E.parse text' [sep] 0 0 (decide (ns ≠ [])) (rows.map (·.map fun x => rd (decimal 6 x))) := by
    refine ⟨by simpa using hne, h3, ?_⟩
    unfold readVals at h2
    simpa [List.map_map, Function.comp_def] using h2
  have htl : titles text' [sep] 0 0 (decide (ns ≠ [])) = ns := by
    obtain ⟨ds'', g1, -, g3, -, -⟩ := load_holds E.parse text' [] 0 0 [sep] (decide (ns ≠ [])) _ h2 h3
    simp only [Nat.cast_zero] at g1
    rw [h4, Prod.mk.injEq] at g1
    obtain ⟨rfl, -⟩ := g1
    rw [h6] at g3
    exact g3.symm
  exact ⟨hf, htl, fun h₁ h₂ e args name' path hty hu hfine hkeep => .load hty (startCol := 0) hu hf htl.symm hfine hkeep⟩

/-! A session in which `g` is loaded and saved. -/

def exKeepEnv : Env ℚ := { exEnv with parse := exStod, print := numText 6 }

def exKeepCall : Call ℚ := .load "d" (some "1234567 1 1\n1 1 2".toList) ['g'] [' '] 0 0 false

def exKeepShow : CliEnv ℚ := { exShow with text := fun p => if p = "g" then some "1234567 1 1\n1 1 2".toList else none }

def exKeepApi : Api ℚ := ((fresh : Api ℚ).exec exKeepEnv exKeepCall).1

def exKeepLoad : Entered ℚ := ⟨exKeepShow, "load d g", Piece.texts exScreen (before (.call exKeepCall) ++
  (report true 6 (splitLine "load d g") (.call exKeepCall) (.info ⟨"d", 2, 3, false, false, "", 0⟩)).1 ++ [.endl])⟩

theorem exKeep_says : Terminal exKeepEnv exScreen Console.fresh [exKeepLoad] ⟨exKeepApi, true, 6⟩ := by
  have h := says_call exKeepEnv exKeepShow Console.fresh "load d g" (.call exKeepCall) exKeepApi (.info ⟨"d", 2, 3, false, false, "", 0⟩) rfl (by
    rw [← infoOf_some (r := ((fresh : Api ℚ).exec exKeepEnv exKeepCall).2) (by decide +kernel)]
    rfl)
  exact .snoc (h := []) (.nil _) (by decide) h (by simp)

def exKeepRows : List (List ℚ) := [[1234567, 1, 1], [1, 1, 2]]

theorem exKeep_named : NamedBy exKeepEnv "d" [] [exKeepLoad] exKeepRows :=
  .load (h₁ := []) (h₂ := []) (args := ["load", "d", "g"]) (startCol := 0) (tokens_words "load d g".toList) (.load0 "d" "g")
    ⟨by decide, by decide +kernel, by decide +kernel⟩ rfl (by unfold Entered.Fine HasLine; decide +kernel) (by simp)

theorem exKeep_ordinary : ∀ r ∈ exKeepRows, ∀ x ∈ r, Ordinary x := by
  have h : ∀ r ∈ exKeepRows, ∀ x ∈ r, 1 ≤ x ∧ x ≤ 1234567 := by decide +kernel
  intro r hr x hx
  obtain ⟨a, b⟩ := h r hr x hx
  have e : |x| = x := abs_of_nonneg (le_trans zero_le_one a)
  exact .inr (ordinary_between (by rw [e]; exact le_trans (by norm_num) a) (by rw [e]; exact le_trans b (by norm_num)))

def exKeepRounded : List (List ℚ) := [[1234570, 1, 1], [1, 1, 2]]

/-- There is a file, and it has the rounded number. -/
example : ∃ text, SavesAs exKeepEnv exScreen [exKeepLoad] "d" ' ' text ∧ FileHas exStod text [' '] 0 0 false exKeepRounded := by
  obtain ⟨-, -, text, -, -, hw⟩ := C116_save exKeepEnv rfl id exStod_reads exScreen (.inl rfl) [exKeepLoad] _ exKeep_says "d" [] exKeepRows
    exKeep_named exKeep_ordinary ' ' exSpace (by simp) exKeepShow "save d f" (by decide) ["save", "d", "f"] (tokens_words "save d f".toList)
    (.save0 "d" "f")
  refine ⟨text, hw, ?_⟩
  have h := (C116_load exKeepEnv rfl id exStod_reads exScreen (.inl rfl) [exKeepLoad] "d" [] exKeepRows exKeep_named exKeep_ordinary ' ' exSpace
    (by simp) text hw).1
  have e : exKeepRows.map (·.map fun x => id (decimal 6 x)) = exKeepRounded := by decide +kernel
  rw [e] at h
  exact h

end Genex.Props
