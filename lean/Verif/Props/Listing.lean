import Verif.Lemmas.Listing
import Verif.Props.Terminal
import Verif.Model.MachineDist

/-!
# C114: what `list` shows
-/

set_option linter.unusedSectionVars false

namespace Genex.Props

open Dbl Api Registry Spec Cli Manual

section

variable {K : Type} [Field K] [LinearOrder K] [HasSqrt K] [Arith K] [BandOps]

/-- C114: the table that `list dataset` shows has as many rows as its first line says, in the ascending order of the names. -/
theorem C114_rows (E : Env K) (S : Screen K) (hS : Spec.Plain S) (h : List (Entered K)) (e : Entered K) (c : Console K)
    (ht : Terminal E S Console.fresh (h ++ [e]) c) (ho : Orderly h) (typed : e.Typed ["list", "dataset"]) :
    (textLines e.text).head?.bind readInt = some (((rowsIn e.text).length : Int), " datasets loaded".toList) ∧
      ∃ names : List String, (rowsIn e.text).map (·.1) = names.map String.toList ∧ names.Pairwise (· < ·) := by
  obtain ⟨b, hb, he⟩ := terminal_split ht
  obtain ⟨ms, h1, h2, h3, -, h5⟩ := list_shows (terminal_inv hb) he typed
  have hpl : ∀ m ∈ ms, PlainMeta m := by
    intro m hm
    obtain ⟨g, hg, hmg⟩ := h2 m hm
    obtain ⟨p1, p2⟩ := terminal_plain hS.progress hb ho hg
    exact metaOf_plain hmg p2 p1
  obtain ⟨e1, r, e2⟩ := rowsIn_infos (S := S) hS.num b.timer b.digits (splitLine e.line) hpl
  rw [h5, e1, e2]
  refine ⟨?_, ms.map Meta.name, ?_, h1⟩
  · rw [List.head?_cons, Option.bind_some, List.length_map]
    exact readInt_app _ (by intro c hc; cases hc; rfl)
  · rw [List.map_map, List.map_map]
    rfl

/-- C114: the row that `list dataset` shows for a name is what the lines typed and the texts after them say: the last `load`, `unload`,
`normalize`, `group` and `loadGroups` of that name without an error.  `_partial`: not after an error of `group` or `loadGroups` for that
name. -/
theorem C114_status_partial (hM : Marks K) (E : Env K) (S : Screen K) (hS : Spec.Plain S) (h : List (Entered K)) (e : Entered K) (c : Console K)
    (ht : Terminal E S Console.fresh (h ++ [e]) c) (ho : Orderly h) (typed : e.Typed ["list", "dataset"]) (name : String)
    (st : Option (Bool × Option (String × Dbl K))) (hst : Status name h st) (row : Text × Text × Text) (hrow : row.1 = name.toList) :
    row ∈ rowsIn e.text ↔ ∃ n g, st = some (n, g) ∧ row = rowOf S name n g := by
  obtain ⟨b, hb, he⟩ := terminal_split ht
  have hI := terminal_inv hb
  obtain ⟨ms, h1, h2, h3, -, h5⟩ := list_shows hI he typed
  have hpl : ∀ m ∈ ms, PlainMeta m := by
    intro m hm
    obtain ⟨g, hg, hmg⟩ := h2 m hm
    obtain ⟨p1, p2⟩ := terminal_plain hS.progress hb ho hg
    exact metaOf_plain hmg p2 p1
  obtain ⟨e1, -⟩ := rowsIn_infos (S := S) hS.num b.timer b.digits (splitLine e.line) hpl
  rw [h5, e1]
  have hm := status_matches hM hS.progress hb hst
  constructor
  · intro hr
    obtain ⟨m, hmm, rfl⟩ := List.mem_map.1 hr
    obtain ⟨g, hg, hmg⟩ := h2 m hmm
    have hn : m.name = name := by
      have := congrArg String.ofList hrow
      simpa using this
    rw [hn] at hg hmg
    match st, hm with
    | none, hm => exact absurd hg (hm g)
    | some (n, o), hm =>
      obtain ⟨g', hg', hn', ho'⟩ := matches_held hm
      have : g' = g := by
        obtain ⟨i, a1, a2⟩ := hI.holds.1 hg
        obtain ⟨j, b1, b2⟩ := hI.holds.1 hg'
        rw [a1] at b1
        cases b1
        rw [a2] at b2
        cases b2
        rfl
      subst this
      obtain ⟨m', hm', hr'⟩ := metaOf_row (S := S) (name := name) (o := o) hn' (by cases o <;> exact ho')
      rw [hmg] at hm'
      cases hm'
      exact ⟨n, o, rfl, hr'⟩
  · rintro ⟨n, o, rfl, rfl⟩
    obtain ⟨g, hg, hn, ho'⟩ := matches_held hm
    obtain ⟨m', hm', hr'⟩ := metaOf_row (S := S) (name := name) (o := o) hn (by cases o <;> exact ho')
    obtain ⟨m, hmm, hmg⟩ := h3 name g hg
    rw [hm'] at hmg
    cases hmg
    exact List.mem_map.2 ⟨_, hmm, hr'⟩

/-- C114: `list dataset` shows a table, if no `group` and no `loadGroups` has shown an error. -/
theorem C114_answers (hM : Marks K) (E : Env K) (S : Screen K) (hP : S.progress = [] ∨ S.progress.getLast? = some '\n')
    (h : List (Entered K)) (c : Console K) (ht : Terminal E S Console.fresh h c) (hst : ∀ name, ∃ st, Status name h st) (P : CliEnv K)
    (line : String) (hl : '\n' ∉ line.toList) (hw : Words line.toList (["list", "dataset"].map String.toList)) :
    ∃ T, Terminal E S Console.fresh (h ++ [⟨P, line, T⟩]) c := by
  have hI := terminal_inv ht
  obtain ⟨l, h1, h2, h3⟩ := allSets_some hI.live
  obtain ⟨ms, hms⟩ := metasOf_ok (l := l) (by
    rintro ⟨name, g⟩ hx
    obtain ⟨id, h4, h5⟩ := h3 _ hx
    obtain ⟨st, hs⟩ := hst name
    have hm := status_matches hM hP ht hs
    have hg : Registry.Holds c.api name g := ⟨id, h4, deref_some.1 h5⟩
    match st, hm with
    | none, hm => exact absurd hg (hm g)
    | some (n, o), hm =>
      obtain ⟨g', hg', hn', ho'⟩ := matches_held hm
      have : g' = g := by
        obtain ⟨i, a1, a2⟩ := hI.holds.1 hg
        obtain ⟨j, b1, b2⟩ := hI.holds.1 hg'
        rw [a1] at b1
        cases b1
        rw [a2] at b2
        cases b2
        rfl
      subst this
      obtain ⟨m', hm', -⟩ := metaOf_row (S := S) (name := name) (o := o) hn' (by cases o <;> exact ho')
      exact ⟨m', hm'⟩)
  have hp := usage_runs (e := ⟨P, line, []⟩) hw .listDataset (by simp)
  have := says_call E P c line (.call .allInfo) c.api (.infos ms) hp (by
    change c.api.exec E _ = _
    simp only [exec, h1, hms]
    rfl)
  exact ⟨_, .snoc ht hl this (by simp)⟩

/-- C114: `list distance` shows these names, and always answers. -/
theorem C114_distance (E : Env K) (S : Screen K) (h : List (Entered K)) (e : Entered K) (c : Console K)
    (ht : Terminal E S Console.fresh (h ++ [e]) c) (typed : e.Typed ["list", "distance"]) :
    distancesIn e.text = ["euclidean", "euclidean_dtw", "manhattan", "manhattan_dtw", "chebyshev", "chebyshev_dtw", "cosine", "cosine_dtw",
      "sorensen", "sorensen_dtw"].map String.toList := by
  obtain ⟨b, hb, he⟩ := terminal_split ht
  obtain ⟨-, ps, o, hs, -, htx⟩ := terminal_one he
  have hp : processLine e.env e.line = .run (.ok (.call (.call .allDistances))) := usage_runs typed .listDistance (by simp)
  rcases says_ran hs hp with ⟨out, hst, hps⟩ | ⟨f, hst⟩
  · change b.api.exec E _ = _ at hst
    simp only [exec, Prod.mk.injEq] at hst
    obtain ⟨-, hst⟩ := hst
    cases hst
    rw [htx, hps]
    generalize splitLine e.line = args
    have : Piece.texts S (before (.call .allDistances) ++ (report b.timer b.digits args (.call .allDistances) (.names gAllDistanceName)).1 ++
        [.endl]) = ((gAllDistanceName.map fun n => ' ' :: padded 10 n.toList ++ ['\t', '\n']).flatten ++ ['\n']) := by
      rw [texts_app]
      unfold report
      simp only [before, List.nil_append]
      rw [texts_flat]
      rfl
    rw [this]
    decide +kernel
  · change b.api.exec E _ = _ at hst
    simp only [exec, Prod.mk.injEq] at hst
    cases hst.2

end

/-! ## Normalizing marks the data, in each arithmetic -/

section

variable {K : Type} [Field K] [LinearOrder K] [HasSqrt K] [BandOps]

/-- C114: the hypothesis on `normalize` is met in each arithmetic: exact, rounded, with overflow, with `int` of 32 bits. -/
theorem C114_marks (rd : K → K) (r : Dbl K → Dbl K) :
    @Marks K exactArith ∧ @Marks K (roundedArith rd) ∧ @Marks K (overflowArith r) ∧ @Marks K (machineArith r) := by
  refine ⟨?_, ?_, ?_, ?_⟩
  · intro ds ds' p h
    change ds.normalize = _ at h
    unfold Dataset.normalize at h
    split at h
    · cases h
    obtain ⟨cs, -, h⟩ := res_bind h
    obtain ⟨m, -, h⟩ := res_bind h
    dsimp only at h
    split at h
    · split at h <;> (obtain ⟨x, -, h⟩ := res_bind h; cases h; rfl)
    · obtain ⟨x, -, h⟩ := res_bind h
      cases h
      rfl
  · intro ds ds' p h
    change ds.normalizeR rd = _ at h
    unfold Dataset.normalizeR at h
    split at h
    · cases h
    obtain ⟨cs, -, h⟩ := res_bind h
    obtain ⟨m, -, h⟩ := res_bind h
    dsimp only at h
    split at h
    · split at h <;> (obtain ⟨x, -, h⟩ := res_bind h; cases h; rfl)
    · obtain ⟨x, -, h⟩ := res_bind h
      cases h
      rfl
  · intro ds ds' p h
    change ds.normalizeW r = _ at h
    unfold Dataset.normalizeW at h
    split at h
    · cases h
    obtain ⟨cs, -, h⟩ := res_bind h
    obtain ⟨m, -, h⟩ := res_bind h
    dsimp only at h
    split at h
    · split at h <;> (obtain ⟨x, -, h⟩ := res_bind h; cases h; rfl)
    · obtain ⟨x, -, h⟩ := res_bind h
      cases h
      rfl
  · intro ds ds' p h
    change ds.normalizeI r = _ at h
    unfold Dataset.normalizeI at h
    split at h
    · cases h
    obtain ⟨cs, -, h⟩ := res_bind h
    obtain ⟨m, -, h⟩ := res_bind h
    dsimp only at h
    split at h
    · split at h <;> (obtain ⟨x, -, h⟩ := res_bind h; cases h; rfl)
    · obtain ⟨x, -, h⟩ := res_bind h
      cases h
      rfl

end

/-! ## A session -/

theorem exMarks : Marks ℚ := (C114_marks id id).1

theorem exScreen_plain : Spec.Plain exScreen := by
  refine ⟨fun x => ⟨(exScreen_chars 6 x).2.2, ?_⟩, .inl rfl⟩
  intro h
  cases x with
  | fin y =>
    simp only [exScreen, List.mem_append, List.mem_cons] at h
    have hd : ∀ n : ℕ, '\t' ∉ Nat.toDigits 10 n := by
      intro n hn
      exact absurd (Nat.isDigit_of_mem_toDigits (by norm_num) (by norm_num) hn) (by decide)
    rcases h with h | h | h
    · generalize (decimal 6 y).num = z at h
      cases z with
      | ofNat n =>
        have h' : '\t' ∈ intText (n : Int) := h
        rw [intText_nat] at h'
        exact hd n h'
      | negSucc n =>
        rw [intText_neg, List.mem_cons] at h
        exact h.elim (by decide) (hd _)
    · exact absurd h (by decide)
    · exact hd _ h
  | inf => exact absurd h (by decide)
  | ninf => exact absurd h (by decide)
  | nan => exact absurd h (by decide)

theorem exList_status : Status "d" [exEnterLoad, exEnterNorm, exEnterGroup] (some (true, some ("chebyshev", fin (1 : ℚ)))) := by
  refine .group (h := [exEnterLoad, exEnterNorm]) (g := none) (args := ["group", "d", "1", "chebyshev"]) (threads := 1) ?_
    (tokens_words "group d 1 chebyshev".toList) (.group1 "d" "1" "chebyshev" rfl) exTermUnit_fine.2
  refine .normalize (h := [exEnterLoad]) (b := false) ?_ (tokens_words "normalize d".toList) exTermUnit_fine.1
  exact .load (h := []) .nil (args := ["load", "d", "g"]) (tokens_words "load d g".toList) (.load0 "d" "g") exTerm_fine.1

theorem exList_other (name : String) (hn : name ≠ "d") : Status name [exEnterLoad, exEnterNorm, exEnterGroup] (none : Option (Bool × Option (String × Dbl ℚ))) := by
  have key : ∀ e ∈ [exEnterLoad, exEnterNorm, exEnterGroup], ¬ e.Touches ["load", "unload", "normalize", "group", "loadGroups"] name := by
    rintro e he ⟨cmd, -, ws, hw⟩
    refine hn ?_
    have h1 : (Cli.tokens e.line.toList [])[1]? = some "d".toList := by
      simp only [List.mem_cons, List.not_mem_nil, or_false] at he
      rcases he with rfl | rfl | rfl <;> decide
    rw [words_unique hw] at h1
    have := congrArg String.ofList (Option.some.inj h1)
    simpa using this
  exact .other (h := [exEnterLoad, exEnterNorm]) (.other (h := [exEnterLoad]) (.other (h := []) .nil (key _ (by simp))) (key _ (by simp)))
    (key _ (by simp))

theorem exList_orderly : Orderly [exEnterLoad, exEnterNorm, exEnterGroup] := by
  intro e he
  simp only [List.mem_cons, List.not_mem_nil, or_false] at he
  rcases he with rfl | rfl | rfl
  · exact ⟨by decide, fun _ => exTerm_fine.1⟩
  · exact ⟨by decide, fun _ => exTermUnit_fine.1⟩
  · exact ⟨by decide, fun _ => exTermUnit_fine.2⟩

/-- `list dataset` after loading, normalizing and grouping. -/
example : ∃ T c, Terminal exEnv exScreen Console.fresh ([exEnterLoad, exEnterNorm, exEnterGroup] ++ [⟨exShow, "list dataset", T⟩]) c ∧
    ("d".toList, "Grouped (chebyshev, TS = 1/1)".toList, "Normalized".toList) ∈ rowsIn T := by
  obtain ⟨T, hT⟩ := C114_answers exMarks exEnv exScreen (.inl rfl) _ _ exEnterUnitGroup_says
    (fun name => if h : name = "d" then ⟨_, h ▸ exList_status⟩ else ⟨_, exList_other name h⟩) exShow "list dataset" (by decide)
    (tokens_words "list dataset".toList)
  refine ⟨T, _, hT, (C114_status_partial exMarks exEnv exScreen exScreen_plain _ _ _ hT exList_orderly (tokens_words "list dataset".toList) "d" _
    exList_status _ rfl).2 ⟨true, some ("chebyshev", fin 1), rfl, ?_⟩⟩
  decide +kernel

example : ∃ T c, Terminal exEnv exScreen Console.fresh ([exEnterLoad, exEnterNorm, exEnterGroup] ++ [⟨exShow, "list dataset", T⟩]) c ∧
    (∃ names : List String, (rowsIn T).map (·.1) = names.map String.toList ∧ names.Pairwise (· < ·)) := by
  obtain ⟨T, hT⟩ := C114_answers exMarks exEnv exScreen (.inl rfl) _ _ exEnterUnitGroup_says
    (fun name => if h : name = "d" then ⟨_, h ▸ exList_status⟩ else ⟨_, exList_other name h⟩) exShow "list dataset" (by decide)
    (tokens_words "list dataset".toList)
  exact ⟨T, _, hT, (C114_rows exEnv exScreen exScreen_plain _ _ _ hT exList_orderly (tokens_words "list dataset".toList)).2⟩

/-- `list distance`. -/
example : ∃ T c, Terminal exEnv exScreen Console.fresh ([exEnterLoad] ++ [⟨exShow, "list distance", T⟩]) c ∧ (distancesIn T).length = 10 := by
  have h := says_call exEnv exShow ⟨exLoaded, true, 6⟩ "list distance" (.call .allDistances) exLoaded (.names gAllDistanceName) rfl rfl
  have hT := Terminal.snoc (S := exScreen) exEnterLoad_says (by decide) h (by simp)
  exact ⟨_, _, hT, by rw [C114_distance _ _ _ _ _ hT (tokens_words "list distance".toList)]; rfl⟩

/-! ## After an error of `loadGroups` -/

/-- The file has the counts of the dataset, and a name that is not one of a distance. -/
def exBadFile : List (Tok ℚ) := [.int 2, .int 3, .size 2, .size 4, .str "x", .dbl (fin 1)]

def exShowBad : CliEnv ℚ := { exShow with archive := fun p => if p = "b" then some exBadFile else none }

def exBadCall : AnyCall ℚ := .call (.loadGroups "d" (some exBadFile))

def exBadGroups : Api ℚ := (exLoaded.exec exEnv (.loadGroups "d" (some exBadFile))).1

def exEnterBad : Entered ℚ := ⟨exShowBad, "loadGroups d b", Piece.texts exScreen (before exBadCall ++
  [.str "Error! ", .str "Cannot find distance with name: x", .endl] ++ [.endl])⟩

theorem exEnterBad_says : Terminal exEnv exScreen Console.fresh [exEnterLoad, exEnterBad] ⟨exBadGroups, true, 6⟩ := by
  have h := says_fault exEnv exShowBad ⟨exLoaded, true, 6⟩ "loadGroups d b" exBadCall exBadGroups (.genex "Cannot find distance with name: x") _ rfl rfl
    (by
      show exLoaded.exec exEnv _ = _
      rw [← faultOf_some (r := (exLoaded.exec exEnv (.loadGroups "d" (some exBadFile))).2) (by decide +kernel)]
      rfl)
  exact .snoc (h := [exEnterLoad]) exEnterLoad_says (by decide) h (by simp)

def infosOf : Reply ℚ → Option (List (Meta ℚ))
  | .ret (.ok (.infos x)) => some x
  | _ => none

theorem infosOf_some {r : Reply ℚ} {x : List (Meta ℚ)} (h : infosOf r = some x) : r = .ret (.ok (.infos x)) := by
  unfold infosOf at h
  split at h
  · cases h; rfl
  · cases h

def exBadList : Entered ℚ := ⟨exShowBad, "list dataset", Piece.texts exScreen (before (.call .allInfo) ++
  (report true 6 (splitLine "list dataset") (.call .allInfo) (.infos [⟨"d", 2, 3, false, true, "x", fin 1⟩])).1 ++ [.endl])⟩

/-- C114 is false after an error of `loadGroups`: the file names a distance that there is not, this is said, and `list` shows the dataset,
which has no groups, as grouped with that distance. -/
theorem C114_false : ∃ (h : List (Entered ℚ)) (e l : Entered ℚ) (c : Console ℚ), Terminal exEnv exScreen Console.fresh (h ++ [e] ++ [l]) c ∧
    Status "d" h (some (false, none) : Option (Bool × Option (String × Dbl ℚ))) ∧ e.Typed ["loadGroups", "d", "b"] ∧ ¬ e.Fine ∧
    l.Typed ["list", "dataset"] ∧ rowsIn l.text = [("d".toList, "Grouped (x, TS = 1/1)".toList, "Not normalized".toList)] := by
  refine ⟨[exEnterLoad], exEnterBad, exBadList, ⟨exBadGroups, true, 6⟩, ?_,
    .load (h := []) .nil (args := ["load", "d", "g"]) (tokens_words "load d g".toList) (.load0 "d" "g") exTerm_fine.1,
    tokens_words "loadGroups d b".toList, ?_, tokens_words "list dataset".toList, by decide +kernel⟩
  · have h := says_call exEnv exShowBad ⟨exBadGroups, true, 6⟩ "list dataset" (.call .allInfo) exBadGroups
      (.infos [⟨"d", 2, 3, false, true, "x", fin 1⟩]) rfl (by
        show exBadGroups.exec exEnv _ = _
        rw [← infosOf_some (r := (exBadGroups.exec exEnv .allInfo).2) (by decide +kernel)]
        exact Prod.ext (exec_reads exEnv exBadGroups .allInfo trivial) rfl)
    exact .snoc exEnterBad_says (by decide) h (by simp)
  · unfold Entered.Fine HasLine
    decide +kernel

end Genex.Props
