import Verif.Lemmas.CliOutput
import Verif.Props.Cli

/-!
# C110: what the command line program prints
-/

set_option linter.unusedSectionVars false

namespace Genex.Props

open Dbl Api Registry Manual Cli Spec

section

variable {K : Type} [Field K] [LinearOrder K] [HasSqrt K] [Arith K] [BandOps]

/-! ## Answers -/

/-- C110: who reads the lines of `ksim` that begin with "Timeseries " reads the answers of the search, all and in their order; entries that
the search has filled up with are read as the series 0 from 0 to 0 at the distance 0.  The distances have four digits if the timer is on,
else as many as `cout` has. -/
theorem C110_ksim (E : Env K) (P : CliEnv K) (S : Screen K) (hS : Tidy S) (c c' : Console K) (line : String) (hl : '\n' ∉ line.toList)
    (k ke : Int) (t q : String) (i a b : Int) (ps : List (Piece K)) (res : List (Cand K)) (n : ℕ)
    (hp : processLine P line = .run (.ok (.call (.call (.kBest k ke t q i a b)))))
    (hs : Says E P c line c' ps (.reply (.ret (.ok (.entries (res.map .cand ++ List.replicate n .pad)))))) :
    answersIn (Piece.texts S ps) =
      res.map (fun r => (r.view.index, r.view.start, r.view.stop, S.num (if c.timer then 4 else c.digits) r.dist)) ++
        List.replicate n (0, 0, 0, S.num (if c.timer then 4 else c.digits) (fin 0)) := by
  obtain ⟨-, ht, hq⟩ := call_args hp
  have ht' := arg_line hl 2
  have hq' := arg_line hl 3
  rw [← ht] at ht'
  rw [← hq] at hq'
  have h := hs.2
  unfold output at h
  rw [hp] at h
  simp only [Option.some.injEq, Prod.mk.injEq, before, List.nil_append] at h
  rw [← h.1, texts_ksim]
  set d := if c.timer then 4 else c.digits
  have hL : ((res.map GSet.Entry.cand ++ List.replicate n GSet.Entry.pad).map fun e => Piece.texts S (entryLine d e)) =
      ((res.map fun r => answerText S d r.view.index r.view.start r.view.stop r.dist) ++
        List.replicate n (answerText S d 0 0 0 (fin 0))).map (· ++ ['\n']) := by
    rw [List.map_append, List.map_append, List.map_map, List.map_map, List.map_replicate, List.map_replicate]
    simp only [Function.comp_def, entryLine, texts_answer]
  rw [hL]
  unfold answersIn
  rw [filterMap_lines _ _ _ (ksimHead_head hS c.timer k ke ht' hq' i a b) _ readAnswer_nil]
  · rw [List.filterMap_append]
    congr 1
    · rw [List.filterMap_map, ← List.filterMap_eq_map]
      refine List.filterMap_congr fun r _ => ?_
      exact readAnswer_answerText ..
    · clear hs h hL
      induction n with
      | zero => rfl
      | succ n ih => rw [List.replicate_succ, List.filterMap_cons_some (readAnswer_answerText ..), ih, List.replicate_succ]
  · intro l hl
    rw [List.mem_append] at hl
    rcases hl with hl | hl
    · obtain ⟨r, -, rfl⟩ := List.mem_map.1 hl
      exact answerText_line hS _ _ _ _ _
    · rw [List.eq_of_mem_replicate hl]
      exact answerText_line hS _ _ _ _ _

/-- C110: the same for the search by brute force. -/
theorem C110_ksimBF (E : Env K) (P : CliEnv K) (S : Screen K) (hS : Tidy S) (c c' : Console K) (line : String) (hl : '\n' ∉ line.toList)
    (k : Int) (t q : String) (i a b : Int) (dist : String) (ps : List (Piece K)) (res : List (Cand K))
    (hp : processLine P line = .run (.ok (.call (.call (.bruteForce k t q i a b dist)))))
    (hs : Says E P c line c' ps (.reply (.ret (.ok (.cands res))))) :
    answersIn (Piece.texts S ps) =
      res.map (fun r => (r.view.index, r.view.start, r.view.stop, S.num (if c.timer then 4 else c.digits) r.dist)) := by
  obtain ⟨-, ht, hq⟩ := call_args hp
  have ht' := arg_line hl 2
  have hq' := arg_line hl 3
  rw [← ht] at ht'
  rw [← hq] at hq'
  have h := hs.2
  unfold output at h
  rw [hp] at h
  simp only [Option.some.injEq, Prod.mk.injEq, before, List.nil_append] at h
  rw [← h.1, texts_bf]
  set d := if c.timer then 4 else c.digits
  have hL : (res.map fun r => Piece.texts S (answer d r.view.index r.view.start r.view.stop r.dist)) =
      (res.map fun r => answerText S d r.view.index r.view.start r.view.stop r.dist).map (· ++ ['\n']) := by
    rw [List.map_map]
    simp only [Function.comp_def, texts_answer]
  rw [hL]
  unfold answersIn
  rw [filterMap_lines _ _ _ (bfHead_head hS c.timer k ht' hq' i a b) _ readAnswer_nil]
  · rw [List.filterMap_map, ← List.filterMap_eq_map]
    refine List.filterMap_congr fun r _ => ?_
    exact readAnswer_answerText ..
  · intro l hl
    obtain ⟨r, -, rfl⟩ := List.mem_map.1 hl
    exact answerText_line hS _ _ _ _ _

/-- C110: `sim` names one series, and the distance on the line after it. -/
theorem C110_sim (E : Env K) (P : CliEnv K) (S : Screen K) (hS : Tidy S) (c c' : Console K) (line : String) (hl : '\n' ∉ line.toList)
    (t q : String) (i a b : Int) (ps : List (Piece K)) (r : Cand K)
    (hp : processLine P line = .run (.ok (.call (.call (.bestMatch t q i a b)))))
    (hs : Says E P c line c' ps (.reply (.ret (.ok (.cand r))))) :
    bestIn (Piece.texts S ps) = [(r.view.index, r.view.start, r.view.stop)] ∧
    afterWords "Distance = " (Piece.texts S ps) = [S.num (if c.timer then 4 else c.digits) r.dist] := by
  obtain ⟨-, ht, hq⟩ := call_args hp
  have ht' := arg_line hl 1
  have hq' := arg_line hl 2
  rw [← ht] at ht'
  rw [← hq] at hq'
  have h := hs.2
  unfold output at h
  rw [hp] at h
  simp only [Option.some.injEq, Prod.mk.injEq, before, List.nil_append] at h
  rw [← h.1, texts_sim]
  obtain ⟨h1, h2⟩ := simHead_head hS c.timer ht' hq' i a b
  unfold bestIn afterWords
  constructor
  · rw [filterMap_lines _ _ _ h1 _ rfl]
    · rw [bestLines, List.filterMap_cons_some (b := (r.view.index, r.view.start, r.view.stop)), List.filterMap_cons_none, List.filterMap_nil]
      · rw [following_not 1 (by decide) (by decide) (by decide)]
        rfl
      · rw [following_app, Option.bind_some, ← List.append_nil "] ".toList, readPlace_app]
        rfl
    · exact bestLines_line hS _ _ _ _ _
  · rw [filterMap_lines _ _ _ h2 _ rfl]
    · rw [bestLines, List.filterMap_cons_none, List.filterMap_cons_some (following_app _ _), List.filterMap_nil]
      exact following_not 1 (by decide) (by decide) (by decide)
    · exact bestLines_line hS _ _ _ _ _

/-- C110: `distance` shows the distance with as many digits as `cout` has. -/
theorem C110_distance (E : Env K) (P : CliEnv K) (S : Screen K) (c c' : Console K) (line : String)
    (n1 n2 dist : String) (i1 s1 e1 i2 s2 e2 : Int) (ps : List (Piece K)) (x : Dbl K) (hS : Tidy S)
    (hp : processLine P line = .run (.ok (.call (.call (.distance n1 i1 s1 e1 n2 i2 s2 e2 dist)))))
    (hs : Says E P c line c' ps (.reply (.ret (.ok (.dist x))))) :
    S.num c.digits x ∈ afterWords "is " (Piece.texts S ps) := by
  have h := hs.2
  unfold output at h
  rw [hp] at h
  simp only [Option.some.injEq, Prod.mk.injEq, before, List.nil_append] at h
  rw [← h.1]
  obtain ⟨A, hA⟩ := texts_distance S c.timer c.digits (splitLine line) n1 n2 dist i1 s1 e1 i2 s2 e2 x
  rw [hA, List.append_assoc, List.singleton_append]
  unfold afterWords
  rw [textLines_cut, List.filterMap_append, List.mem_append]
  right
  have : '\n' ∉ "is ".toList ++ S.num c.digits x := by
    rw [List.mem_append, not_or]
    exact ⟨by decide, hS.num _ _⟩
  rw [show ("is ".toList ++ (S.num c.digits x ++ ['\n', '\n'])) = ("is ".toList ++ S.num c.digits x) ++ '\n' :: ['\n'] by simp,
    textLines_app this, List.filterMap_cons_some (following_app _ _)]
  exact List.mem_cons_self

/-- What stands after some words on a line of its own. -/
theorem afterWords_mem (w : String) (v A B : Text) (hw : '\n' ∉ w.toList) (hv : '\n' ∉ v) :
    v ∈ afterWords w (A ++ '\n' :: (w.toList ++ (v ++ '\n' :: B))) := by
  unfold afterWords
  rw [textLines_cut, List.filterMap_append, List.mem_append]
  right
  have : '\n' ∉ w.toList ++ v := by
    rw [List.mem_append, not_or]
    exact ⟨hw, hv⟩
  rw [← List.append_assoc, textLines_app this, List.filterMap_cons_some (following_app _ _)]
  exact List.mem_cons_self

/-- C110: `load` shows the name, the number of series and the greatest length. -/
theorem C110_load (E : Env K) (P : CliEnv K) (S : Screen K) (c c' : Console K) (line name : String) (text : Option Text) (path sep : Text)
    (r k : Int) (hd : Bool) (ps : List (Piece K)) (m : Meta K) (hm : '\n' ∉ m.name.toList)
    (hp : processLine P line = .run (.ok (.call (.call (.load name text path sep r k hd)))))
    (hs : Says E P c line c' ps (.reply (.ret (.ok (.info m))))) :
    m.name.toList ∈ afterWords "  Name:        " (Piece.texts S ps) ∧
    (∃ t ∈ afterWords "  Item count:  " (Piece.texts S ps), readInt t = some (m.itemCount, [])) ∧
    ∃ t ∈ afterWords "  Item length: " (Piece.texts S ps), readInt t = some (m.itemLength, []) := by
  have h := hs.2
  unfold output at h
  rw [hp] at h
  simp only [Option.some.injEq, Prod.mk.injEq, before, List.nil_append] at h
  have ri : ∀ z : Int, readInt (intText z) = some (z, []) := by
    intro z
    have := readInt_app z (t := []) (by intro c hc; cases hc)
    rwa [List.append_nil] at this
  have e : Piece.texts S ps = "Dataset loaded                         ".toList ++ '\n' :: ("  Name:        ".toList ++ (m.name.toList ++ '\n' ::
      ("  Item count:  ".toList ++ (intText m.itemCount ++ '\n' :: ("  Item length: ".toList ++ (intText m.itemLength ++ '\n' :: ['\n'])))))) := by
    rw [← h.1]
    unfold report
    generalize "Dataset loaded                         " = t1, "  Name:        " = t2, "  Item count:  " = t3, "  Item length: " = t4
    simp only [Piece.texts, Piece.text, List.append_assoc, List.cons_append, List.nil_append]
  have c3 : '\n' ∉ "  Item count:  ".toList := by decide
  have c4 : '\n' ∉ "  Item length: ".toList := by decide
  refine ⟨?_, ⟨_, ?_, ri _⟩, ⟨_, ?_, ri _⟩⟩
  · rw [e]
    exact afterWords_mem _ _ _ _ (by decide) hm
  · rw [e]
    have := afterWords_mem "  Item count:  " (intText m.itemCount) ("Dataset loaded                         ".toList ++ '\n' ::
      ("  Name:        ".toList ++ m.name.toList)) ("  Item length: ".toList ++ (intText m.itemLength ++ '\n' :: ['\n'])) c3 (intText_noNewline _)
    rw [List.append_assoc, List.cons_append, List.append_assoc] at this
    exact this
  · rw [e]
    have := afterWords_mem "  Item length: " (intText m.itemLength) ("Dataset loaded                         ".toList ++ '\n' ::
      ("  Name:        ".toList ++ (m.name.toList ++ '\n' :: ("  Item count:  ".toList ++ intText m.itemCount)))) ['\n'] c4 (intText_noNewline _)
    simp only [List.append_assoc, List.cons_append] at this
    exact this

/-- C110: `group` shows the number of groups. -/
theorem C110_group (E : Env K) (P : CliEnv K) (S : Screen K) (c c' : Console K) (line name dist : String) (x : Dbl K) (n : Int) (w : Bool)
    (ps : List (Piece K)) (z : Int) (hp : processLine P line = .run (.ok (.call (.group name x dist n w))))
    (hs : Says E P c line c' ps (.reply (.ret (.ok (.int z))))) :
    ∃ t ∈ afterWords "Number of Groups: " (Piece.texts S ps), readInt t = some (z, []) := by
  have h := hs.2
  unfold output at h
  rw [hp] at h
  simp only [Option.some.injEq, Prod.mk.injEq] at h
  obtain ⟨A, hA⟩ : ∃ A, Piece.texts S ps = A ++ '\n' :: ("Number of Groups: ".toList ++ (intText z ++ '\n' :: ['\n'])) := by
    rw [← h.1]
    unfold report
    generalize "Number of Groups: " = t1, "Dataset " = t2, " is now grouped" = t3
    simp only [texts_app, Piece.texts, Piece.text, List.append_assoc, List.cons_append, List.nil_append]
    refine ⟨Piece.texts S (before (.group name x dist n w)) ++ (Piece.texts S (timed c.timer c.digits).1 ++ (t2.toList ++ (name.toList ++ t3.toList))), ?_⟩
    simp only [List.append_assoc]
  have ri := readInt_app z (t := []) (by intro c hc; cases hc)
  rw [List.append_nil] at ri
  rw [hA]
  exact ⟨_, afterWords_mem _ _ _ _ (by decide) (intText_noNewline _), ri⟩

/-! ## Series -/

/-- C110: what `print` shows is the text of a file with the one series, which can be loaded again: if the numbers read back as `rd`, the
points do. -/
theorem C110_print (E : Env K) (P : CliEnv K) (S : Screen K) (c c' : Console K) (line name : String) (i a b : Int) (pts : List (Dbl K))
    (ps : List (Piece K)) (hp : processLine P line = .run (.ok (.call (.call (.series name i a b)))))
    (hs : Says E P c line c' ps (.reply (.ret (.ok (.series pts))))) (parse : Text → Parsed K) (rd : Dbl K → Dbl K) (path : Text)
    (hnum : ∀ x, S.num 16 x ≠ [] ∧ ' ' ∉ S.num 16 x ∧ '\n' ∉ S.num 16 x) (hparse : ∀ x, parse (S.num 16 x) = .val (rd x)) :
    ∃ ds', Dataset.loadData parse (some (Piece.texts S ps)) path 0 0 [' '] false (Dataset.fresh : Dataset K) = (ds', .ok ()) ∧
      Holds ds' [pts.map rd] ∧ ds'.names = [] := by
  have h := hs.2
  unfold output at h
  rw [hp] at h
  simp only [Option.some.injEq, Prod.mk.injEq, before, List.nil_append] at h
  have ht : Piece.texts S ps = (pts.map fun x => S.num 16 x ++ [' ']).flatten ++ ['\n'] := by
    rw [← h.1, texts_app]
    unfold report pointPieces
    rw [texts_flat]
    rfl
  obtain ⟨text, ds', h1, h2, -, -, h3, h4, -⟩ := C21_save_load (S.num 16) parse rd ' ' path (by decide) hnum hparse (oneSeries pts) [pts]
    (oneSeries_holds pts) (.inl rfl) (by intro n hn; cases hn)
  rw [oneSeries_save, Except.ok.injEq] at h1
  rw [ht, h1]
  exact ⟨ds', h2, h4, h3⟩

/-! ## Digits -/

/-- C110: what a line does to the digits of `cout`: a search or a grouping with the timer on leaves four, `print` sixteen, and everything
else what there was. -/
theorem C110_digits (E : Env K) (P : CliEnv K) (c c' : Console K) (line : String) (ps : List (Piece K)) (o : Outcome K)
    (hs : Says E P c line c' ps o) :
    c'.digits = c.digits ∨
    (c.timer = true ∧ c'.digits = 4 ∧ (Starts line "group" ∨ Starts line "sim" ∨ Starts line "ksim" ∨ Starts line "ksimBF")) ∨
    (c'.digits = 16 ∧ Starts line "print") := (says_state hs).1

/-- C110: only `timer` turns the timer on or off. -/
theorem C110_timer (E : Env K) (P : CliEnv K) (c c' : Console K) (line : String) (ps : List (Piece K)) (o : Outcome K)
    (hs : Says E P c line c' ps o) (ht : ¬ Starts line "timer") : c'.timer = c.timer := (says_state hs).2.resolve_right ht

/-- C110: `timer on` and `timer off` do what they say, `timer` leaves it, and each says how it is then. -/
theorem C110_timer_line (E : Env K) (P : CliEnv K) (S : Screen K) (c c' : Console K) (line : String) (args : List String)
    (ps : List (Piece K)) (o : Outcome K)
    (ha : args = [] ∨ args = ["on"] ∨ args = ["off"]) (hw : Manual.Words line.toList (("timer" :: args).map String.toList))
    (hs : Says E P c line c' ps o) :
    c'.api = c.api ∧ c'.digits = c.digits ∧ c'.timer = (if args = ["on"] then true else if args = ["off"] then false else c.timer) ∧
    (c'.timer = true → HasLine "Timer is ON" (Piece.texts S ps)) ∧ (c'.timer = false → HasLine "Timer is OFF" (Piece.texts S ps)) := by
  have hsp : splitLine line = "timer" :: args := process_words (P := P) hw rfl
  have hrun : processLine P line = .run (.ok .nothing) := by
    rw [process_run (P := P) hsp (f := timer) rfl]
    rcases ha with rfl | rfl | rfl <;> rfl
  obtain ⟨h1, h2⟩ := hs
  unfold Turn at h1
  rw [hrun] at h1
  unfold output at h2
  rw [hrun, hsp] at h2
  simp only [Option.some.injEq, Prod.mk.injEq] at h2
  obtain ⟨hps, ht, hd⟩ := h2
  refine ⟨h1.1, hd.symm, ?_, ?_, ?_⟩
  · rw [← ht]
    rcases ha with rfl | rfl | rfl <;> rfl
  · intro hc
    rw [← hps, ht, hc]
    have e : Piece.texts S [.str "Timer is ", .str "ON", .endl, .endl] = "Timer is ON".toList ++ ['\n', '\n'] := by rfl
    exact e ▸ hasLine_start (by decide) ['\n', '\n']
  · intro hc
    rw [← hps, ht, hc]
    have e : Piece.texts S [.str "Timer is ", .str "OFF", .endl, .endl] = "Timer is OFF".toList ++ ['\n', '\n'] := by rfl
    exact e ▸ hasLine_start (by decide) ['\n', '\n']

/-- C110: in any session distances are shown with four, six or sixteen digits. -/
theorem C110_range (E : Env K) (h : List (CliEnv K × String × Outcome K)) (c : Console K) (hs : Screened E Console.fresh h c) :
    c.digits = 4 ∨ c.digits = 6 ∨ c.digits = 16 := by
  induction hs with
  | nil => exact .inr (.inl rfl)
  | snoc _ hsay _ ih =>
    rcases C110_digits _ _ _ _ _ _ _ hsay with h | ⟨-, h, -⟩ | ⟨h, -⟩
    · rw [h]; exact ih
    · exact .inl h
    · exact .inr (.inr h)

/-- C110, part: with the timer off and without `print`, the digits stay as they are.  Missing: everything else (`C110_false`). -/
theorem C110_steady_partial (E : Env K) (h : List (CliEnv K × String × Outcome K)) (c d : Console K) (hs : Screened E c h d)
    (hc : c.timer = false) (hp : ∀ e ∈ h, ¬ Starts e.2.1 "print" ∧ ¬ Starts e.2.1 "timer") : d.digits = c.digits ∧ d.timer = false := by
  induction hs with
  | nil => exact ⟨rfl, hc⟩
  | snoc _ hsay _ ih =>
    obtain ⟨h1, h2⟩ := ih (fun e he => hp e (by simp [he]))
    obtain ⟨n1, n2⟩ := hp _ (List.mem_append_right _ (List.mem_singleton.2 rfl))
    have ht := C110_timer _ _ _ _ _ _ _ hsay n2
    refine ⟨?_, by rw [ht, h2]⟩
    rcases C110_digits _ _ _ _ _ _ _ hsay with h | ⟨h, -⟩ | ⟨-, h⟩
    · rw [h, h1]
    · rw [h2] at h; cases h
    · exact absurd h n1

/-! ## Errors -/

/-- C110: a conversion that fails and an exception of a call are shown on a line that begins with "Error! ". -/
theorem C110_error (E : Env K) (P : CliEnv K) (S : Screen K) (hS : S.progress = [] ∨ S.progress.getLast? = some '\n') (c c' : Console K)
    (line : String) (ps : List (Piece K)) (e : Fault) (o : Outcome K) (ho : o = .caught e ∨ o = .reply (.ret (.error e)))
    (hs : Says E P c line c' ps o) : HasLine "Error! " (Piece.texts S ps) := says_error hS ho hs

/-- C110, part: so is a number of arguments that is not allowed, an unknown command, and what `list` and `timer` do not know.  Missing:
`sim` with one position (`C110_sim_false`). -/
theorem C110_refused_partial (E : Env K) (P : CliEnv K) (S : Screen K) (c c' : Console K) (line : String) (ps : List (Piece K))
    (o : Outcome K) (hp : processLine P line = .run (.ok .usage) ∨ processLine P line = .unknown)
    (hsim : ¬ ∃ t q i x, Words line.toList (["sim", t, q, i, x].map String.toList)) (hs : Says E P c line c' ps o) :
    HasLine "Error! " (Piece.texts S ps) := says_refused hp hsim hs

/-! ## The end of the input -/

/-- C110: at the end of the input the program asks until it is told "y", "n", nothing or the end again; it stays for "n" only. -/
theorem C110_asked (junk : List String) (hj : ∀ l ∈ junk, l ≠ "y" ∧ l ≠ "" ∧ l ≠ "n") (rest : List (Option String)) :
    asked (junk.map some ++ some "n" :: rest) = (false, rest) ∧ asked (junk.map some ++ some "y" :: rest) = (true, rest) ∧
    asked (junk.map some ++ some "" :: rest) = (true, rest) ∧ asked (junk.map some ++ none :: rest) = (true, rest) ∧
    asked (junk.map some) = (true, []) := by
  induction junk with
  | nil => exact ⟨rfl, rfl, rfl, rfl, rfl⟩
  | cons l ls ih =>
    obtain ⟨h1, h2, h3⟩ := hj l (by simp)
    have e : ∀ r, asked ((l :: ls).map some ++ r) = asked (ls.map some ++ r) := by
      intro r
      rw [List.map_cons, List.cons_append, asked, if_neg (by simp [h1, h2]), if_neg h3]
    obtain ⟨i1, i2, i3, i4, i5⟩ := ih (fun x hx => hj x (by simp [hx]))
    refine ⟨by rw [e, i1], by rw [e, i2], by rw [e, i3], by rw [e, i4], ?_⟩
    have := e []
    rw [List.append_nil, List.append_nil] at this
    rw [this, i5]

/-- C110: whatever is typed, the program comes to its end, as long as every line typed comes to an end (`I` is what is known of the
state). -/
theorem C110_ends (E : Env K) (P : ℕ → CliEnv K) (I : Console K → Prop) (ls : List (Option String))
    (hI : ∀ c, I c → ∀ n l, some l ∈ ls → ∃ c' ps o, Says E (P n) c l c' ps o ∧ I c') (n : ℕ) (c : Console K) (hc : I c) :
    ∃ d qs, Main E P n c ls d qs := by
  obtain ⟨m, hm⟩ : ∃ m, ls.length ≤ m := ⟨_, le_refl _⟩
  induction m generalizing ls n c with
  | zero =>
    have : ls = [] := List.length_eq_zero_iff.1 (by omega)
    subst this
    exact ⟨_, _, .eof⟩
  | succ m ih =>
    match ls, hI, hm with
    | [], _, _ => exact ⟨_, _, .eof⟩
    | some l :: ls, hI, hm =>
      obtain ⟨c', ps, o, hs, hc'⟩ := hI c hc n l List.mem_cons_self
      by_cases ho : o = .ended
      · subst ho
        exact ⟨_, _, .quit hs⟩
      · obtain ⟨d, qs, h⟩ := ih ls (fun c hc n x hx => hI c hc n x (List.mem_cons_of_mem _ hx)) (n + 1) c' hc'
          (by simpa using hm)
        exact ⟨_, _, .typed hs ho h⟩
    | none :: ls, hI, hm =>
      cases ha : (asked ls).1 with
      | true => exact ⟨_, _, .leave ha⟩
      | false =>
        have hlen := asked_length ls
        obtain ⟨d, qs, h⟩ := ih (asked ls).2 (fun c hc n x hx => hI c hc n x (List.mem_cons_of_mem _ (asked_mem hx))) (n + 1) c hc
          (by simp only [List.length_cons] at hm; omega)
        exact ⟨_, _, .stay ha h⟩

end

/-! ## The numbers -/

section
variable [HasSqrt ℚ] [Arith ℚ] [BandOps]

/-- C110: if the answers are in the order of their distances, the distances read from the lines are; each is within half a unit of the last
digit, relative to the first. -/
theorem C110_sorted (E : Env ℚ) (P : CliEnv ℚ) (S : Screen ℚ) (hS : Tidy S) (value : Text → Option ℚ) (hv : Legible S value) (c c' : Console ℚ)
    (hd : 1 ≤ c.digits) (line : String) (hl : '\n' ∉ line.toList) (k ke : Int) (t q : String) (i a b : Int) (ps : List (Piece ℚ))
    (res : List (View × ℚ)) (hres : res.Pairwise fun r r' => r.2 ≤ r'.2)
    (hp : processLine P line = .run (.ok (.call (.call (.kBest k ke t q i a b)))))
    (hs : Says E P c line c' ps (.reply (.ret (.ok (.entries (res.map fun r => .cand ⟨r.1, fin r.2⟩)))))) :
    ∃ vs : List ℚ, (answersIn (Piece.texts S ps)).map (fun r => value r.2.2.2) = vs.map some ∧ vs.Pairwise (· ≤ ·) ∧
      List.Forall₂ (fun v r => |v - r.2| ≤ 1 / 2 * 10 ^ (1 - ((if c.timer then 4 else c.digits : ℕ) : ℤ)) * |r.2|) vs res := by
  have h := C110_ksim E P S hS c c' line hl k ke t q i a b ps (res.map fun r => ⟨r.1, fin r.2⟩) 0 hp (by
    rw [List.map_map, List.replicate_zero, List.append_nil]
    exact hs)
  rw [List.replicate_zero, List.append_nil] at h
  set d : ℕ := if c.timer then 4 else c.digits with hdd
  have h1 : 1 ≤ d := by rw [hdd]; split <;> omega
  refine ⟨res.map fun r => decimal d r.2, ?_, ?_, ?_⟩
  · rw [h, List.map_map, List.map_map, List.map_map]
    refine List.map_congr_left fun r _ => ?_
    exact hv _ _
  · rw [List.pairwise_map]
    exact hres.imp fun h => decimal_mono h1 h
  · rw [List.forall₂_map_left_iff, List.forall₂_same]
    intro r _
    exact decimal_err r.2

end

/-! ## Sessions -/

/-- The files and conversions of the sessions below. -/
def exShow : CliEnv ℚ := ⟨exStoi, fun s => (exStoi s).map fun n => fin n, fun p => if p = "g" then some "1 1 1\n1 1 2".toList else none,
  fun _ => none, fun _ => none, fun _ => true, 1⟩

/-- A screen on which every number can be read: it shows fractions. -/
def exScreen : Screen ℚ :=
  ⟨fun d x => match x with | .fin y => intText (decimal d y).num ++ '/' :: Nat.toDigits 10 (decimal d y).den | _ => ['n'], ['0'], [],
    fun _ => [], fun _ => []⟩

def exValue (t : Text) : Option ℚ := (readInt t).bind fun p => (readNat (p.2.drop 1)).map fun r => (p.1 : ℚ) / r.1

theorem exScreen_chars (d : ℕ) (x : Dbl ℚ) : exScreen.num d x ≠ [] ∧ ' ' ∉ exScreen.num d x ∧ '\n' ∉ exScreen.num d x := by
  have hd : ∀ (c : Char) (n : ℕ), c.isDigit = false → c ∉ Nat.toDigits 10 n := by
    intro c n hc h
    rw [Nat.isDigit_of_mem_toDigits (by norm_num) (by norm_num) h] at hc
    cases hc
  have hi : ∀ (c : Char) (z : Int), c.isDigit = false → c ≠ '-' → c ∉ intText z := by
    intro c z hc hm h
    cases z with
    | ofNat n =>
      have h' : c ∈ intText (n : Int) := h
      rw [intText_nat] at h'
      exact hd c n hc h'
    | negSucc n =>
      rw [intText_neg, List.mem_cons] at h
      exact h.elim hm (hd c _ hc)
  cases x with
  | fin y =>
    have key : ∀ c : Char, c.isDigit = false → c ≠ '-' → c ≠ '/' → c ∉ exScreen.num d (fin y) := by
      intro c h1 h2 h3 h
      simp only [exScreen, List.mem_append, List.mem_cons] at h
      rcases h with h | h | h
      · exact hi c _ h1 h2 h
      · exact h3 h
      · exact hd c _ h1 h
    refine ⟨?_, key ' ' (by decide) (by decide) (by decide), key '\n' (by decide) (by decide) (by decide)⟩
    simp [exScreen]
  | inf => exact ⟨List.cons_ne_nil _ _, by simp [exScreen], by simp [exScreen]⟩
  | ninf => exact ⟨List.cons_ne_nil _ _, by simp [exScreen], by simp [exScreen]⟩
  | nan => exact ⟨List.cons_ne_nil _ _, by simp [exScreen], by simp [exScreen]⟩

theorem exScreen_tidy : Tidy exScreen := ⟨fun d x => (exScreen_chars d x).2.2, by decide⟩

theorem exScreen_reads : Legible exScreen exValue := by
  intro d x
  have h : exScreen.num d (fin x) = intText (decimal d x).num ++ '/' :: Nat.toDigits 10 (decimal d x).den := rfl
  rw [h, exValue, readInt_app _ (by intro c hc; cases hc; decide), Option.bind_some]
  have h2 := readNat_app (decimal d x).den (t := []) (by intro c hc; cases hc)
  rw [List.append_nil] at h2
  simp only [List.drop_succ_cons, List.drop_zero, h2, Option.map_some]
  rw [Rat.num_div_den]

section
variable {K : Type} [Field K] [LinearOrder K] [HasSqrt K] [Arith K] [BandOps]

/-- A line whose call returns. -/
theorem says_call (E : Env K) (P : CliEnv K) (c : Console K) (line : String) (a : AnyCall K) (s' : Api K) (out : Out K)
    (hp : processLine P line = .run (.ok (.call a))) (h : Step E c.api a s' (.ret (.ok out))) :
    Says E P c line ⟨s', c.timer, (report c.timer c.digits (splitLine line) a out).2⟩
      (before a ++ (report c.timer c.digits (splitLine line) a out).1 ++ [.endl]) (.reply (.ret (.ok out))) := by
  constructor
  · unfold Turn
    rw [hp]
    exact ⟨_, h, rfl⟩
  · unfold output
    rw [hp]

/-- A line whose call throws. -/
theorem says_fault (E : Env K) (P : CliEnv K) (c : Console K) (line : String) (a : AnyCall K) (s' : Api K) (e : Fault) (m : List (Piece K))
    (hp : processLine P line = .run (.ok (.call a))) (hm : message e = some m) (h : Step E c.api a s' (.ret (.error e))) :
    Says E P c line ⟨s', c.timer, c.digits⟩ (before a ++ m ++ [.endl]) (.reply (.ret (.error e))) := by
  constructor
  · unfold Turn
    rw [hp]
    exact ⟨_, h, rfl⟩
  · unfold output
    rw [hp]
    simp only [hm, Option.bind_some]

end

def distOf : Reply ℚ → Option (Dbl ℚ)
  | .ret (.ok (.dist x)) => some x
  | _ => none

theorem distOf_some {r : Reply ℚ} {x : Dbl ℚ} (h : distOf r = some x) : r = .ret (.ok (.dist x)) := by
  unfold distOf at h
  split at h
  · cases h; rfl
  · cases h

def candsOf : Reply ℚ → Option (List (Cand ℚ))
  | .ret (.ok (.cands x)) => some x
  | _ => none

theorem candsOf_some {r : Reply ℚ} {x : List (Cand ℚ)} (h : candsOf r = some x) : r = .ret (.ok (.cands x)) := by
  unfold candsOf at h
  split at h
  · cases h; rfl
  · cases h

def entriesOf : Reply ℚ → Option (List (GSet.Entry ℚ))
  | .ret (.ok (.entries x)) => some x
  | _ => none

theorem entriesOf_some {r : Reply ℚ} {x : List (GSet.Entry ℚ)} (h : entriesOf r = some x) : r = .ret (.ok (.entries x)) := by
  unfold entriesOf at h
  split at h
  · cases h; rfl
  · cases h

def pointsOf : Reply ℚ → Option (List (Dbl ℚ))
  | .ret (.ok (.series x)) => some x
  | _ => none

theorem pointsOf_some {r : Reply ℚ} {x : List (Dbl ℚ)} (h : pointsOf r = some x) : r = .ret (.ok (.series x)) := by
  unfold pointsOf at h
  split at h
  · cases h; rfl
  · cases h

/-- Two series are loaded. -/
def exLoaded : Api ℚ := ((fresh : Api ℚ).exec exEnv (.load "d" (some "1 1 1\n1 1 2".toList) ['g'] [' '] 0 0 false)).1

theorem exLoaded_says : ∃ o ps, Says exEnv exShow Console.fresh "load d g" ⟨exLoaded, true, 6⟩ ps o ∧ o ≠ .ended := by
  obtain ⟨out, ho⟩ := kind_ok (r := ((fresh : Api ℚ).exec exEnv (.load "d" (some "1 1 1\n1 1 2".toList) ['g'] [' '] 0 0 false)).2)
    (by decide +kernel)
  · have h := says_call exEnv exShow Console.fresh "load d g" (.call (.load "d" (some "1 1 1\n1 1 2".toList) ['g'] [' '] 0 0 false))
      exLoaded out rfl (by rw [← ho]; rfl)
    have hd : (report (K := ℚ) true 6 (splitLine "load d g") (.call (.load "d" (some "1 1 1\n1 1 2".toList) ['g'] [' '] 0 0 false)) out).2 = 6 := by
      cases out <;> rfl
    have e : (report (K := ℚ) (Console.fresh : Console ℚ).timer (Console.fresh : Console ℚ).digits (splitLine "load d g")
      (.call (.load "d" (some "1 1 1\n1 1 2".toList) ['g'] [' '] 0 0 false)) out).2 = 6 := hd
    rw [e] at h
    exact ⟨_, _, h, by simp⟩

/-- The line that is typed three times. -/
def exLine : String := "distance d 0 0 3 d 1 0 3 manhattan"

theorem exLine_says (digits : ℕ) : ∃ ps, Says exEnv exShow ⟨exLoaded, true, digits⟩ exLine ⟨exLoaded, true, digits⟩ ps
    (.reply (.ret (.ok (.dist (fin (1 / 3)))))) :=
  ⟨_, says_call exEnv exShow ⟨exLoaded, true, digits⟩ exLine (.call (.distance "d" 0 0 3 "d" 1 0 3 "manhattan")) exLoaded
    (.dist (fin (1 / 3))) rfl (by
      show exLoaded.exec exEnv _ = _
      rw [← distOf_some (r := (exLoaded.exec exEnv (.distance "d" 0 0 3 "d" 1 0 3 "manhattan")).2) (by decide +kernel)]
      rfl)⟩

theorem exSearch_says : ∃ ps o, Says exEnv exShow ⟨exLoaded, true, 6⟩ "ksimBF 1 d d 0" ⟨exLoaded, true, 4⟩ ps o ∧ o ≠ .ended :=
  ⟨_, _, says_call exEnv exShow ⟨exLoaded, true, 6⟩ "ksimBF 1 d d 0" (.call (.bruteForce 1 "d" "d" 0 (-1) (-1) "euclidean")) exLoaded
    (.cands [⟨⟨0, 0, 0, 3⟩, fin 0⟩]) rfl (by
      show exLoaded.exec exEnv _ = _
      rw [← candsOf_some (r := (exLoaded.exec exEnv (.bruteForce 1 "d" "d" 0 (-1) (-1) "euclidean")).2) (by decide +kernel)]
      rfl), by simp⟩

theorem exPrint_says : ∃ ps, Says exEnv exShow ⟨exLoaded, true, 4⟩ "print d 1 0 3" ⟨exLoaded, true, 16⟩ ps
    (.reply (.ret (.ok (.series [fin 1, fin 1, fin 2])))) :=
  ⟨_, says_call exEnv exShow ⟨exLoaded, true, 4⟩ "print d 1 0 3" (.call (.series "d" 1 0 3)) exLoaded
    (.series [fin 1, fin 1, fin 2]) rfl (by
      show exLoaded.exec exEnv _ = _
      rw [← pointsOf_some (r := (exLoaded.exec exEnv (.series "d" 1 0 3)).2) (by decide +kernel)]
      rfl)⟩

/-- C110 is false for the digits: the same line, with the same answer for the same data, shows 0.333333 at first, 0.3333 after a search, and
0.3333333333333333 after `print`. -/
theorem C110_false : ∃ (h : List (CliEnv ℚ × String × Outcome ℚ)) (e e' : CliEnv ℚ × String × Outcome ℚ) (s : Api ℚ) (line : String)
    (o : Outcome ℚ) (p₁ p₂ p₃ : List (Piece ℚ)),
    Screened exEnv Console.fresh h ⟨s, true, 6⟩ ∧ Screened exEnv Console.fresh (h ++ [e]) ⟨s, true, 4⟩ ∧
    Screened exEnv Console.fresh (h ++ [e] ++ [e']) ⟨s, true, 16⟩ ∧
    Says exEnv exShow ⟨s, true, 6⟩ line ⟨s, true, 6⟩ p₁ o ∧ Says exEnv exShow ⟨s, true, 4⟩ line ⟨s, true, 4⟩ p₂ o ∧
    Says exEnv exShow ⟨s, true, 16⟩ line ⟨s, true, 16⟩ p₃ o ∧
    ∀ (S : Screen ℚ) (value : Text → Option ℚ), Tidy S → Legible S value →
      (∃ t ∈ afterWords "is " (Piece.texts S p₁), value t = some (333333 / 10 ^ 6)) ∧
      (∃ t ∈ afterWords "is " (Piece.texts S p₂), value t = some (3333 / 10 ^ 4)) ∧
      ∃ t ∈ afterWords "is " (Piece.texts S p₃), value t = some (3333333333333333 / 10 ^ 16) := by
  obtain ⟨o1, ps1, h1, n1⟩ := exLoaded_says
  obtain ⟨ps2, o2, h2, n2⟩ := exSearch_says
  obtain ⟨ps3, h3⟩ := exPrint_says
  obtain ⟨p1, k1⟩ := exLine_says 6
  obtain ⟨p2, k2⟩ := exLine_says 4
  obtain ⟨p3, k3⟩ := exLine_says 16
  have s1 : Screened exEnv Console.fresh ([] ++ [(exShow, "load d g", o1)]) ⟨exLoaded, true, 6⟩ := .snoc (.nil _) h1 n1
  have s2 := Screened.snoc s1 h2 n2
  refine ⟨_, _, _, _, exLine, _, p1, p2, p3, s1, s2, .snoc s2 h3 (by simp), k1, k2, k3, ?_⟩
  intro S value hS hv
  refine ⟨⟨_, C110_distance exEnv exShow S _ _ exLine "d" "d" "manhattan" 0 0 3 1 0 3 p1 _ hS rfl k1, ?_⟩,
    ⟨_, C110_distance exEnv exShow S _ _ exLine "d" "d" "manhattan" 0 0 3 1 0 3 p2 _ hS rfl k2, ?_⟩,
    ⟨_, C110_distance exEnv exShow S _ _ exLine "d" "d" "manhattan" 0 0 3 1 0 3 p3 _ hS rfl k3, ?_⟩⟩
  all_goals rw [hv]
  all_goals exact congrArg some (by decide +kernel)

/-- The dataset is grouped. -/
def exShowGrouped : Api ℚ × Reply ℚ :=
  match exLoaded.deref 0 with
  | none => (exLoaded, .dangling)
  | some g =>
    let out := g.groupAllLengths (GSpace.group g.ds exLoaded.ratio (fun _ => false) "euclidean" (fin 1) false)
      (fun gs => (gs, .ok 0)) 1
    (exLoaded.store 0 out.1, .ret (out.2.map .int))

theorem exShowGrouped_step : Api.Step exEnv exLoaded (.group "d" (fin 1) "euclidean" 1 false) exShowGrouped.1 exShowGrouped.2 := by
  have hf : mapFind exLoaded.datasets "d" = some 0 := by decide +kernel
  obtain ⟨g, hg⟩ : ∃ g, exLoaded.deref 0 = some g := Option.isSome_iff_exists.1 (by decide +kernel)
  unfold Api.Step GroupCall exShowGrouped
  simp only [hf, hg]
  exact ⟨fun _ => false, _, ⟨_, fun h => by omega, rfl⟩, rfl, rfl⟩

theorem exGroup_says : ∃ (o : Outcome ℚ) (ps : List (Piece ℚ)) (d : ℕ), Says exEnv exShow ⟨exLoaded, true, 6⟩ "group d 1" ⟨exShowGrouped.1, true, d⟩ ps o ∧
    o ≠ .ended := by
  obtain ⟨out, ho⟩ := kind_ok (r := exShowGrouped.2) (by decide +kernel)
  refine ⟨_, _, _, says_call exEnv exShow ⟨exLoaded, true, 6⟩ "group d 1" (.group "d" (fin 1) "euclidean" 1 false) exShowGrouped.1 out rfl
    (by rw [← ho]; exact exShowGrouped_step), by simp⟩

/-- C110 is false for the answers: asked for nine series where there are four, `ksim` shows nine lines; five say that the series 0 from 0 to
0 is at the distance 0. -/
theorem C110_pad_false : ∃ (h : List (CliEnv ℚ × String × Outcome ℚ)) (c c' : Console ℚ) (ps : List (Piece ℚ)) (o : Outcome ℚ),
    Screened exEnv Console.fresh h c ∧ Says exEnv exShow c "ksim 9 d d 0 0 2" c' ps o ∧
    ∀ S : Screen ℚ, Tidy S → (answersIn (Piece.texts S ps)).length = 9 ∧
      (answersIn (Piece.texts S ps)).drop 4 = List.replicate 5 (0, 0, 0, S.num 4 (fin 0)) := by
  obtain ⟨o1, ps1, h1, n1⟩ := exLoaded_says
  obtain ⟨o2, ps2, d, h2, n2⟩ := exGroup_says
  have s1 : Screened exEnv Console.fresh ([] ++ [(exShow, "load d g", o1)]) ⟨exLoaded, true, 6⟩ := .snoc (.nil _) h1 n1
  have s2 := Screened.snoc s1 h2 n2
  set res : List (Cand ℚ) := [⟨⟨0, 0, 0, 2⟩, fin 0⟩, ⟨⟨0, 0, 1, 3⟩, fin 0⟩, ⟨⟨3, 1, 0, 2⟩, fin 0⟩, ⟨⟨3, 1, 1, 3⟩, fin (1 / 4)⟩]
  have hs := says_call exEnv exShow ⟨exShowGrouped.1, true, d⟩ "ksim 9 d d 0 0 2" (.call (.kBest 9 9 "d" "d" 0 0 2)) exShowGrouped.1
    (.entries (res.map .cand ++ List.replicate 5 .pad)) rfl (by
      show exShowGrouped.1.exec exEnv _ = _
      rw [← entriesOf_some (r := (exShowGrouped.1.exec exEnv (.kBest 9 9 "d" "d" 0 0 2)).2)
        (x := res.map GSet.Entry.cand ++ List.replicate 5 GSet.Entry.pad) (by decide +kernel)]
      rfl)
  refine ⟨_, _, _, _, _, s2, hs, fun S hS => ?_⟩
  rw [C110_ksim exEnv exShow S hS _ _ _ (by decide) 9 9 "d" "d" 0 0 2 _ res 5 rfl hs]
  constructor <;> rfl

/-- The dataset is loaded from a column it does not have. -/
def exSixth : Api ℚ := ((fresh : Api ℚ).exec exEnv (.load "d" (some "1 1 1\n1 1 2".toList) ['g'] [' '] 0 5 false)).1

theorem exSixth_says : ∃ o ps, Says exEnv exShow Console.fresh "load d g \\s 0 5" ⟨exSixth, true, 6⟩ ps o ∧ o ≠ .ended := by
  obtain ⟨out, ho⟩ := kind_ok (r := ((fresh : Api ℚ).exec exEnv (.load "d" (some "1 1 1\n1 1 2".toList) ['g'] [' '] 0 5 false)).2)
    (by decide +kernel)
  have h := says_call exEnv exShow Console.fresh "load d g \\s 0 5" (.call (.load "d" (some "1 1 1\n1 1 2".toList) ['g'] [' '] 0 5 false))
    exSixth out rfl (by rw [← ho]; rfl)
  have e : (report (K := ℚ) (Console.fresh : Console ℚ).timer (Console.fresh : Console ℚ).digits (splitLine "load d g \\s 0 5")
    (.call (.load "d" (some "1 1 1\n1 1 2".toList) ['g'] [' '] 0 5 false)) out).2 = 6 := by
    cases out <;> rfl
  rw [e] at h
  exact ⟨_, _, h, by simp⟩

def exSixthGrouped : Api ℚ × Reply ℚ :=
  match exSixth.deref 0 with
  | none => (exSixth, .dangling)
  | some g =>
    let out := g.groupAllLengths (GSpace.group g.ds exSixth.ratio (fun _ => false) "euclidean" (fin 1) false)
      (fun gs => (gs, .ok 0)) 1
    (exSixth.store 0 out.1, .ret (out.2.map .int))

theorem exSixthGrouped_step : Api.Step exEnv exSixth (.group "d" (fin 1) "euclidean" 1 false) exSixthGrouped.1 exSixthGrouped.2 := by
  have hf : mapFind exSixth.datasets "d" = some 0 := by decide +kernel
  obtain ⟨g, hg⟩ : ∃ g, exSixth.deref 0 = some g := Option.isSome_iff_exists.1 (by decide +kernel)
  unfold Api.Step GroupCall exSixthGrouped
  simp only [hf, hg]
  exact ⟨fun _ => false, _, ⟨_, fun h => by omega, rfl⟩, rfl, rfl⟩

def faultOf : Reply ℚ → Option Fault
  | .ret (.error e) => some e
  | _ => none

theorem faultOf_some {r : Reply ℚ} {e : Fault} (h : faultOf r = some e) : r = .ret (.error e) := by
  unfold faultOf at h
  split at h
  · cases h; rfl
  · cases h

/-- C110 is false for the messages: a dataset is loaded from the sixth of three columns; grouping it says that some value cannot be
converted, though all values of the line are numbers. -/
theorem C110_message_false : ∃ (s : Api ℚ) (h : List (CliEnv ℚ × String × Outcome ℚ)) (c : Console ℚ) (ps : List (Piece ℚ)),
    Screened exEnv Console.fresh h ⟨s, true, 6⟩ ∧
    processLine exShow "group d 1" = .run (.ok (.call (.group "d" (fin 1) "euclidean" 1 false))) ∧
    Says exEnv exShow ⟨s, true, 6⟩ "group d 1" c ps (.reply (.ret (.error (.std "length_error")))) ∧
    ∀ S : Screen ℚ, S.progress = [] → HasLine "Error! Cannot convert some value to numeric" (Piece.texts S ps) := by
  obtain ⟨o1, ps1, h1, n1⟩ := exSixth_says
  have s1 : Screened exEnv Console.fresh ([] ++ [(exShow, "load d g \\s 0 5", o1)]) ⟨exSixth, true, 6⟩ := .snoc (.nil _) h1 n1
  have hs : Says exEnv exShow ⟨exSixth, true, 6⟩ "group d 1" ⟨exSixthGrouped.1, true, 6⟩
      (before (.group "d" (fin 1) "euclidean" 1 false) ++ notNumeric ++ [.endl]) (.reply (.ret (.error (.std "length_error")))) := by
    refine says_fault exEnv exShow ⟨exSixth, true, 6⟩ "group d 1" _ exSixthGrouped.1 (.std "length_error") _ rfl rfl ?_
    rw [← faultOf_some (r := exSixthGrouped.2) (by decide +kernel)]
    exact exSixthGrouped_step
  refine ⟨_, _, _, _, s1, rfl, hs, fun S hS => ?_⟩
  rw [texts_app, texts_app, List.append_assoc]
  refine hasLine_after (.inr ?_) (hasLine_left (by decide) ⟨['\n'], rfl⟩)
  simp only [before, Piece.texts, Piece.text, List.append_nil, hS]
  rw [← List.append_assoc, ← List.append_assoc, List.getLast?_append]
  rfl

/-- C110 is false for `sim` with one position: no line says that it is an error. -/
theorem C110_sim_false : ∃ (c c' : Console ℚ) (ps : List (Piece ℚ)), Says exEnv exShow c "sim d d 0 1" c' ps .message ∧
    ¬ HasLine "Error! " (Piece.texts exScreen ps) := by
  refine ⟨Console.fresh, Console.fresh, _, ⟨⟨rfl, rfl⟩, rfl⟩, ?_⟩
  rintro ⟨l, hl, hp⟩
  have e : textLines (Piece.texts exScreen ([.str "Both starting and ending positions must be provided.", .endl, .help "sim", .endl] :
    List (Piece ℚ))) = ["Both starting and ending positions must be provided.".toList, [], []] := by decide +kernel
  have hl' : l ∈ ["Both starting and ending positions must be provided.".toList, [], []] := by rw [← e]; exact hl
  simp only [List.mem_cons, List.not_mem_nil, or_false] at hl'
  rcases hl' with rfl | rfl | rfl
  · exact absurd hp (by decide)
  · exact absurd hp (by decide)
  · exact absurd hp (by decide)

/-! ## The theorems on concrete sessions -/

/-- The four answers to `ksim 4 d d 0 0 2`. -/
def exAnswers : List (View × ℚ) := [(⟨0, 0, 0, 2⟩, 0), (⟨0, 0, 1, 3⟩, 0), (⟨3, 1, 0, 2⟩, 0), (⟨3, 1, 1, 3⟩, 1 / 4)]

theorem exKsim_says (timer : Bool) (d : ℕ) : ∃ ps : List (Piece ℚ), Says exEnv exShow ⟨exShowGrouped.1, timer, d⟩
    "ksim 4 d d 0 0 2" ⟨exShowGrouped.1, timer, if timer then 4 else d⟩ ps
    (.reply (.ret (.ok (.entries (exAnswers.map fun r => .cand ⟨r.1, fin r.2⟩))))) := by
  have h := says_call exEnv exShow ⟨exShowGrouped.1, timer, d⟩ "ksim 4 d d 0 0 2" (.call (.kBest 4 4 "d" "d" 0 0 2)) exShowGrouped.1
    (.entries (exAnswers.map fun r => .cand ⟨r.1, fin r.2⟩)) rfl (by
    show exShowGrouped.1.exec exEnv _ = _
    rw [← entriesOf_some (r := (exShowGrouped.1.exec exEnv (.kBest 4 4 "d" "d" 0 0 2)).2)
      (x := exAnswers.map fun r => GSet.Entry.cand ⟨r.1, fin r.2⟩) (by decide +kernel)]
    rfl)
  cases timer
  · exact ⟨_, h⟩
  · exact ⟨_, h⟩

/-- `C110_ksim`: four lines, the last with the distance 1/4. -/
example : ∃ (c' : Console ℚ) (ps : List (Piece ℚ)) (o : Outcome ℚ), Says exEnv exShow ⟨exShowGrouped.1, true, 6⟩ "ksim 4 d d 0 0 2" c' ps o ∧
    answersIn (Piece.texts exScreen ps) = [(0, 0, 2, "0/1".toList), (0, 1, 3, "0/1".toList), (1, 0, 2, "0/1".toList), (1, 1, 3, "1/4".toList)] := by
  obtain ⟨ps, h⟩ := exKsim_says true 6
  refine ⟨_, ps, _, h, ?_⟩
  rw [C110_ksim exEnv exShow exScreen exScreen_tidy _ _ "ksim 4 d d 0 0 2" (by decide) 4 4 "d" "d" 0 0 2 ps
    (exAnswers.map fun r => ⟨r.1, fin r.2⟩) 0 rfl (by simpa [Function.comp_def] using h)]
  decide +kernel

/-- `C110_sorted`: the values shown are those of the distances, in order. -/
example : ∃ (c' : Console ℚ) (ps : List (Piece ℚ)) (o : Outcome ℚ) (vs : List ℚ), Says exEnv exShow ⟨exShowGrouped.1, true, 6⟩ "ksim 4 d d 0 0 2" c' ps o ∧
    (answersIn (Piece.texts exScreen ps)).map (fun r => exValue r.2.2.2) = vs.map some ∧ vs.Pairwise (· ≤ ·) := by
  obtain ⟨ps, h⟩ := exKsim_says true 6
  obtain ⟨vs, h1, h2, -⟩ := C110_sorted exEnv exShow exScreen exScreen_tidy exValue exScreen_reads ⟨exShowGrouped.1, true, 6⟩ _ (by decide)
    "ksim 4 d d 0 0 2" (by decide) 4 4 "d" "d" 0 0 2
    ps exAnswers (by decide +kernel) rfl h
  exact ⟨_, ps, _, vs, h, h1, h2⟩

/-- `C110_ksimBF`: the search without groups shows the series itself. -/
example : ∃ (c' : Console ℚ) (ps : List (Piece ℚ)) (o : Outcome ℚ), Says exEnv exShow ⟨exLoaded, true, 6⟩ "ksimBF 1 d d 0" c' ps o ∧
    answersIn (Piece.texts exScreen ps) = [(0, 0, 3, "0/1".toList)] := by
  have h := says_call exEnv exShow ⟨exLoaded, true, 6⟩ "ksimBF 1 d d 0" (.call (.bruteForce 1 "d" "d" 0 (-1) (-1) "euclidean")) exLoaded
    (.cands [⟨⟨0, 0, 0, 3⟩, fin 0⟩]) rfl (by
      show exLoaded.exec exEnv _ = _
      rw [← candsOf_some (r := (exLoaded.exec exEnv (.bruteForce 1 "d" "d" 0 (-1) (-1) "euclidean")).2) (by decide +kernel)]
      rfl)
  refine ⟨_, _, _, h, ?_⟩
  rw [C110_ksimBF exEnv exShow exScreen exScreen_tidy _ _ _ (by decide) 1 "d" "d" 0 (-1) (-1) "euclidean" _ _ rfl h]
  decide +kernel

def candOf : Reply ℚ → Option (Cand ℚ)
  | .ret (.ok (.cand x)) => some x
  | _ => none

theorem candOf_some {r : Reply ℚ} {x : Cand ℚ} (h : candOf r = some x) : r = .ret (.ok (.cand x)) := by
  unfold candOf at h
  split at h
  · cases h; rfl
  · cases h

/-- `C110_sim`: the best match of the first two points of the second series. -/
example : ∃ (c' : Console ℚ) (ps : List (Piece ℚ)) (o : Outcome ℚ), Says exEnv exShow ⟨exShowGrouped.1, true, 6⟩ "sim d d 1 0 2" c' ps o ∧
    bestIn (Piece.texts exScreen ps) = [(0, 1, 3)] ∧ afterWords "Distance = " (Piece.texts exScreen ps) = ["0/1".toList] := by
  have h := says_call exEnv exShow ⟨exShowGrouped.1, true, 6⟩ "sim d d 1 0 2" (.call (.bestMatch "d" "d" 1 0 2)) exShowGrouped.1
    (.cand ⟨⟨0, 0, 1, 3⟩, fin 0⟩) rfl (by
      show exShowGrouped.1.exec exEnv _ = _
      rw [← candOf_some (r := (exShowGrouped.1.exec exEnv (.bestMatch "d" "d" 1 0 2)).2) (by decide +kernel)]
      rfl)
  refine ⟨_, _, _, h, ?_⟩
  obtain ⟨h1, h2⟩ := C110_sim exEnv exShow exScreen exScreen_tidy _ _ _ (by decide) "d" "d" 1 0 2 _ _ rfl h
  rw [h1, h2]
  exact ⟨rfl, by decide +kernel⟩

/-- How the program that wrote it would read a number back. -/
def exParseBack (t : Text) : Parsed ℚ := if t = ['n'] then .val nan else match exValue t with | some y => .val (fin y) | none => .invalid

/-- The number with the sixteen digits that are shown. -/
def exRead : Dbl ℚ → Dbl ℚ
  | .fin y => .fin (decimal 16 y)
  | _ => .nan

theorem exParseBack_num (x : Dbl ℚ) : exParseBack (exScreen.num 16 x) = .val (exRead x) := by
  cases x with
  | fin y =>
    unfold exParseBack
    rw [if_neg ?_, exScreen_reads]
    · rfl
    · intro h
      have h' := exScreen_reads 16 y
      rw [h] at h'
      exact absurd h' (by rw [show exValue ['n'] = none from by decide +kernel]; simp)
  | inf => rfl
  | ninf => rfl
  | nan => rfl

/-- `C110_print`: what is printed for the second series, read back. -/
example : ∃ (ps : List (Piece ℚ)) (o : Outcome ℚ) (ds' : Dataset ℚ), Says exEnv exShow ⟨exLoaded, true, 4⟩ "print d 1 0 3" ⟨exLoaded, true, 16⟩ ps o ∧
    Dataset.loadData exParseBack (some (Piece.texts exScreen ps)) ['p'] 0 0 [' '] false (Dataset.fresh : Dataset ℚ) = (ds', .ok ()) ∧
    Holds ds' [[fin 1, fin 1, fin 2]] := by
  obtain ⟨ps, h⟩ := exPrint_says
  obtain ⟨ds', h1, h2, -⟩ := C110_print exEnv exShow exScreen _ _ "print d 1 0 3" "d" 1 0 3 _ ps rfl h exParseBack exRead ['p']
    (fun x => exScreen_chars 16 x) exParseBack_num
  have e : ([fin 1, fin 1, fin 2] : List (Dbl ℚ)).map exRead = [fin 1, fin 1, fin 2] := by decide +kernel
  rw [e] at h2
  exact ⟨ps, _, ds', h, h1, h2⟩

/-- `C110_digits`, `C110_timer`: a search with the timer on. -/
example : ∃ (c' : Console ℚ) (ps : List (Piece ℚ)) (o : Outcome ℚ), Says exEnv exShow ⟨exShowGrouped.1, true, 6⟩ "ksim 4 d d 0 0 2" c' ps o ∧
    c'.digits = 4 ∧ c'.timer = true := by
  obtain ⟨ps, h⟩ := exKsim_says true 6
  exact ⟨_, ps, _, h, rfl, rfl⟩

theorem starts_head {line word : String} {w : List Char} {ws : List (List Char)} (h : Cli.tokens line.toList [] = w :: ws) (hs : Starts line word) :
    w = word.toList := by
  obtain ⟨vs, hv⟩ := hs
  rw [words_unique hv] at h
  exact (List.cons.inj h).1.symm

/-- `C110_steady_partial`: with the timer off two searches leave the digits. -/
example : ∃ h : List (CliEnv ℚ × String × Outcome ℚ), h.length = 2 ∧ ∃ d : Console ℚ, Screened exEnv ⟨exShowGrouped.1, false, 6⟩ h d ∧ d.digits = 6 := by
  obtain ⟨p1, h1⟩ := exKsim_says false 6
  have s1 := Screened.snoc (.nil _) h1 (by simp)
  have s2 := Screened.snoc s1 h1 (by simp)
  refine ⟨_, rfl, _, s2, (C110_steady_partial exEnv _ _ _ s2 rfl ?_).1⟩
  intro e he
  have hl : e.2.1 = "ksim 4 d d 0 0 2" := by
    simp only [List.nil_append, List.mem_append, List.mem_singleton] at he
    rcases he with rfl | rfl <;> rfl
  rw [hl]
  exact ⟨fun h => absurd (starts_head (w := "ksim".toList) rfl h) (by decide), fun h => absurd (starts_head (w := "ksim".toList) rfl h) (by decide)⟩

/-- `C110_error`: the position of the second argument of `print` is no number. -/
example : ∃ (c' : Console ℚ) (ps : List (Piece ℚ)) (o : Outcome ℚ), Says exEnv exShow ⟨exLoaded, true, 6⟩ "print d x 0 1" c' ps o ∧
    HasLine "Error! " (Piece.texts exScreen ps) := by
  have h : ∃ (e : Fault) (ps : List (Piece ℚ)), Says exEnv exShow ⟨exLoaded, true, 6⟩ "print d x 0 1" ⟨exLoaded, true, 6⟩ ps (.caught e) :=
    ⟨_, _, ⟨rfl, rfl⟩, rfl⟩
  obtain ⟨e, ps, h⟩ := h
  exact ⟨_, ps, _, h, C110_error exEnv exShow exScreen (.inl rfl) _ _ _ ps e _ (.inl rfl) h⟩

theorem exSeek_says (c : Console ℚ) : ∃ ps : List (Piece ℚ), Says exEnv exShow c "seek d" c ps .message := ⟨_, ⟨rfl, rfl⟩, rfl⟩

/-- `C110_refused_partial`: an unknown command. -/
example : ∃ (c' : Console ℚ) (ps : List (Piece ℚ)) (o : Outcome ℚ), Says exEnv exShow ⟨exLoaded, true, 6⟩ "seek d" c' ps o ∧
    HasLine "Error! " (Piece.texts exScreen ps) := by
  obtain ⟨ps, h⟩ := exSeek_says ⟨exLoaded, true, 6⟩
  exact ⟨_, ps, _, h, C110_refused_partial exEnv exShow exScreen _ _ _ ps _ (.inr rfl) (by
    rintro ⟨t, q, i, x, hw⟩
    exact absurd (starts_head (word := "sim") (w := "seek".toList) rfl ⟨_, hw⟩) (by decide)) h⟩

/-- `C110_ends`: a session of lines that are not known ends, however many they are. -/
example (n : ℕ) : ∃ d qs, Main exEnv (fun _ => exShow) 0 (Console.fresh : Console ℚ) (List.replicate n (some "seek d")) d qs :=
  C110_ends exEnv (fun _ => exShow) (fun _ => True) _ (fun c _ _ l hl => by
    obtain ⟨-, rfl⟩ : _ ∧ l = "seek d" := by simpa using hl
    obtain ⟨ps, h⟩ := exSeek_says c
    exact ⟨c, ps, _, h, trivial⟩) 0 _ trivial

def infoOf : Reply ℚ → Option (Meta ℚ)
  | .ret (.ok (.info x)) => some x
  | _ => none

theorem infoOf_some {r : Reply ℚ} {x : Meta ℚ} (h : infoOf r = some x) : r = .ret (.ok (.info x)) := by
  unfold infoOf at h
  split at h
  · cases h; rfl
  · cases h

/-- `C110_load`: two series of three points. -/
example : ∃ (c' : Console ℚ) (ps : List (Piece ℚ)) (o : Outcome ℚ), Says exEnv exShow Console.fresh "load d g" c' ps o ∧
    (∃ t ∈ afterWords "  Item count:  " (Piece.texts exScreen ps), readInt t = some (2, [])) ∧
    ∃ t ∈ afterWords "  Item length: " (Piece.texts exScreen ps), readInt t = some (3, []) := by
  have h := says_call exEnv exShow Console.fresh "load d g" (.call (.load "d" (some "1 1 1\n1 1 2".toList) ['g'] [' '] 0 0 false))
    exLoaded (.info ⟨"d", 2, 3, false, false, "", fin 0⟩) rfl (by
      show (fresh : Api ℚ).exec exEnv _ = _
      rw [← infoOf_some (r := ((fresh : Api ℚ).exec exEnv (.load "d" (some "1 1 1\n1 1 2".toList) ['g'] [' '] 0 0 false)).2) (by decide +kernel)]
      rfl)
  exact ⟨_, _, _, h, (C110_load exEnv exShow exScreen _ _ "load d g" "d" _ _ _ 0 0 false _ _ (by decide) rfl h).2⟩

def intOf : Reply ℚ → Option Int
  | .ret (.ok (.int x)) => some x
  | _ => none

theorem intOf_some {r : Reply ℚ} {x : Int} (h : intOf r = some x) : r = .ret (.ok (.int x)) := by
  unfold intOf at h
  split at h
  · cases h; rfl
  · cases h

/-- `C110_group`: four groups. -/
example : ∃ (c' : Console ℚ) (ps : List (Piece ℚ)) (o : Outcome ℚ), Says exEnv exShow ⟨exLoaded, true, 6⟩ "group d 1" c' ps o ∧
    ∃ t ∈ afterWords "Number of Groups: " (Piece.texts exScreen ps), readInt t = some (4, []) := by
  have h := says_call exEnv exShow ⟨exLoaded, true, 6⟩ "group d 1" (.group "d" (fin 1) "euclidean" 1 false) exShowGrouped.1 (.int 4) rfl
    (by rw [← intOf_some (r := exShowGrouped.2) (by decide +kernel)]; exact exShowGrouped_step)
  exact ⟨_, _, _, h, C110_group exEnv exShow exScreen _ _ "group d 1" "d" _ _ 1 false _ _ rfl h⟩

/-- `C110_timer_line`: after `timer off` the timer is off. -/
example : ∃ (c' : Console ℚ) (ps : List (Piece ℚ)) (o : Outcome ℚ), Says exEnv exShow ⟨exLoaded, true, 6⟩ "timer off" c' ps o ∧
    c'.timer = false ∧ HasLine "Timer is OFF" (Piece.texts exScreen ps) := by
  have h : Says exEnv exShow ⟨exLoaded, true, 6⟩ "timer off" ⟨exLoaded, false, 6⟩ [.str "Timer is ", .str "OFF", .endl, .endl] .message :=
    ⟨⟨rfl, rfl⟩, rfl⟩
  exact ⟨_, _, _, h, rfl, (C110_timer_line exEnv exShow exScreen _ _ "timer off" ["off"] _ _ (.inr (.inr rfl)) (tokens_words _) h).2.2.2.2 rfl⟩

end Genex.Props
