import Verif.Lemmas.Cli
import Verif.Props.Api

/-!
# C55, C63, C64: the command line program
-/

set_option linter.unusedSectionVars false

namespace Genex.Props

open Dbl Api Registry Manual Cli

section

variable {K : Type}

/-! ## The conversions of the examples -/

/-- A conversion for the examples: digits, and "-1". -/
def exStoi (s : String) : Res Int :=
  if s = "-1" then .ok (-1)
  else if s.toList.all Char.isDigit then .ok (s.toList.foldl (fun n c => 10 * n + (c.toNat - 48 : ℕ)) 0)
  else .error (.std "stoi")

def exCli : CliEnv ℚ :=
  ⟨exStoi, fun s => (exStoi s).map fun n => fin n, fun p => if p = "f" then some "1 4\n2 3".toList else none, fun _ => none,
    fun _ => none, fun _ => true, 4⟩

/-! ## C55 -/

/-- C55, part: every documented form of `ksim` passes its arguments on, except that the range is lost when `ke` is given too.
Missing: the form with both (`C55_false`). -/
theorem C55_partial (P : CliEnv K) (line k target query index : String) (range : Option (String × String)) (ke : Option String)
    {nk ni nke a b : Int} (hk : P.stoi k = .ok nk) (hi : P.stoi index = .ok ni) (hr : OptRange P range a b)
    (hke : Opt P nk ke nke) (hw : Words line.toList ((ksimForm k target query index range ke).map String.toList))
    (hboth : range = none ∨ ke = none) :
    processLine P line = .run (.ok (.call (.call (.kBest nk nke target query ni a b)))) := by
  rw [process_run (P := P) (f := ksim P) (process_words (P := P) hw rfl) rfl]
  rcases range with _ | ⟨x, y⟩ <;> rcases ke with _ | z
  · obtain ⟨rfl, rfl⟩ := hr
    cases hke
    simp [ksim, badCount, arg, ksimRange, bind, Except.bind, hk, hi]
  · obtain ⟨rfl, rfl⟩ := hr
    simp only [Opt] at hke
    simp [ksim, badCount, arg, ksimRange, bind, Except.bind, hk, hi, hke]
  · obtain ⟨h1, h2⟩ := hr
    cases hke
    simp [ksim, badCount, arg, ksimRange, bind, Except.bind, hk, hi, h1, h2]
  · simp at hboth

/-- C55 is false: with a range and `ke`, the range is ignored, whatever it is; it is not even read. -/
theorem C55_false (P : CliEnv K) (line k target query index start stop ke : String) {nk ni nke : Int} (hk : P.stoi k = .ok nk)
    (hi : P.stoi index = .ok ni) (hke : P.stoi ke = .ok nke)
    (hw : Words line.toList ((ksimForm k target query index (some (start, stop)) (some ke)).map String.toList)) :
    processLine P line = .run (.ok (.call (.call (.kBest nk nke target query ni (-1) (-1))))) := by
  rw [process_run (P := P) (f := ksim P) (process_words (P := P) hw rfl) rfl]
  simp [ksim, badCount, arg, ksimRange, bind, Except.bind, hk, hi, hke]

/-- C55: any other number of arguments is refused. -/
theorem C55_refused (P : CliEnv K) (line : String) (rest : List String)
    (hw : Words line.toList (("ksim" :: rest).map String.toList)) (hn : rest.length < 4 ∨ 7 < rest.length) :
    processLine P line = .run (.ok .usage) := by
  rw [process_run (P := P) (f := ksim P) (process_words (P := P) hw rfl) rfl]
  have : badCount ("ksim" :: rest) 4 7 = true := by
    rw [← Bool.not_eq_false, badCount_false]
    simp only [List.length_cons]
    omega
  simp [ksim, this]

example : processLine exCli "ksim 2 d d 0" = .run (.ok (.call (.call (.kBest 2 2 "d" "d" 0 (-1) (-1))))) :=
  C55_partial exCli _ "2" "d" "d" "0" none none rfl rfl ⟨rfl, rfl⟩ rfl (tokens_words _) (.inl rfl)
example : processLine exCli "ksim 2 d d  0 1 3 " = .run (.ok (.call (.call (.kBest 2 2 "d" "d" 0 1 3)))) :=
  C55_partial exCli _ "2" "d" "d" "0" (some ("1", "3")) none rfl rfl ⟨rfl, rfl⟩ rfl (tokens_words _) (.inr rfl)
example : processLine exCli "ksim 2 d d 0 7" = .run (.ok (.call (.call (.kBest 2 7 "d" "d" 0 (-1) (-1))))) :=
  C55_partial exCli _ "2" "d" "d" "0" none (some "7") rfl rfl ⟨rfl, rfl⟩ rfl (tokens_words _) (.inl rfl)
example : processLine exCli "ksim 2 d d 0 1 3 7" = .run (.ok (.call (.call (.kBest 2 7 "d" "d" 0 (-1) (-1))))) :=
  C55_false exCli _ "2" "d" "d" "0" "1" "3" "7" rfl rfl rfl (tokens_words _)
example := C55_refused exCli "ksim 2 d d" ["2", "d", "d"] (tokens_words _) (.inl (by decide))

/-! ## C63 -/

/-- C63, part: every command other than `ksim`, used as its help says, does what its help says.  Missing: `distance` without the
name of a distance (`C63_distance_false`). -/
theorem C63_usage_partial (P : CliEnv K) (line : String) (args : List String) (a : Action K)
    (hw : Words line.toList (args.map String.toList)) (hu : Usage P args a)
    (hd : ∀ r, args = "distance" :: r → r.length ≠ 8) : processLine P line = .run (.ok a) := by
  obtain ⟨name, rest, f, h1, h2, h3⟩ := usage_do hu hd
  rw [process_run (P := P) (process_words (P := P) hw h1) h2, ← h1, h3]

/-- C63 is false: without the name of a distance, `distance` computes the dynamic time warping distance; its help says "Default to
euclidean". -/
theorem C63_distance_false (P : CliEnv K) (line n₁ i₁ s₁ e₁ n₂ i₂ s₂ e₂ : String) {a b c d e f : Int} (h1 : P.stoi i₁ = .ok a)
    (h2 : P.stoi s₁ = .ok b) (h3 : P.stoi e₁ = .ok c) (h4 : P.stoi i₂ = .ok d) (h5 : P.stoi s₂ = .ok e)
    (h6 : P.stoi e₂ = .ok f)
    (hw : Words line.toList (["distance", n₁, i₁, s₁, e₁, n₂, i₂, s₂, e₂].map String.toList)) :
    processLine P line = .run (.ok (.call (.call (.distance n₁ a b c n₂ d e f "euclidean_dtw")))) := by
  rw [process_run (P := P) (f := distance P) (process_words (P := P) hw rfl) rfl]
  simp [distance, badCount, arg, bind, Except.bind, h1, h2, h3, h4, h5, h6]

/-- C63, part: conversely, a line on which a command does anything is one of the forms in its help.  Missing: the searches for k
series, `distance` without a name, and `save` with several separators. -/
theorem C63_only_partial (P : CliEnv K) (line name : String) (rest : List String) (a : Action K)
    (hw : Words line.toList ((name :: rest).map String.toList)) (hp : processLine P line = .run (.ok a)) (ha : a ≠ .usage)
    (h1 : name ≠ "ksim") (h2 : name ≠ "ksimBF") (h3 : name = "distance" → rest.length ≠ 8)
    (h4 : ∀ n p sep, name = "save" → rest = [n, p, sep] → ∃ c, Escapes sep.toList [c]) : Usage P (name :: rest) a := by
  have hs := process_words (P := P) hw rfl
  cases hf : (commands P).lookup name with
  | some f =>
    rw [process_run hs hf] at hp
    injection hp with hp
    exact do_usage hf hp ha h1 h2 h3 h4
  | none =>
    unfold processLine at hp
    rw [hs] at hp
    simp only [hf] at hp
    split at hp
    · cases hp
    split at hp
    · cases hp
    split at hp
    · cases hp
    · cases hp

/-- C63 is false for `ksimBF`: a fifth argument on its own, and any three arguments after the index, are accepted and ignored. -/
theorem C63_bf_false (P : CliEnv K) (line k t q i x : String) (more : List String) {nk ni : Int} (hk : P.stoi k = .ok nk)
    (hi : P.stoi i = .ok ni) (hm : more.length = 0 ∨ more.length = 2)
    (hw : Words line.toList ((["ksimBF", k, t, q, i, x] ++ more).map String.toList)) :
    processLine P line = .run (.ok (.call (.call (.bruteForce nk t q ni (-1) (-1) "euclidean")))) := by
  rw [process_run (P := P) (f := ksimBF P) (process_words (P := P) hw rfl) rfl]
  have hb : badCount ("ksimBF" :: ([k, t, q, i, x] ++ more)) 4 7 = false := by
    rw [badCount_false]
    simp only [List.length_cons, List.length_append]
    rcases hm with hm | hm <;> rw [hm] <;> simp
  have hr : bfRange P ("ksimBF" :: ([k, t, q, i, x] ++ more)) = .ok (-1, -1) := by
    unfold bfRange
    rw [if_neg]
    simp only [List.length_cons, List.length_append]
    rcases hm with hm | hm <;> rw [hm] <;> simp
  simp only [List.cons_append, List.nil_append] at hb hr ⊢
  simp [ksimBF, hb, hr, bind, Except.bind, arg, hk, hi]

example : processLine exCli "load d f , 1 0 1" =
    .run (.ok (.call (.call (.load "d" (some "1 4\n2 3".toList) ['f'] [','] 1 0 true)))) :=
  C63_usage_partial exCli _ _ _ (tokens_words _)
    (.load4 "d" "f" "," "1" "0" "1" (hasName := 1) (.char (by decide) .nil) rfl rfl rfl) (by simp)
example : processLine exCli "load d f ,\\s" =
    .run (.ok (.call (.call (.load "d" (some "1 4\n2 3".toList) ['f'] [',', ' '] 0 0 false)))) :=
  C63_usage_partial exCli _ _ _ (tokens_words _) (.load1 "d" "f" ",\\s" (.char (by decide) (.space .nil))) (by simp)
example := C63_distance_false exCli "distance d 0 0 2 d 1 0 2" "d" "0" "0" "2" "d" "1" "0" "2" rfl rfl rfl rfl rfl rfl
  (tokens_words _)
example := C63_only_partial exCli "group d 3" "group" ["d", "3"] (.call (.group "d" (fin 3) "euclidean" 4 false))
  (tokens_words _) rfl (by simp) (by decide) (by decide) (by decide) (by simp)
example := C63_bf_false exCli "ksimBF 2 d d 0 5" "2" "d" "d" "0" "5" [] rfl rfl (.inl rfl) (tokens_words _)
example := C63_bf_false exCli "ksimBF 2 d d 0 1 2 5" "2" "d" "d" "0" "1" ["2", "5"] rfl rfl (.inr rfl) (tokens_words _)

/-! ## C64 -/

variable [Field K] [LinearOrder K] [HasSqrt K] [Arith K]

/-- C64: no line of any session makes the program use an unloaded dataset. -/
theorem C64_alive [BandOps] (E : Env K) {h : List (CliEnv K × String)} {s s' : Api K} (hs : Session E fresh h s) (P : CliEnv K)
    (line : String) {o : Outcome K} (ht : Turn E P s line s' o) : o ≠ .reply .dangling := by
  obtain ⟨h', hh, -⟩ := session_history hs
  rcases turn_step ht with ⟨-, hr⟩ | ⟨c, r, hc, hr, rfl⟩
  · exact hr _
  · intro he
    injection he with he
    exact C47_other E hh c hc hr he

/-- C64: only `quit` and `exit` end the program. -/
theorem C64_ends [BandOps] (E : Env K) (P : CliEnv K) (s s' : Api K) (line : String) (ws : List (List Char)) (hw : Words line.toList ws) :
    Turn E P s line s' .ended ↔ s' = s ∧ (ws.head? = some "quit".toList ∨ ws.head? = some "exit".toList) := by
  constructor
  swap
  · rintro ⟨rfl, hq⟩
    have hp : processLine P line = .quit := by
      unfold processLine splitLine
      rw [words_unique hw]
      cases ws with
      | nil => rcases hq with hq | hq <;> cases hq
      | cons w ws => rcases hq with hq | hq <;> cases hq <;> rfl
    unfold Turn
    rw [hp]
    exact ⟨rfl, rfl⟩
  intro ht
  unfold Turn at ht
  split at ht
  · rename_i hq
    refine ⟨ht.1, ?_⟩
    unfold processLine splitLine at hq
    rw [words_unique hw] at hq
    cases ws with
    | nil => cases hq
    | cons w ws =>
      simp only [List.map_cons] at hq
      split at hq
      · cases hq
      split at hq
      · rename_i h
        rcases h with h | h
        · left; rw [← h]; simp
        · right; rw [← h]; simp
      split at hq
      · cases hq
      split at hq
      · cases hq
      · cases hq
  · obtain ⟨r, -, hr⟩ := ht
    cases hr
  all_goals cases ht.2

/-- C64: a line that is refused, that is a comment, or on which a conversion fails, leaves every dataset as it is. -/
theorem C64_unchanged [BandOps] (E : Env K) (P : CliEnv K) (s s' : Api K) (line : String) {o : Outcome K} (ht : Turn E P s line s' o)
    (ho : ∀ r, o ≠ .reply r) : s' = s := by
  rcases turn_step ht with ⟨rfl, -⟩ | ⟨c, r, -, -, rfl⟩
  · rfl
  · exact absurd rfl (ho r)

theorem exTurn : Turn exEnv exCli fresh "load d f" ((fresh : Api ℚ).exec exEnv
      (.load "d" (some "1 4\n2 3".toList) ['f'] [' '] 0 0 false)).1
    (.reply ((fresh : Api ℚ).exec exEnv (.load "d" (some "1 4\n2 3".toList) ['f'] [' '] 0 0 false)).2) :=
  ⟨_, rfl, rfl⟩

theorem exSession : Session exEnv (fresh : Api ℚ) [(exCli, "load d f")]
    ((fresh : Api ℚ).exec exEnv (.load "d" (some "1 4\n2 3".toList) ['f'] [' '] 0 0 false)).1 :=
  .snoc (.nil _) exTurn (by
    simp only [GoesOn]
    exact survives_kind (by decide +kernel))

example (s' : Api ℚ) (o : Outcome ℚ) := C64_alive (s' := s') (o := o) exEnv exSession exCli "sim d d 0"
example (s s' : Api ℚ) := C64_ends exEnv exCli s s' " quit" _ (tokens_words _)
example (s : Api ℚ) : Turn exEnv exCli s " quit" s .ended := (C64_ends exEnv exCli s s _ _ (tokens_words _)).2 ⟨rfl, .inl rfl⟩
example (s : Api ℚ) : Turn exEnv exCli s "print d x 0 1" s (.caught (.std "stoi")) := ⟨rfl, rfl⟩
example (s : Api ℚ) := C64_unchanged exEnv exCli s s "print d x 0 1" (o := .caught (.std "stoi")) ⟨rfl, rfl⟩ (by simp)

end

end Genex.Props
