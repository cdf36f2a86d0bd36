import Verif.Spec.Cli
import Verif.Lemmas.Api

/-!
# Lemmas about the command line program
-/

set_option linter.unusedSectionVars false

namespace Genex.Cli

open Genex.Manual Genex.Api Genex.Registry

variable {K : Type}

theorem blanks_escapes {a b : List Char} (h : Escapes a b) : blanks a = b := by
  induction h with
  | nil => rfl
  | space _ ih => simp [blanks, ih]
  | @char c a b hc _ ih =>
    rw [blanks, ih]
    rintro cs rfl rfl
    exact hc ⟨rfl, rfl⟩

theorem escapes_blanks (a : List Char) : Escapes a (blanks a) := by
  induction a using blanks.induct with
  | case1 cs ih => rw [blanks]; exact .space ih
  | case2 c cs hc ih =>
    rw [blanks]
    · refine .char ?_ ih
      rintro ⟨rfl, h⟩
      cases cs with
      | nil => cases h
      | cons x xs => cases h; exact hc xs rfl rfl
    · exact hc
  | case3 => exact .nil

theorem blanks_ne_nil {a : List Char} (h : a ≠ []) : blanks a ≠ [] := by
  cases a using blanks.fun_cases <;> simp_all [blanks]

theorem flag_decide (n : Int) : decide (n ≠ 0) = flag n := by
  by_cases h : n = 0 <;> simp [flag, h]

/-- `boost::tokenizer` and the words of a line. -/
theorem words_tokens (l cur : List Char) (hc : ' ' ∉ cur) (hn : cur ≠ []) : Words (cur.reverse ++ l) (tokens l cur) ∧
    (Words l (tokens l [])) := by
  induction l generalizing cur with
  | nil => 
    constructor
    · rw [tokens, if_neg hn, List.append_nil]
      exact .last (by simpa using hn) (by simpa using hc)
    · exact .nil
  | cons c cs ih =>
    by_cases h : c = ' '
    · subst h
      constructor
      · simp only [tokens, hn, if_true, if_false]
        exact .word (by simpa using hn) (by simpa using hc) (ih cur hc hn).2
      · simp only [tokens, if_true]
        exact .blank (ih cur hc hn).2
    · constructor
      · simp only [tokens, h, if_false]
        have := (ih (c :: cur) (by simp [hc, Ne.symm h]) (by simp)).1
        simpa using this
      · simp only [tokens, h, if_false]
        have := (ih [c] (by simp [Ne.symm h]) (by simp)).1
        simpa using this

theorem tokens_words (l : List Char) : Words l (tokens l []) := (words_tokens l ['x'] (by simp) (by simp)).2

theorem tokens_app (w l : List Char) (hw : ' ' ∉ w) (cur : List Char) : tokens (w ++ l) cur = tokens l (w.reverse ++ cur) := by
  induction w generalizing cur with
  | nil => rfl
  | cons c cs ih =>
    have h : c ≠ ' ' := by rintro rfl; simp at hw
    rw [List.cons_append, tokens, if_neg h, ih (by simp_all)]
    simp

theorem words_unique {l : List Char} {ws : List (List Char)} (h : Words l ws) : tokens l [] = ws := by
  induction h with
  | nil => rfl
  | blank _ ih => simp [tokens, ih]
  | @last w hn hw =>
    have := tokens_app w [] hw []
    rw [List.append_nil] at this
    rw [this]
    simp [tokens, hn]
  | @word w l ws hn hw _ ih =>
    rw [tokens_app w _ hw]
    simp [tokens, hn, ih]

theorem usage_head {P : CliEnv K} {args : List String} {a : Action K} (h : Usage P args a) :
    ∃ name rest, args = name :: rest ∧ (∀ n, n = name → (n.toList.take 2 ≠ ['/', '/'] ∧ n ≠ "quit" ∧ n ≠ "exit" ∧ n ≠ "help")) := by
  cases h <;> exact ⟨_, _, rfl, by rintro _ rfl; decide⟩

theorem usage_do {P : CliEnv K} {args : List String} {a : Action K} (h : Usage P args a)
    (hd : ∀ r, args = "distance" :: r → r.length ≠ 8) :
    ∃ name rest f, args = name :: rest ∧ (commands P).lookup name = some f ∧ f args = .ok a := by
  cases h
  case distance0 => exact absurd rfl (hd _ rfl)
  all_goals refine ⟨_, _, _, rfl, rfl, ?_⟩
  all_goals simp_all [load, save, unload, list, timer, distance, group, saveGroups, loadGroups, normalize, sim, ksimBF, bfRange,
    print, badCount, arg, optInt, separators, bind, Except.bind]
  case load0 => rfl
  case load1 h => exact blanks_escapes h
  case load2 h _ => exact blanks_escapes h
  case load3 h _ _ => exact blanks_escapes h
  case load4 n h _ _ _ => exact ⟨blanks_escapes h, by by_cases hn : n = 0 <;> simp [flag, hn]⟩
  case save0 => rfl
  case save1 h => rw [blanks_escapes h]; rfl

theorem res_bind {α β : Type} {a : Res α} {f : α → Res β} {b : β} (h : (a >>= f) = .ok b) : ∃ x, a = .ok x ∧ f x = .ok b := by
  cases a with
  | error e => cases h
  | ok x => exact ⟨x, rfl, h⟩

theorem lookup_mem {β : Type} {l : List (String × β)} {n : String} {b : β} (h : l.lookup n = some b) : n ∈ l.map Prod.fst := by
  induction l with
  | nil => cases h
  | cons p ps ih =>
    rw [List.lookup] at h
    split at h
    · rename_i heq
      simp at heq
      simp [heq]
    · exact List.mem_cons_of_mem _ (ih h)

theorem optInt_ok {P : CliEnv K} {args : List String} {i : ℕ} {d n : Int} (h : optInt P args i d = .ok n) :
    (i < args.length ∧ P.stoi (arg args i) = .ok n) ∨ (args.length ≤ i ∧ n = d) := by
  unfold optInt at h
  split at h
  · exact .inl ⟨by assumption, h⟩
  · cases h; exact .inr ⟨by omega, rfl⟩

theorem badCount_false {args : List String} {lo hi : ℕ} : badCount args lo hi = false ↔ lo ≤ args.length - 1 ∧ args.length - 1 ≤ hi := by
  simp [badCount]

/-- What a command other than the searches for k series does, unless it prints its usage, its help says. -/
theorem do_usage {P : CliEnv K} {name : String} {rest : List String} {f : List String → Res (Action K)} {a : Action K}
    (hf : (commands P).lookup name = some f) (ha : f (name :: rest) = .ok a) (hu : a ≠ .usage) (h1 : name ≠ "ksim")
    (h2 : name ≠ "ksimBF") (h3 : name = "distance" → rest.length ≠ 8)
    (h4 : ∀ n p sep, name = "save" → rest = [n, p, sep] → ∃ c, Escapes sep.toList [c]) : Usage P (name :: rest) a := by
  have hcases : name ∈ (commands P).map Prod.fst := lookup_mem hf
  simp only [commands, List.map_cons, List.map_nil, List.mem_cons, List.not_mem_nil, or_false] at hcases
  rcases hcases with rfl | rfl | rfl | rfl | rfl | rfl | rfl | rfl | rfl | rfl | rfl | rfl | rfl | rfl
  · cases hf
    unfold load at ha
    split at ha
    · cases ha; exact absurd rfl hu
    rename_i hb
    rw [Bool.not_eq_true, badCount_false] at hb
    obtain ⟨rows, hr, ha⟩ := res_bind ha
    obtain ⟨col, hc, ha⟩ := res_bind ha
    obtain ⟨hn, hh, ha⟩ := res_bind ha
    cases ha
    match rest, hb with
    | [n, p], _ =>
      cases hr; cases hc; cases hh
      exact .load0 n p
    | [n, p, sep], _ =>
      cases hr; cases hc; cases hh
      exact .load1 n p sep (escapes_blanks _)
    | [n, p, sep, r], _ =>
      cases hc; cases hh
      exact .load2 n p sep r (escapes_blanks _) hr
    | [n, p, sep, r, c], _ =>
      cases hh
      exact .load3 n p sep r c (escapes_blanks _) hr hc
    | [n, p, sep, r, c, h], _ =>
      rw [flag_decide]
      exact .load4 n p sep r c h (escapes_blanks _) hr hc hh
    | [], hb => exfalso; simp only [List.length_cons, List.length_nil] at hb; omega
    | [_], hb => exfalso; simp only [List.length_cons, List.length_nil] at hb; omega
    | _ :: _ :: _ :: _ :: _ :: _ :: _ :: _, hb => exfalso; simp only [List.length_cons, List.length_nil] at hb; omega
  · cases hf
    unfold save at ha
    split at ha
    · cases ha; exact absurd rfl hu
    rename_i hb
    rw [Bool.not_eq_true, badCount_false] at hb
    cases ha
    match rest, hb with
    | [n, p], _ => exact .save0 n p
    | [n, p, sep], _ =>
      obtain ⟨c, hc⟩ := h4 n p sep rfl rfl
      have : separators ["save", n, p, sep] = [c] := blanks_escapes hc
      rw [this]
      exact .save1 n p sep hc
    | [], hb => exfalso; simp only [List.length_cons, List.length_nil] at hb; omega
    | [_], hb => exfalso; simp only [List.length_cons, List.length_nil] at hb; omega
    | _ :: _ :: _ :: _ :: _, hb => exfalso; simp only [List.length_cons, List.length_nil] at hb; omega
  · cases hf
    unfold unload at ha
    split at ha
    · cases ha; exact absurd rfl hu
    rename_i hb
    rw [Bool.not_eq_true, badCount_false] at hb
    cases ha
    match rest, hb with
    | [n], _ => exact .unload n
    | [], hb => exfalso; simp only [List.length_cons, List.length_nil] at hb; omega
    | _ :: _ :: _, hb => exfalso; simp only [List.length_cons, List.length_nil] at hb; omega
  · cases hf
    unfold list at ha
    split at ha
    · cases ha; exact absurd rfl hu
    rename_i hb
    rw [Bool.not_eq_true, badCount_false] at hb
    match rest, hb with
    | [n], _ =>
      split at ha
      · rename_i h; cases ha; cases h; exact .listDataset
      split at ha
      · rename_i h; cases ha; cases h; exact .listDistance
      · cases ha; exact absurd rfl hu
    | [], hb => exfalso; simp only [List.length_cons, List.length_nil] at hb; omega
    | _ :: _ :: _, hb => exfalso; simp only [List.length_cons, List.length_nil] at hb; omega
  · cases hf
    unfold timer at ha
    split at ha
    · cases ha; exact absurd rfl hu
    rename_i hb
    rw [Bool.not_eq_true, badCount_false] at hb
    match rest, hb with
    | [], _ => cases ha; exact .timer
    | [n], _ =>
      rw [if_neg (by simp)] at ha
      split at ha
      · rename_i h; cases ha; cases h; exact .timerOn
      split at ha
      · rename_i h; cases ha; cases h; exact .timerOff
      · cases ha; exact absurd rfl hu
    | _ :: _ :: _, hb => exfalso; simp only [List.length_cons, List.length_nil] at hb; omega
  · cases hf
    unfold distance at ha
    split at ha
    · cases ha; exact absurd rfl hu
    rename_i hb
    rw [Bool.not_eq_true, badCount_false] at hb
    obtain ⟨i₁, hi₁, ha⟩ := res_bind ha
    obtain ⟨s₁, hs₁, ha⟩ := res_bind ha
    obtain ⟨e₁, he₁, ha⟩ := res_bind ha
    obtain ⟨i₂, hi₂, ha⟩ := res_bind ha
    obtain ⟨s₂, hs₂, ha⟩ := res_bind ha
    obtain ⟨e₂, he₂, ha⟩ := res_bind ha
    cases ha
    match rest, hb with
    | [n, i, s, e, n', i', s', e'], _ => exact absurd rfl (h3 rfl)
    | [n, i, s, e, n', i', s', e', d], _ => exact .distance1 n i s e n' i' s' e' d hi₁ hs₁ he₁ hi₂ hs₂ he₂
    | [], hb => exfalso; simp only [List.length_cons, List.length_nil] at hb; omega
    | [_], hb => exfalso; simp only [List.length_cons, List.length_nil] at hb; omega
    | [_, _], hb => exfalso; simp only [List.length_cons, List.length_nil] at hb; omega
    | [_, _, _], hb => exfalso; simp only [List.length_cons, List.length_nil] at hb; omega
    | [_, _, _, _], hb => exfalso; simp only [List.length_cons, List.length_nil] at hb; omega
    | [_, _, _, _, _], hb => exfalso; simp only [List.length_cons, List.length_nil] at hb; omega
    | [_, _, _, _, _, _], hb => exfalso; simp only [List.length_cons, List.length_nil] at hb; omega
    | [_, _, _, _, _, _, _], hb => exfalso; simp only [List.length_cons, List.length_nil] at hb; omega
    | _ :: _ :: _ :: _ :: _ :: _ :: _ :: _ :: _ :: _ :: _, hb => exfalso; simp only [List.length_cons, List.length_nil] at hb; omega
  · cases hf
    unfold group at ha
    split at ha
    · cases ha; exact absurd rfl hu
    rename_i hb
    rw [Bool.not_eq_true, badCount_false] at hb
    obtain ⟨t, ht, ha⟩ := res_bind ha
    cases ha
    match rest, hb with
    | [n, x], _ => exact .group0 n x ht
    | [n, x, d], _ => exact .group1 n x d ht
    | [], hb => exfalso; simp only [List.length_cons, List.length_nil] at hb; omega
    | [_], hb => exfalso; simp only [List.length_cons, List.length_nil] at hb; omega
    | _ :: _ :: _ :: _ :: _, hb => exfalso; simp only [List.length_cons, List.length_nil] at hb; omega
  · cases hf
    unfold saveGroups at ha
    split at ha
    · cases ha; exact absurd rfl hu
    rename_i hb
    rw [Bool.not_eq_true, badCount_false] at hb
    obtain ⟨z, hz, ha⟩ := res_bind ha
    match rest, hb with
    | [n, p], _ =>
      cases hz
      rw [if_neg (by simp)] at ha
      cases ha
      exact .saveGroups0 n p
    | [n, p, x], _ =>
      split at ha
      · cases ha; exact .saveGroups2 n p x hz (by assumption)
      · rename_i h0
        cases ha
        rw [not_not.1 h0] at hz
        exact .saveGroups1 n p x hz
    | [], hb => exfalso; simp only [List.length_cons, List.length_nil] at hb; omega
    | [_], hb => exfalso; simp only [List.length_cons, List.length_nil] at hb; omega
    | _ :: _ :: _ :: _ :: _, hb => exfalso; simp only [List.length_cons, List.length_nil] at hb; omega
  · cases hf
    unfold loadGroups at ha
    split at ha
    · cases ha; exact absurd rfl hu
    rename_i hb
    rw [Bool.not_eq_true, badCount_false] at hb
    cases ha
    match rest, hb with
    | [n, p], _ => exact .loadGroups n p
    | [], hb => exfalso; simp only [List.length_cons, List.length_nil] at hb; omega
    | [_], hb => exfalso; simp only [List.length_cons, List.length_nil] at hb; omega
    | _ :: _ :: _ :: _, hb => exfalso; simp only [List.length_cons, List.length_nil] at hb; omega
  · cases hf
    unfold normalize at ha
    split at ha
    · cases ha; exact absurd rfl hu
    rename_i hb
    rw [Bool.not_eq_true, badCount_false] at hb
    cases ha
    match rest, hb with
    | [n], _ => exact .normalize n
    | [], hb => exfalso; simp only [List.length_cons, List.length_nil] at hb; omega
    | _ :: _ :: _, hb => exfalso; simp only [List.length_cons, List.length_nil] at hb; omega
  · cases hf
    unfold sim at ha
    split at ha
    · cases ha; exact absurd rfl hu
    rename_i hb
    rw [Bool.not_eq_true, badCount_false] at hb
    obtain ⟨x, hx, ha⟩ := res_bind ha
    match rest, hb with
    | [t, q, i], _ => cases ha; exact .sim0 t q i hx
    | [t, q, i, s], _ => cases ha; exact absurd rfl hu
    | [t, q, i, s, e], _ =>
      rw [if_pos (by rfl)] at ha
      obtain ⟨a, h5, ha⟩ := res_bind ha
      obtain ⟨b, h6, ha⟩ := res_bind ha
      cases ha
      exact .sim1 t q i s e hx h5 h6
    | [], hb => exfalso; simp only [List.length_cons, List.length_nil] at hb; omega
    | [_], hb => exfalso; simp only [List.length_cons, List.length_nil] at hb; omega
    | [_, _], hb => exfalso; simp only [List.length_cons, List.length_nil] at hb; omega
    | _ :: _ :: _ :: _ :: _ :: _ :: _, hb => exfalso; simp only [List.length_cons, List.length_nil] at hb; omega
  · exact absurd rfl h1
  · exact absurd rfl h2
  · cases hf
    unfold print at ha
    split at ha
    · cases ha; exact absurd rfl hu
    rename_i hb
    rw [Bool.not_eq_true, badCount_false] at hb
    obtain ⟨x, hx, ha⟩ := res_bind ha
    obtain ⟨a, h5, ha⟩ := res_bind ha
    obtain ⟨b, h6, ha⟩ := res_bind ha
    cases ha
    match rest, hb with
    | [n, i, s, e], _ => exact .print n i s e hx h5 h6
    | [], hb => exfalso; simp only [List.length_cons, List.length_nil] at hb; omega
    | [_], hb => exfalso; simp only [List.length_cons, List.length_nil] at hb; omega
    | [_, _], hb => exfalso; simp only [List.length_cons, List.length_nil] at hb; omega
    | [_, _, _], hb => exfalso; simp only [List.length_cons, List.length_nil] at hb; omega
    | _ :: _ :: _ :: _ :: _ :: _, hb => exfalso; simp only [List.length_cons, List.length_nil] at hb; omega

theorem process_words {P : CliEnv K} {line : String} {args : List String} {name : String} {rest : List String}
    (hw : Words line.toList (args.map String.toList)) (ha : args = name :: rest) :
    splitLine line = name :: rest := by
  unfold splitLine
  rw [words_unique hw, List.map_map, ← ha]
  have : String.ofList ∘ String.toList = id := by funext s; simp
  rw [this, List.map_id]

theorem process_run {P : CliEnv K} {line : String} {name : String} {rest : List String}
    (hs : splitLine line = name :: rest) {f : List String → Res (Action K)} (hf : (commands P).lookup name = some f) :
    processLine P line = .run (f (name :: rest)) := by
  have hcases : name ∈ (commands P).map Prod.fst := lookup_mem hf
  unfold processLine
  rw [hs]
  simp only [hf]
  simp only [commands, List.map_cons, List.map_nil, List.mem_cons, List.not_mem_nil, or_false] at hcases
  rw [if_neg, if_neg, if_neg]
  all_goals rcases hcases with rfl | rfl | rfl | rfl | rfl | rfl | rfl | rfl | rfl | rfl | rfl | rfl | rfl | rfl <;> decide

/-- No command makes a call about PAA. -/
theorem no_paa {P : CliEnv K} {name : String} {args : List String} {f : List String → Res (Action K)} {c : AnyCall K}
    (hf : (commands P).lookup name = some f) (ha : f args = .ok (.call c)) : ¬ UsesPAA c := by
  have hcases : name ∈ (commands P).map Prod.fst := lookup_mem hf
  simp only [commands, List.map_cons, List.map_nil, List.mem_cons, List.not_mem_nil, or_false] at hcases
  rcases hcases with rfl | rfl | rfl | rfl | rfl | rfl | rfl | rfl | rfl | rfl | rfl | rfl | rfl | rfl <;> cases hf
  all_goals simp only [load, save, unload, list, timer, distance, group, saveGroups, loadGroups, normalize, sim, ksim, ksimBF,
    print] at ha
  all_goals repeat' (first | (cases ha; done) | (cases ha; exact id) | split at ha | obtain ⟨_, -, ha⟩ := res_bind ha)

variable [Field K] [LinearOrder K] [HasSqrt K] [Arith K] [BandOps]

/-- A turn makes at most one call, and none about PAA. -/
theorem turn_step {E : Env K} {P : CliEnv K} {s s' : Api K} {line : String} {o : Outcome K} (h : Turn E P s line s' o) :
    (s' = s ∧ ∀ r, o ≠ .reply r) ∨ ∃ c r, ¬ UsesPAA c ∧ Step E s c s' r ∧ o = .reply r := by
  unfold Turn at h
  split at h
  · obtain ⟨rfl, rfl⟩ := h; exact .inl ⟨rfl, by simp⟩
  · rename_i c hc
    obtain ⟨r, hr, rfl⟩ := h
    refine .inr ⟨c, r, ?_, hr, rfl⟩
    unfold processLine at hc
    split at hc
    · cases hc
    split at hc
    · cases hc
    split at hc
    · cases hc
    split at hc
    · cases hc
    split at hc
    · cases hc
    · rename_i f hf
      injection hc with hc
      exact no_paa hf hc
  all_goals
    obtain ⟨rfl, rfl⟩ := h
    exact .inl ⟨rfl, by simp⟩

/-- A session is a history of calls. -/
theorem session_history {E : Env K} {s s' : Api K} {h : List (CliEnv K × String)} (hs : Session E s h s') :
    ∃ h', History E s h' s' ∧ ∀ e ∈ h', ¬ UsesPAA e.1 := by
  induction hs with
  | nil => exact ⟨[], .nil _, by simp⟩
  | snoc _ ht hg ih =>
    obtain ⟨h', hh, hn⟩ := ih
    rcases turn_step ht with ⟨rfl, -⟩ | ⟨c, r, hc, hr, rfl⟩
    · exact ⟨h', hh, hn⟩
    · refine ⟨_, .snoc hh hr hg, ?_⟩
      intro e he
      rcases List.mem_append.1 he with he | he
      · exact hn e he
      · rw [List.mem_singleton.1 he]; exact hc

end Genex.Cli
