import Verif.Spec.Terminal
import Verif.Lemmas.CliOutput
import Verif.Lemmas.Interface
import Verif.Props.Cli
import Verif.Props.CliOutput
import Verif.Props.Dataset

/-!
# Lemmas for `Props/Terminal`
-/

set_option linter.unusedSectionVars false

namespace Genex.Spec

open Genex Genex.Cli Genex.Registry Genex.Api Genex.Manual Genex.Props

section
variable {K : Type}

/-- The commands that change a dataset, and the name they are given. -/
theorem call_change {P : CliEnv K} {line : String} {a : Api.AnyCall K} (h : processLine P line = .run (.ok (.call a))) :
    match a with
    | .group n _ _ _ _ => arg (splitLine line) 0 = "group" ∧ n = arg (splitLine line) 1 ∧ 2 ≤ (splitLine line).length
    | .call (.load n _ _ _ _ _ _) => arg (splitLine line) 0 = "load" ∧ n = arg (splitLine line) 1 ∧ 2 ≤ (splitLine line).length
    | .call (.unload n) => arg (splitLine line) 0 = "unload" ∧ n = arg (splitLine line) 1 ∧ 2 ≤ (splitLine line).length
    | .call (.normalize n) => arg (splitLine line) 0 = "normalize" ∧ n = arg (splitLine line) 1 ∧ 2 ≤ (splitLine line).length
    | .call (.loadGroups n _) => arg (splitLine line) 0 = "loadGroups" ∧ n = arg (splitLine line) 1 ∧ 2 ≤ (splitLine line).length
    | .call .unloadAll => False
    | .call (.setRatio _) => False
    | .call (.loadGroupsOld _ _) => False
    | _ => True := by
  obtain ⟨f, hf, hr, -⟩ := process_command h
  have hm := lookup_mem hf
  simp only [commands, List.map_cons, List.map_nil, List.mem_cons, List.not_mem_nil, or_false] at hm
  generalize splitLine line = args at hf hr hm ⊢
  have hc : ∀ lo hi, 1 ≤ lo → ¬ badCount args lo hi = true → 2 ≤ args.length := by
    intro lo hi h1 h2
    rw [Bool.not_eq_true, badCount_false] at h2
    omega
  rcases hm with e | e | e | e | e | e | e | e | e | e | e | e | e | e <;> rw [e] at hf ⊢ <;> cases hf
  · unfold load at hr
    split at hr
    · cases hr
    rename_i hb
    obtain ⟨_, -, hr⟩ := res_bind hr
    obtain ⟨_, -, hr⟩ := res_bind hr
    obtain ⟨_, -, hr⟩ := res_bind hr
    cases hr
    exact ⟨rfl, rfl, hc _ _ (by norm_num) hb⟩
  · unfold save at hr
    split at hr <;> cases hr
    trivial
  · unfold unload at hr
    split at hr <;> cases hr
    rename_i hb
    exact ⟨rfl, rfl, hc _ _ (by norm_num) hb⟩
  · unfold list at hr
    split at hr
    · cases hr
    split at hr
    · cases hr; trivial
    split at hr <;> cases hr
    trivial
  · unfold timer at hr
    split at hr
    · cases hr
    split at hr
    · cases hr
    split at hr
    · cases hr
    split at hr <;> cases hr
  · unfold distance at hr
    split at hr
    · cases hr
    obtain ⟨_, -, hr⟩ := res_bind hr
    obtain ⟨_, -, hr⟩ := res_bind hr
    obtain ⟨_, -, hr⟩ := res_bind hr
    obtain ⟨_, -, hr⟩ := res_bind hr
    obtain ⟨_, -, hr⟩ := res_bind hr
    obtain ⟨_, -, hr⟩ := res_bind hr
    cases hr
    trivial
  · unfold group at hr
    split at hr
    · cases hr
    rename_i hb
    obtain ⟨_, -, hr⟩ := res_bind hr
    cases hr
    exact ⟨rfl, rfl, hc _ _ (by norm_num) hb⟩
  · unfold saveGroups at hr
    split at hr
    · cases hr
    obtain ⟨_, -, hr⟩ := res_bind hr
    split at hr <;> cases hr <;> trivial
  · unfold loadGroups at hr
    split at hr <;> cases hr
    rename_i hb
    exact ⟨rfl, rfl, hc _ _ (by norm_num) hb⟩
  · unfold normalize at hr
    split at hr <;> cases hr
    rename_i hb
    exact ⟨rfl, rfl, hc _ _ (by norm_num) hb⟩
  · unfold sim at hr
    split at hr
    · cases hr
    obtain ⟨_, -, hr⟩ := res_bind hr
    split at hr
    · obtain ⟨_, -, hr⟩ := res_bind hr
      obtain ⟨_, -, hr⟩ := res_bind hr
      cases hr
      trivial
    split at hr <;> cases hr
    trivial
  · unfold ksim at hr
    split at hr
    · cases hr
    obtain ⟨_, -, hr⟩ := res_bind hr
    obtain ⟨_, -, hr⟩ := res_bind hr
    obtain ⟨_, -, hr⟩ := res_bind hr
    cases hr
    trivial
  · unfold ksimBF at hr
    split at hr
    · cases hr
    obtain ⟨_, -, hr⟩ := res_bind hr
    obtain ⟨_, -, hr⟩ := res_bind hr
    obtain ⟨_, -, hr⟩ := res_bind hr
    cases hr
    trivial
  · unfold print at hr
    split at hr
    · cases hr
    obtain ⟨_, -, hr⟩ := res_bind hr
    obtain ⟨_, -, hr⟩ := res_bind hr
    obtain ⟨_, -, hr⟩ := res_bind hr
    cases hr
    trivial

/-- The first two words of a line. -/
theorem words_two {line cmd name : String} (h0 : arg (splitLine line) 0 = cmd) (h1 : name = arg (splitLine line) 1)
    (h2 : 2 ≤ (splitLine line).length) : ∃ ws, Words line.toList (cmd.toList :: name.toList :: ws) := by
  have hw := tokens_words line.toList
  unfold splitLine at h0 h1 h2
  match ht : Cli.tokens line.toList [], h2 with
  | [], h2 => simp [ht] at h2
  | [_], h2 => simp [ht] at h2
  | a :: b :: ws, _ =>
    rw [ht] at h0 h1 hw
    simp only [arg, List.map_cons, List.getD_cons_zero, List.getD_cons_succ] at h0 h1
    subst h0 h1
    refine ⟨ws, ?_⟩
    simpa using hw

end

section
variable {K : Type} [Field K] [LinearOrder K] [HasSqrt K] [Arith K] [BandOps]

theorem changes_touches {P : CliEnv K} {line : String} {T : Text} {a : AnyCall K} {name : String}
    (h : processLine P line = .run (.ok (.call a)))
    (ht : ¬ Entered.Touches ["load", "unload", "normalize", "group", "loadGroups"] name (⟨P, line, T⟩ : Entered K)) :
    ¬ (Changes a ∧ (name ∈ named a ∨ a = .call .unloadAll)) := by
  rintro ⟨h1, h2⟩
  have hc := call_change h
  refine ht ?_
  match a, h, h1, h2, hc with
  | .group n _ _ _ _, _, _, h2, hc => 
    simp only [named, List.mem_singleton, reduceCtorEq, or_false] at h2
    obtain ⟨c0, c1, c2⟩ := hc
    exact ⟨"group", by simp, words_two c0 (h2.trans c1) c2⟩
  | .call (.load n _ _ _ _ _ _), _, _, h2, hc =>
    simp only [named, List.mem_singleton, AnyCall.call.injEq, reduceCtorEq, or_false] at h2
    obtain ⟨c0, c1, c2⟩ := hc
    exact ⟨"load", by simp, words_two c0 (h2.trans c1) c2⟩
  | .call (.unload n), _, _, h2, hc =>
    simp only [named, List.mem_singleton, AnyCall.call.injEq, reduceCtorEq, or_false] at h2
    obtain ⟨c0, c1, c2⟩ := hc
    exact ⟨"unload", by simp, words_two c0 (h2.trans c1) c2⟩
  | .call (.normalize n), _, _, h2, hc =>
    simp only [named, List.mem_singleton, AnyCall.call.injEq, reduceCtorEq, or_false] at h2
    obtain ⟨c0, c1, c2⟩ := hc
    exact ⟨"normalize", by simp, words_two c0 (h2.trans c1) c2⟩
  | .call (.loadGroups n _), _, _, h2, hc =>
    simp only [named, List.mem_singleton, AnyCall.call.injEq, reduceCtorEq, or_false] at h2
    obtain ⟨c0, c1, c2⟩ := hc
    exact ⟨"loadGroups", by simp, words_two c0 (h2.trans c1) c2⟩
  | .call .unloadAll, _, _, _, hc => exact hc.elim
  | .call (.loadGroupsOld _ _), _, _, _, hc => exact hc.elim

theorem changesData_touches {P : CliEnv K} {line : String} {T : Text} {a : AnyCall K} {name : String}
    (h : processLine P line = .run (.ok (.call a)))
    (ht : ¬ Entered.Touches ["load", "unload", "normalize"] name (⟨P, line, T⟩ : Entered K)) : ¬ ChangesData name a := by
  intro h1
  have hc := call_change h
  refine ht ?_
  match a, h, h1, hc with
  | .call (.load n _ _ _ _ _ _), _, h1, hc =>
    obtain ⟨c0, c1, c2⟩ := hc
    exact ⟨"load", by simp, words_two c0 (h1.symm.trans c1) c2⟩
  | .call (.unload n), _, h1, hc =>
    obtain ⟨c0, c1, c2⟩ := hc
    exact ⟨"unload", by simp, words_two c0 (h1.symm.trans c1) c2⟩
  | .call (.normalize n), _, h1, hc =>
    obtain ⟨c0, c1, c2⟩ := hc
    exact ⟨"normalize", by simp, words_two c0 (h1.symm.trans c1) c2⟩
  | .call .unloadAll, _, _, hc => exact hc.elim

/-- What a line does, if something is printed. -/
theorem says_step {E : Env K} {P : CliEnv K} {c c' : Console K} {line : String} {ps : List (Piece K)} {o : Outcome K}
    (h : Says E P c line c' ps o) :
    c'.api = c.api ∨ ∃ a r, processLine P line = .run (.ok (.call a)) ∧ Api.Step E c.api a c'.api r ∧ o = .reply r ∧ Survives r := by
  obtain ⟨h1, h2⟩ := h
  unfold Turn at h1
  split at h1
  · exact .inl h1.1
  · rename_i a ha
    obtain ⟨r, hr, rfl⟩ := h1
    refine .inr ⟨a, r, ha, hr, rfl, ?_⟩
    unfold output at h2
    rw [ha] at h2
    dsimp only at h2
    split at h2
    · rename_i he; cases he; trivial
    · rename_i e he
      cases he
      cases e with
      | genex => trivial
      | std => trivial
      | ub => simp [message] at h2
      | diverge => simp [message] at h2
    · cases h2
  · exact .inl h1.1
  · exact .inl h1.1

/-- A session at the terminal is a history of calls, each from a line. -/
theorem terminal_history {E : Env K} {S : Screen K} {c d : Console K} {h : List (Entered K)} (ht : Terminal E S c h d) :
    ∃ H, History E c.api H d.api ∧ ∀ x ∈ H, ∃ e ∈ h, processLine e.env e.line = .run (.ok (.call x.1)) := by
  induction ht with
  | nil => exact ⟨[], .nil _, by simp⟩
  | @snoc d e h P line ps o _ _ hs _ ih =>
    obtain ⟨H, hh, hx⟩ := ih
    rcases says_step hs with he | ⟨a, r, ha, hr, rfl, hsv⟩
    · refine ⟨H, he ▸ hh, ?_⟩
      intro x hm
      obtain ⟨y, hy, hp⟩ := hx x hm
      exact ⟨y, List.mem_append_left _ hy, hp⟩
    · refine ⟨_, .snoc hh hr hsv, ?_⟩
      intro x hm
      rcases List.mem_append.1 hm with hm | hm
      · obtain ⟨y, hy, hp⟩ := hx x hm
        exact ⟨y, List.mem_append_left _ hy, hp⟩
      · rw [List.mem_singleton.1 hm]
        exact ⟨_, List.mem_append_right _ (List.mem_singleton.2 rfl), ha⟩

theorem terminal_split {E : Env K} {S : Screen K} {c d : Console K} {h₁ h₂ : List (Entered K)} (ht : Terminal E S c (h₁ ++ h₂) d) :
    ∃ b, Terminal E S c h₁ b ∧ Terminal E S b h₂ d := by
  generalize hh : h₁ ++ h₂ = h at ht
  induction ht generalizing h₂ with
  | nil =>
    obtain ⟨rfl, rfl⟩ := List.append_eq_nil_iff.1 hh
    exact ⟨_, .nil _, .nil _⟩
  | @snoc d e h P line ps o hprev hl hs ho ih =>
    rcases List.eq_nil_or_concat h₂ with rfl | ⟨h₂', x, rfl⟩
    · rw [List.append_nil] at hh
      subst hh
      exact ⟨_, .snoc hprev hl hs ho, .nil _⟩
    · rw [List.concat_eq_append, ← List.append_assoc] at hh
      obtain ⟨e1, e2⟩ := List.append_inj' hh rfl
      obtain ⟨b, hb1, hb2⟩ := ih e1
      refine ⟨b, hb1, ?_⟩
      rw [List.concat_eq_append, e2]
      exact .snoc hb2 hl hs ho

theorem terminal_one {E : Env K} {S : Screen K} {c d : Console K} {e : Entered K} (ht : Terminal E S c [e] d) :
    '\n' ∉ e.line.toList ∧ ∃ ps o, Says E e.env c e.line d ps o ∧ o ≠ .ended ∧ e.text = Piece.texts S ps := by
  generalize hh : [e] = h at ht
  cases ht with
  | nil => cases hh
  | @snoc d' _ h' P line ps o hprev hl hs ho =>
    have := congrArg List.length hh
    simp only [List.length_singleton, List.length_append] at this
    have h0 : h' = [] := List.length_eq_zero_iff.1 (by omega)
    subst h0
    cases hh
    generalize hh : ([] : List (Entered K)) = h at hprev
    cases hprev with
    | nil => exact ⟨hl, ps, o, hs, ho, rfl⟩
    | snoc => exact absurd (congrArg List.length hh) (by simp)

/-- A line that is a call and shows no error: the call has returned. -/
theorem fine_returns {E : Env K} {S : Screen K} (hS : S.progress = [] ∨ S.progress.getLast? = some '\n') {c d : Console K} {e : Entered K}
    {a : AnyCall K} (ht : Terminal E S c [e] d) (hp : processLine e.env e.line = .run (.ok (.call a))) (hf : e.Fine) :
    ∃ out, Api.Step E c.api a d.api (.ret (.ok out)) := by
  obtain ⟨-, ps, o, hs, -, htx⟩ := terminal_one ht
  have hs' := hs
  obtain ⟨h1, h2⟩ := hs
  unfold Turn at h1
  rw [hp] at h1
  obtain ⟨r, hr, rfl⟩ := h1
  unfold output at h2
  rw [hp] at h2
  dsimp only at h2
  split at h2
  · rename_i out he
    cases he
    exact ⟨out, hr⟩
  · rename_i f he
    cases he
    refine absurd ?_ hf
    unfold Entered.Fine at *
    rw [htx]
    exact says_error hS (.inr rfl) hs'
  · cases h2

theorem usage_runs {e : Entered K} {args : List String} {a : Action K} (ht : e.Typed args) (hu : Usage e.env args a)
    (hd : ∀ r, args ≠ "distance" :: r) : processLine e.env e.line = .run (.ok a) :=
  C63_usage_partial e.env e.line args a ht hu (fun r hr => absurd hr (hd r))

theorem usage_load {P : CliEnv K} {args : List String} {n : String} {f : Option Text} {p : Text} {sep : List Char} {r k : Int} {b : Bool}
    (hu : Usage P args (.call (.call (.load n f p sep r k b)))) : ∀ r, args ≠ "distance" :: r := by
  intro r hr
  generalize ha : Action.call (AnyCall.call (Call.load n f p sep _ k b)) = A at hu
  cases hu <;> first | (simp at hr; done) | cases ha

theorem usage_group {P : CliEnv K} {args : List String} {n d : String} {t : Dbl K} {k : Int} {b : Bool}
    (hu : Usage P args (.call (.group n t d k b))) : ∀ r, args ≠ "distance" :: r := by
  intro r hr
  generalize ha : Action.call (AnyCall.group n t d k b) = A at hu
  cases hu <;> first | (simp at hr; done) | cases ha

theorem usage_best {P : CliEnv K} {args : List String} {n d : String} {i a b : Int}
    (hu : Usage P args (.call (.call (.bestMatch n d i a b)))) : ∀ r, args ≠ "distance" :: r := by
  intro r hr
  generalize ha : Action.call (AnyCall.call (Call.bestMatch n d i a b)) = A at hu
  cases hu <;> first | (simp at hr; done) | cases ha

theorem usage_series {P : CliEnv K} {args : List String} {n : String} {i a b : Int}
    (hu : Usage P args (.call (.call (.series n i a b)))) : ∀ r, args ≠ "distance" :: r := by
  intro r hr
  generalize ha : Action.call (AnyCall.call (Call.series n i a b)) = A at hu
  cases hu <;> first | (simp at hr; done) | cases ha

theorem usage_brute {P : CliEnv K} {args : List String} {n d dist : String} {k i a b : Int}
    (hu : Usage P args (.call (.call (.bruteForce k n d i a b dist)))) : (∀ r, args ≠ "distance" :: r) ∧ dist = "euclidean" := by
  constructor
  · intro r hr
    generalize ha : Action.call (AnyCall.call (Call.bruteForce k n d i a b dist)) = A at hu
    cases hu <;> first | (simp at hr; done) | cases ha
  · generalize ha : Action.call (AnyCall.call (Call.bruteForce k n d i a b dist)) = A at hu
    cases hu <;> cases ha <;> rfl

theorem loadedBy_loaded {E : Env K} {S : Screen K} (hS : S.progress = [] ∨ S.progress.getLast? = some '\n') {c : Console K}
    {h : List (Entered K)} (ht : Terminal E S Console.fresh h c) {name : String} {rows : List (List K)} (hl : LoadedBy E name h rows) :
    Loaded E name rows c.api := by
  induction hl generalizing c with
  | @load h₁ h₂ e args content path sep mr sc hn rows hty hu hfile hfine hkeep =>
    obtain ⟨b, hb, hr⟩ := terminal_split ht
    rw [← List.singleton_append] at hr
    obtain ⟨b', he, hr⟩ := terminal_split hr
    have hp := usage_runs hty hu (usage_load hu)
    obtain ⟨out, hst⟩ := fine_returns hS he hp hfine
    obtain ⟨H, hH, -⟩ := terminal_history hb
    obtain ⟨H', hH', hx⟩ := terminal_history hr
    refine .mk (s₁ := b'.api) hH hfile (path := path) (o := out) hst hH' ?_
    intro x hm
    obtain ⟨y, hy, hpy⟩ := hx x hm
    exact changesData_touches (T := y.text) hpy (hkeep y hy)
  | @normalize h₁ h₂ e raw rows hb0 hty hs hfine hkeep ih =>
    obtain ⟨b, hb, hr⟩ := terminal_split ht
    rw [← List.singleton_append] at hr
    obtain ⟨b', he, hr⟩ := terminal_split hr
    have hp := usage_runs hty (.normalize name) (by simp)
    obtain ⟨out, hst⟩ := fine_returns hS he hp hfine
    obtain ⟨H', hH', hx⟩ := terminal_history hr
    refine .normalised (s₁ := b'.api) (ih hb) hs (o := out) hst hH' ?_
    intro x hm
    obtain ⟨y, hy, hpy⟩ := hx x hm
    exact changesData_touches (T := y.text) hpy (hkeep y hy)

theorem groupedBy_grouped {E : Env K} {S : Screen K} (hS : S.progress = [] ∨ S.progress.getLast? = some '\n') {c : Console K}
    {h : List (Entered K)} (ht : Terminal E S Console.fresh h c) {name : String} {rows : List (List K)} {dist : String} {t : Dbl K}
    (hg : GroupedBy E h name rows dist t) : Registry.Grouped E name rows dist t false c.api := by
  obtain ⟨h₁, h₂, e, args, threads, rfl, hl, hty, hu, hfine, hkeep⟩ := hg
  obtain ⟨b, hb, hr⟩ := terminal_split ht
  rw [← List.singleton_append] at hr
  obtain ⟨b', he, hr⟩ := terminal_split hr
  have hp := usage_runs hty hu (usage_group hu)
  obtain ⟨out, hst⟩ := fine_returns hS he hp hfine
  obtain ⟨H', hH', hx⟩ := terminal_history hr
  refine .mk (loadedBy_loaded hS hb hl) hst hH' ?_
  intro x hm
  obtain ⟨y, hy, hpy⟩ := hx x hm
  exact changes_touches (T := y.text) hpy (hkeep y hy)

theorem terminal_ratio {E : Env K} {S : Screen K} {c : Console K} {h : List (Entered K)} (ht : Terminal E S Console.fresh h c) :
    c.api.ratio = cliBand := by
  generalize hc : Console.fresh = c₀ at ht
  induction ht with
  | nil => subst hc; rfl
  | snoc _ _ hs _ ih =>
    rcases says_step hs with he | ⟨a, r, ha, hr, rfl, hsv⟩
    · rw [he]; exact ih
    · rw [step_ratio hr]
      · exact ih
      · rintro z rfl
        exact call_change ha

theorem terminal_timer {E : Env K} {S : Screen K} {c : Console K} {h : List (Entered K)} (ht : Terminal E S Console.fresh h c)
    (hn : ∀ l ∈ h, ¬ Starts l.line "timer") : c.timer = true := by
  generalize hc : Console.fresh = c₀ at ht
  induction ht with
  | nil => subst hc; rfl
  | @snoc d e h P line ps o _ _ hs _ ih =>
    rw [(says_state hs).2.resolve_right (hn ⟨P, line, Piece.texts S ps⟩ (by simp))]
    exact ih (fun l hl => hn l (by simp [hl]))

theorem terminal_digits {E : Env K} {S : Screen K} {c : Console K} {h : List (Entered K)} (ht : Terminal E S Console.fresh h c) :
    c.digits ∈ [4, 6, 16] := by
  generalize hc : Console.fresh = c₀ at ht
  induction ht with
  | nil => subst hc; exact (by decide : (6 : ℕ) ∈ [4, 6, 16])
  | snoc _ _ hs _ ih =>
    rcases (says_state hs).1 with h | ⟨-, h, -⟩ | ⟨h, -⟩
    · rw [h]; exact ih
    · rw [h]; decide
    · rw [h]; decide

/-- `normalize` says nothing that looks like an error. -/
theorem normalize_fine {S : Screen K} {c : Console K} {P : CliEnv K} {line name : String} (hline : '\n' ∉ line.toList)
    (hw : Words line.toList (["normalize", name].map String.toList)) {x : Dbl K × Dbl K} :
    (⟨P, line, Piece.texts S (before (.call (.normalize name)) ++
      (report c.timer c.digits (splitLine line) (.call (.normalize name)) (.pair x)).1 ++ [.endl])⟩ : Entered K).Fine := by
  rintro ⟨l, hm, hpre⟩
  have hn : '\n' ∉ name.toList := by
    have := arg_line hline 1
    rwa [process_words (P := P) hw rfl] at this
  have ht : Piece.texts S (before (.call (.normalize name)) ++ (report c.timer c.digits (splitLine line) (.call (.normalize name))
      (.pair x)).1 ++ [.endl]) = ("Dataset ".toList ++ (name.toList ++ " is now normalized".toList)) ++ '\n' :: ['\n'] := by
    simp only [before, report]
    generalize " is now normalized" = s1
    generalize "Dataset " = s2
    simp [Piece.texts, Piece.text]
  dsimp only at hm
  have hd : '\n' ∉ "Dataset ".toList ++ (name.toList ++ " is now normalized".toList) := by
    rw [List.mem_append, List.mem_append, not_or, not_or]
    exact ⟨by decide, hn, by decide⟩
  rw [ht, textLines_app hd] at hm
  simp only [textLines, ite_true, List.mem_cons, List.not_mem_nil, or_false, or_self] at hm
  rcases hm with rfl | rfl
  · obtain ⟨r, hr⟩ := hpre
    have h1 : some 'E' = some 'D' := congrArg List.head? hr
    exact absurd h1 (by decide)
  · exact absurd hpre (by decide)

end

section

open Genex.Props

variable {K : Type} [Field K] [LinearOrder K] [IsStrictOrderedRing K] [HasSqrt K] [BandOps]

theorem asks_query {E : Env K} {S : Screen K} (hS : S.progress = [] ∨ S.progress.getLast? = some '\n') {c : Console K}
    {h : List (Entered K)} (ht : Terminal E S Console.fresh h c) {name : String} {i a b : Int} {q : List K}
    (hq : Asks E h name i a b q) : Query E c.api name i a b q := by
  obtain ⟨rows, n, r, hl, rfl, hr, hrange⟩ := hq
  have hL := loadedBy_loaded hS ht hl
  obtain ⟨g, hg, H, -⟩ := hL.data
  obtain ⟨id, h1, h2⟩ := hL.inv.holds.1 hg
  refine ⟨c.api, ?_⟩
  simp only [exec]
  rw [withSet_some h1 h2]
  have hr' : (rows.map (·.map Dbl.fin))[n]? = some (r.map .fin) := by rw [List.getElem?_map, hr]; rfl
  have : queryOf g n a b = .ok (q.map .fin) := by
    unfold queryOf
    rcases hrange with ⟨rfl, rfl, rfl⟩ | ⟨p, e, rfl, rfl, hpe, her, rfl⟩
    · obtain ⟨v, hv, -, hpts⟩ := C22_whole g.ds _ H n _ hr'
      rw [hv]
      exact hpts
    · obtain ⟨v, hv, -, hpts, -⟩ := C22_slice g.ds _ H n _ hr' p e hpe (by simpa using her)
      rw [hv]
      simp only [bind, Except.bind]
      rw [hpts, List.map_take, List.map_drop]
  rw [this]
  rfl

end

end Genex.Spec
