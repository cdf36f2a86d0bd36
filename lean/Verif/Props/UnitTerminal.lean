import Verif.Lemmas.UnitTerminal
import Verif.Props.UnitGroups

/-!
# C119: the same place in other units, at the terminal
-/

set_option linter.unusedSectionVars false

namespace Genex.Props

open Dbl Api Registry Spec Cli Manual

section

variable {K : Type} [Field K] [LinearOrder K] [IsStrictOrderedRing K] [HasSqrt K]

/-- The line `sim` shows what the search finds. -/
theorem sim_shows {E : Env K} {S : Screen K} (hS : Tidy S) (hP : S.progress = [] ∨ S.progress.getLast? = some '\n') {h : List (Entered K)}
    {e : Entered K} {b c : Console K} (hb : Terminal E S Console.fresh h b) (he : Terminal E S b [e] c) {name : String} {z : GSet K}
    (hz : Registry.Holds b.api name z) {qname : String} {index a i : Int} {q : List K} (hq : Asks E h qname index a i q)
    {args : List String} (hty : e.Typed args) (hu : Usage e.env args (.call (.call (.bestMatch name qname index a i)))) {r : Cand K}
    (hr : z.getBestMatch cliBand (q.map fin) = .ok r) :
    bestIn e.text = [(r.view.index, r.view.start, r.view.stop)] ∧
      afterWords "Distance = " e.text = [S.num (if b.timer then 4 else b.digits) r.dist] := by
  obtain ⟨hl, ps, o, hsay, -, htx⟩ := terminal_one he
  have hp := usage_runs hty hu (usage_best hu)
  have hc := best_exec (E := E) (terminal_kept hb) (asks_query hP hb hq) hz
  rw [terminal_ratio hb, hr] at hc
  have ho : o = .reply (.ret (.ok (.cand r))) := by
    obtain ⟨t1, -⟩ := hsay
    unfold Turn at t1
    rw [hp] at t1
    obtain ⟨r', hr', rfl⟩ := t1
    have hr'' : b.api.exec E (.bestMatch name qname index a i) = (c.api, r') := hr'
    rw [hc] at hr''
    exact congrArg Outcome.reply (congrArg Prod.snd hr'').symm
  subst ho
  rw [htx]
  exact C110_sim E e.env S hS b c e.line hl name qname index a i ps r hp hsay

/-- C119: two sessions in which the lines of a file have been loaded and grouped, the numbers of one in another unit than those of the other,
and the threshold as well: `sim` names the same place in both, and the distances shown are the texts of the same distance in the two units.
What is typed besides, the names of the datasets and the numbers of threads may differ. -/
theorem C119_sim (E : Env K) (S : Screen K) (hS : Tidy S) (hP : S.progress = [] ∨ S.progress.getLast? = some '\n') (h h' : List (Entered K))
    (e e' : Entered K) (c c' : Console K) (ht : Terminal E S Console.fresh (h ++ [e]) c) (ht' : Terminal E S Console.fresh (h' ++ [e']) c')
    (s u : K) (hs0 : s ≠ 0) (name name' : String) (rows rows' : List (List K)) (hrows : ConvertedAll s u rows rows') (m : Metric)
    (hm : m ≠ .sorensen ∧ m ≠ .cosine) (hs : m = .euclidean → LawfulSqrt K) (τ : K) (hg : GroupedWholly E h name rows (metricName m) (fin τ))
    (hg' : GroupedWholly E h' name' rows' (metricName m) (fin (|s| * τ)))
    (qname qname' : String) (index a b index' a' b' : Int) (q q' : List K) (hq : Asks E h qname index a b q)
    (hq' : Asks E h' qname' index' a' b' q') (hqq : Converted s u q q') (h2 : 2 ≤ q.length) (hrow : ∃ r ∈ rows, q.length ≤ r.length)
    (args args' : List String) (hty : e.Typed args) (hty' : e'.Typed args')
    (hu : Usage e.env args (.call (.call (.bestMatch name qname index a b))))
    (hu' : Usage e'.env args' (.call (.call (.bestMatch name' qname' index' a' b')))) :
    ∃ (i p ℓ : ℕ) (y : List K) (x : K) (d d' : ℕ), bestIn e.text = [((i : Int), (p : Int), (p : Int) + ℓ)] ∧ bestIn e'.text = bestIn e.text ∧
      SubOf rows ℓ i p y ∧ Dtw m cliBand q y (fin x) ∧
      afterWords "Distance = " e.text = [S.num d (fin x)] ∧ afterWords "Distance = " e'.text = [S.num d' (fin (|s| * x))] := by
  obtain ⟨k, hk, he⟩ := terminal_split ht
  obtain ⟨k', hk', he'⟩ := terminal_split ht'
  obtain ⟨z, log, n, out, N, H, hmax, ho, hN, hz⟩ := wholly_object hP hk hg
  obtain ⟨z', log', n', out', N', H', hmax', ho', hN', hz'⟩ := wholly_object hP hk' hg'
  have hr0 : (0 : ℚ) ≤ cliBand := by norm_num [cliBand]
  have h0 : 0 ≤ z.ds.maxCol := by rw [hmax]; exact Int.natCast_nonneg _
  have hR : Ready (rows.map (·.map fin)) (metricName m) (fin τ) false out.1 := .grouped z H h0 cliBand log n out ho N hN
  obtain ⟨⟨v, w⟩, hv⟩ := C34_returns out.1 rows cliBand hr0 m hm hs (fin τ) false hR q h2 (.inl ⟨rfl, hrow⟩)
  obtain ⟨x, rfl, hv'⟩ := (C119_place z z' rows rows' H H' (by rw [hmax, hmax', longest_converted hrows]) s u hs0 hrows m hm hs cliBand τ false
    log log' n n' out out' ho ho' N N' hN hN' (by obtain ⟨r, hr, hl⟩ := hrow; exact ⟨r, hr, by omega⟩) cliBand hr0 q q' hqq h2).1 v w hv
  obtain ⟨g1, g2⟩ := sim_shows hS hP hk he hz hq hty hu hv
  obtain ⟨g1', g2'⟩ := sim_shows hS hP hk' he' hz' hq' hty' hu' hv'
  obtain ⟨ℓ, i, p, y, x', -, j2, j3, -, j5, j6⟩ := C34_best_match out.1 rows cliBand hr0 m hm hs (fin τ) false hR q _ hv
  simp only at j3 j5 j6
  refine ⟨i, p, ℓ, y, x, _, _, ?_, ?_, j2, j5, g2, g2'⟩
  · rw [g1, j3]; rfl
  · rw [g1', g1]

end

/-! ## Two sessions -/

/-- The file in a unit of a tenth. -/
def exTenShow : CliEnv ℚ := { exShow with text := fun p => if p = "g" then some "10 10 10\n10 10 20".toList else none }

def exTenLoadCall : AnyCall ℚ := .call (.load "d" (some "10 10 10\n10 10 20".toList) ['g'] [' '] 0 0 false)

def exTenLoaded : Api ℚ := ((fresh : Api ℚ).exec exEnv (.load "d" (some "10 10 10\n10 10 20".toList) ['g'] [' '] 0 0 false)).1

def exTenLoad : Entered ℚ := ⟨exTenShow, "load d g", Piece.texts exScreen
  (before exTenLoadCall ++ (report true 6 (splitLine "load d g") exTenLoadCall (.info ⟨"d", 2, 3, false, false, "", 0⟩)).1 ++ [.endl])⟩

theorem exTenLoad_says : Terminal exEnv exScreen Console.fresh [exTenLoad] ⟨exTenLoaded, true, 6⟩ := by
  have h := says_call exEnv exTenShow Console.fresh "load d g" exTenLoadCall exTenLoaded (.info ⟨"d", 2, 3, false, false, "", 0⟩) rfl (by
    rw [← infoOf_some (r := ((fresh : Api ℚ).exec exEnv (.load "d" (some "10 10 10\n10 10 20".toList) ['g'] [' '] 0 0 false)).2) (by decide +kernel)]
    rfl)
  exact .snoc (h := []) (.nil _) (by decide) h (by simp)

/-- Grouped with the threshold in that unit. -/
def exTenGrouped : Api ℚ × Reply ℚ :=
  match exTenLoaded.deref 0 with
  | none => (exTenLoaded, .dangling)
  | some g =>
    let out := g.groupAllLengths (GSpace.group g.ds exTenLoaded.ratio (fun _ => false) "chebyshev" (fin 10) false)
      (fun gs => (gs, .ok 0)) 1
    (exTenLoaded.store 0 out.1, .ret (out.2.map .int))

theorem exTenGrouped_step : Api.Step exEnv exTenLoaded (.group "d" (fin 10) "chebyshev" 1 false) exTenGrouped.1 exTenGrouped.2 := by
  have hf : mapFind exTenLoaded.datasets "d" = some 0 := by decide +kernel
  obtain ⟨g, hg⟩ : ∃ g, exTenLoaded.deref 0 = some g := Option.isSome_iff_exists.1 (by decide +kernel)
  unfold Api.Step GroupCall exTenGrouped
  simp only [hf, hg]
  exact ⟨fun _ => false, _, ⟨_, fun h => by omega, rfl⟩, rfl, rfl⟩

def exTenGroupCall : AnyCall ℚ := .group "d" (fin 10) "chebyshev" 1 false

def exTenGroup : Entered ℚ := ⟨exTenShow, "group d 10 chebyshev", Piece.texts exScreen
  (before exTenGroupCall ++ (report true 6 (splitLine "group d 10 chebyshev") exTenGroupCall (.int 4)).1 ++ [.endl])⟩

theorem exTenGroup_says : Terminal exEnv exScreen Console.fresh [exTenLoad, exTenGroup] ⟨exTenGrouped.1, true, 4⟩ := by
  have h := says_call exEnv exTenShow ⟨exTenLoaded, true, 6⟩ "group d 10 chebyshev" exTenGroupCall exTenGrouped.1 (.int 4) rfl (by
    rw [← intOf_some (r := exTenGrouped.2) (by decide +kernel)]
    exact exTenGrouped_step)
  exact .snoc (h := [exTenLoad]) exTenLoad_says (by decide) h (by simp)

def exTenSim : Entered ℚ := ⟨exTenShow, "sim d d 1 1 3", Piece.texts exScreen
  (before exSimCall ++ (report true 4 (splitLine "sim d d 1 1 3") exSimCall (.cand ⟨⟨3, 1, 1, 3⟩, fin 0⟩)).1 ++ [.endl])⟩

theorem exTenSim_says : Terminal exEnv exScreen Console.fresh ([exTenLoad, exTenGroup] ++ [exTenSim]) ⟨exTenGrouped.1, true, 4⟩ := by
  have h := says_call exEnv exTenShow ⟨exTenGrouped.1, true, 4⟩ "sim d d 1 1 3" exSimCall exTenGrouped.1 (.cand ⟨⟨3, 1, 1, 3⟩, fin 0⟩) rfl (by
    show exTenGrouped.1.exec exEnv _ = _
    rw [← candOf_some (r := (exTenGrouped.1.exec exEnv (.bestMatch "d" "d" 1 1 3)).2) (by decide +kernel)]
    rfl)
  exact .snoc exTenGroup_says (by decide) h (by simp)

def exTenRows : List (List ℚ) := [[10, 10, 10], [10, 10, 20]]

theorem exTen_file : FileHas exEnv.parse "10 10 10\n10 10 20".toList [' '] 0 0 false exTenRows :=
  ⟨by decide, by decide +kernel, by decide +kernel⟩

theorem exTen_fine : exTenLoad.Fine ∧ exTenGroup.Fine := by
  unfold Entered.Fine HasLine
  decide +kernel

theorem exTerm_wholly : GroupedWholly exEnv [exEnterLoad, exEnterGroup] "d" exTermRows (metricName .chebyshev) (fin 1) :=
  ⟨[], [], [], exEnterLoad, exEnterGroup, ["load", "d", "g"], ["group", "d", "1", "chebyshev"], "1 1 1\n1 1 2".toList, ['g'], [' '], 0, 0, false, 1,
    rfl, tokens_words "load d g".toList, .load0 "d" "g", le_rfl, exTerm_file, exTerm_fine.1, by simp,
    tokens_words "group d 1 chebyshev".toList, .group1 "d" "1" "chebyshev" rfl, exTerm_fine.2, by simp⟩

theorem exTen_wholly : GroupedWholly exEnv [exTenLoad, exTenGroup] "d" exTenRows (metricName .chebyshev) (fin (|10| * 1)) := by
  rw [show |(10 : ℚ)| * 1 = 10 by norm_num]
  exact ⟨[], [], [], exTenLoad, exTenGroup, ["load", "d", "g"], ["group", "d", "10", "chebyshev"], "10 10 10\n10 10 20".toList, ['g'], [' '], 0, 0,
    false, 1, rfl, tokens_words "load d g".toList, .load0 "d" "g", le_rfl, exTen_file, exTen_fine.1, by simp,
    tokens_words "group d 10 chebyshev".toList, .group1 "d" "10" "chebyshev" rfl, exTen_fine.2, by simp⟩

theorem exTen_untouched : ¬ exTenGroup.Touches ["load", "unload", "normalize"] "d" := by
  rintro ⟨cmd, hc, ws, hw⟩
  have : (Cli.tokens exTenGroup.line.toList []).head? = some cmd.toList := by rw [words_unique hw]; rfl
  simp only [List.mem_cons, List.not_mem_nil, or_false] at hc
  rcases hc with rfl | rfl | rfl <;> exact absurd this (by decide)

theorem exTen_asks : Asks exEnv [exTenLoad, exTenGroup] "d" 1 1 3 [10, 20] :=
  ⟨exTenRows, 1, [10, 10, 20], .load (h₁ := []) (args := ["load", "d", "g"]) (startCol := 0) (tokens_words "load d g".toList) (.load0 "d" "g")
    exTen_file exTen_fine.1 (by simpa using exTen_untouched), rfl, rfl, .inr ⟨1, 3, rfl, rfl, by decide, by decide, rfl⟩⟩

example := C119_sim exEnv exScreen exScreen_tidy (.inl rfl) _ _ _ _ _ _ exEnterSim_says exTenSim_says 10 0 (by norm_num) "d" "d" exTermRows exTenRows
  (by simp [ConvertedAll, Converted, exTermRows, exTenRows]; norm_num) .chebyshev (by decide) (by simp) 1 exTerm_wholly exTen_wholly
  "d" "d" 1 1 3 1 1 3 [1, 2] [10, 20] exTerm_asks exTen_asks (by simp [Converted]; norm_num) (by decide) ⟨[1, 1, 1], by simp [exTermRows], by decide⟩
  ["sim", "d", "d", "1", "1", "3"] ["sim", "d", "d", "1", "1", "3"] (tokens_words "sim d d 1 1 3".toList) (tokens_words "sim d d 1 1 3".toList)
  (.sim1 "d" "d" "1" "1" "3" rfl rfl rfl) (.sim1 "d" "d" "1" "1" "3" rfl rfl rfl)

example : bestIn exTenSim.text = [(1, 1, 3)] := by decide +kernel

end Genex.Props
