import Verif.Lemmas.Archives
import Verif.Props.Terminal

/-!
# C115: groups kept in a file between sessions
-/

set_option linter.unusedSectionVars false

namespace Genex.Props

open Dbl Api Registry Spec Cli Manual

section

variable {K : Type} [Field K] [LinearOrder K] [IsStrictOrderedRing K] [HasSqrt K]

theorem restored_holds {E : Env K} {S : Screen K} (hP : S.progress = [] ∨ S.progress.getLast? = some '\n') {rows : List (List K)} {w : ℕ}
    {distance : String} {t : Dbl K} {f : List (Tok K)} (ha : Archived E S rows w distance t f) {h : List (Entered K)} {name : String}
    (hr : RestoredBy E h name rows w f) (b : Console K) (hb : Terminal E S Console.fresh h b) :
    ∃ z, Registry.Holds b.api name z ∧ Ready (rows.map (·.map fin)) distance t false z := by
  obtain ⟨z, R, hw, hm, hf⟩ := archived_ready hP ha
  obtain ⟨z', h1, h2, -⟩ := restored_ready hP hb R hw hm hf hr
  exact ⟨z', h1, h2⟩

theorem save_leaves {E : Env K} {S : Screen K} {h : List (Entered K)} {c : Console K} (ht : Terminal E S Console.fresh h c) {name : String}
    {rows : List (List (Dbl K))} {distance : String} {t : Dbl K} {z : GSet K} (hz : Registry.Holds c.api name z)
    (R : Ready rows distance t false z) (hw : ∀ gs, z.groups = some gs → gs.whole = false) (P : CliEnv K) (line path : String)
    (hl : '\n' ∉ line.toList) (hwords : Words line.toList (["saveGroups", name, path].map String.toList)) (ho : P.opens path = true) :
    ∃ T c' f, Terminal E S Console.fresh (h ++ [⟨P, line, T⟩]) c' ∧
      T = "Saved groups of dataset ".toList ++ (name.toList ++ (" to ".toList ++ (path.toList ++ ['\n', '\n']))) ∧ Leaves E S h name f := by
  obtain ⟨id, k1, k2⟩ := (terminal_kept ht).holds.1 hz
  have hp := usage_runs (e := ⟨P, line, []⟩) hwords (.saveGroups0 name path) (by simp)
  have hsv := (round_trip_for rows distance t false z R hw z R.usable.1 rfl).1
  have hex : c.api.exec E (.saveGroups name (P.archive path) (P.opens path)) = (c.api, .ret (.ok (.file (some z.save.1)))) := by
    simp only [exec]
    rw [withSet_some k1 k2, ho]
    simp only [GSet.saveToFile, if_true, hsv]
    rfl
  have hsay := says_call E P c line (.call (.saveGroups name (P.archive path) (P.opens path))) _ _ hp hex
  have ha : arg (splitLine line) 2 = path := by
    unfold splitLine
    rw [words_unique hwords]
    simp [arg]
  refine ⟨_, _, z.save.1, .snoc ht hl hsay (by simp), ?_, c, _, P, line, path, _, ht, hwords, hsay⟩
  unfold report before
  rw [ha]
  generalize "Saved groups of dataset " = t1, " to " = t2
  simp [Piece.texts, Piece.text]

/-- C115: after a file has been loaded and grouped at the terminal, `saveGroups` can be typed for any file that can be opened; there is no
error, and the file has been left. -/
theorem C115_save (E : Env K) (S : Screen K) (hP : S.progress = [] ∨ S.progress.getLast? = some '\n') (h : List (Entered K)) (c : Console K)
    (ht : Terminal E S Console.fresh h c) (name : String) (rows : List (List K)) (w : ℕ) (distance : String) (t : Dbl K)
    (hg : GroupedBy E h name rows distance t) (hw : WidthBy E name w h rows) (P : CliEnv K) (line path : String) (hl : '\n' ∉ line.toList)
    (hwords : Words line.toList (["saveGroups", name, path].map String.toList)) (ho : P.opens path = true) :
    ∃ T c' f, Terminal E S Console.fresh (h ++ [⟨P, line, T⟩]) c' ∧
      T = "Saved groups of dataset ".toList ++ (name.toList ++ (" to ".toList ++ (path.toList ++ ['\n', '\n']))) ∧
      Leaves E S h name f ∧ Archived E S rows w distance t f := by
  obtain ⟨z, hz, R, hwh⟩ := (groupedBy_grouped hP ht hg).readyWhole
  obtain ⟨T, c', f, h1, h2, h3⟩ := save_leaves ht hz R hwh P line path hl hwords ho
  exact ⟨T, c', f, h1, h2, h3, .grouped hg hw h3⟩

/-- C115: and so after groups have been loaded from such a file. -/
theorem C115_save_again (E : Env K) (S : Screen K) (hP : S.progress = [] ∨ S.progress.getLast? = some '\n') (h : List (Entered K))
    (c : Console K) (ht : Terminal E S Console.fresh h c) (name : String) (rows : List (List K)) (w : ℕ) (distance : String) (t : Dbl K)
    (f : List (Tok K)) (ha : Archived E S rows w distance t f) (hr : RestoredBy E h name rows w f) (P : CliEnv K) (line path : String)
    (hl : '\n' ∉ line.toList) (hwords : Words line.toList (["saveGroups", name, path].map String.toList)) (ho : P.opens path = true) :
    ∃ T c' f', Terminal E S Console.fresh (h ++ [⟨P, line, T⟩]) c' ∧
      T = "Saved groups of dataset ".toList ++ (name.toList ++ (" to ".toList ++ (path.toList ++ ['\n', '\n']))) ∧
      Leaves E S h name f' ∧ Archived E S rows w distance t f' := by
  obtain ⟨z, R, hwh, hm, hf⟩ := archived_ready hP ha
  obtain ⟨z', h1, h2, h3, -⟩ := restored_ready hP ht R hwh hm hf hr
  obtain ⟨T, c', f', g1, g2, g3⟩ := save_leaves ht h1 h2 h3 P line path hl hwords ho
  exact ⟨T, c', f', g1, g2, g3, .again ha hr g3⟩

/-- C115, part: in every session in which the same rows have been loaded, under any name and whatever was done with the groups, `loadGroups` can be
typed for the file; the same number of groups is shown in all of them, without an error.  Missing: files whose lines left out are longer
(`C115_false`). -/
theorem C115_load_partial (E : Env K) (S : Screen K) (hP : S.progress = [] ∨ S.progress.getLast? = some '\n') (rows : List (List K)) (w : ℕ)
    (distance : String) (t : Dbl K) (f : List (Tok K)) (ha : Archived E S rows w distance t f) :
    ∃ N : Int, ∀ (h : List (Entered K)) (c : Console K) (name : String), Terminal E S Console.fresh h c → WidthBy E name w h rows →
      ∀ (P : CliEnv K) (line path : String), '\n' ∉ line.toList → Words line.toList (["loadGroups", name, path].map String.toList) →
        P.archive path = some f → ∃ T c', Terminal E S Console.fresh (h ++ [⟨P, line, T⟩]) c' ∧
          T = intText N ++ (" groups loaded for dataset ".toList ++ (name.toList ++ ['\n'])) ∧
          RestoredBy E (h ++ [⟨P, line, T⟩]) name rows w f := by
  obtain ⟨z, R, hwh, hm, hf⟩ := archived_ready hP ha
  refine ⟨z.totalGroups, ?_⟩
  intro h c name ht hw P line path hl hwords hfile
  obtain ⟨g, hg, H, hmg⟩ := width_data hP ht hw
  obtain ⟨id, k1, k2⟩ := (terminal_kept ht).holds.1 hg
  obtain ⟨gs', e1, e2, e3, e4⟩ := load_ready R hwh hm hf H hmg
  have hp := usage_runs (e := ⟨P, line, []⟩) hwords (.loadGroups name path) (by simp)
  have hex : c.api.exec E (.loadGroups name (P.archive path)) = (c.api.store id ⟨g.ds, some gs'⟩, .ret (.ok (.int z.totalGroups))) := by
    simp only [exec]
    rw [withSet_some k1 k2, hfile]
    simp only [GSet.loadFromFile, e1, ← e2]
    rfl
  have hsay := says_call E P c line (.call (.loadGroups name (P.archive path))) _ _ hp hex
  refine ⟨_, _, .snoc ht hl hsay (by simp), ?_, h, [], _, path, rfl, hw, hwords, hfile, by simp⟩
  unfold report before
  generalize " groups loaded for dataset " = t1
  simp [Piece.texts, Piece.text]

/-- C115: after that `sim` shows what C111 says of the session in which the groups were made. -/
theorem C115_sim (E : Env K) (S : Screen K) (hS : Tidy S) (hP : S.progress = [] ∨ S.progress.getLast? = some '\n') (h : List (Entered K))
    (e : Entered K) (c : Console K) (ht : Terminal E S Console.fresh (h ++ [e]) c) (name : String) (rows : List (List K)) (m : Metric)
    (hm : m ≠ .sorensen ∧ m ≠ .cosine) (hs : m = .euclidean → LawfulSqrt K) (τ : K) (w : ℕ) (f : List (Tok K))
    (ha : Archived E S rows w (metricName m) (fin τ) f) (hr : RestoredBy E h name rows w f)
    (qname : String) (index a b : Int) (q : List K) (hq : Asks E h qname index a b q) (h2 : 2 ≤ q.length)
    (hrow : ∃ r ∈ rows, q.length ≤ r.length) (args : List String) (hty : e.Typed args)
    (hu : Usage e.env args (.call (.call (.bestMatch name qname index a b)))) :
    ∃ (i p ℓ : ℕ) (y : List K) (x : K) (d : ℕ), bestIn e.text = [((i : Int), (p : Int), (p : Int) + ℓ)] ∧
      afterWords "Distance = " e.text = [S.num d (fin x)] ∧ SubOf rows ℓ i p y ∧ Comparable cliBand q.length ℓ ∧
      Dtw m cliBand q y (fin x) ∧ d ∈ [4, 6, 16] ∧ ((∀ l ∈ h, ¬ Starts l.line "timer") → d = 4) ∧
      (0 ≤ τ → m = .euclidean ∨ m = .chebyshev → ∀ i' p' ℓ' y' x', 2 ≤ ℓ' → SubOf rows ℓ' i' p' y' → Comparable cliBand q.length ℓ' →
        Dtw m cliBand q y' (fin x') → x ≤ x' + (if m = .euclidean then τ / 4 else τ / 2)) :=
  sim_ready E S hS hP h e c ht name rows m hm hs τ (restored_holds hP ha hr) qname index a b q hq h2 hrow args hty hu

/-- C115: and it can be typed: the program answers. -/
theorem C115_sim_answers (E : Env K) (S : Screen K) (hP : S.progress = [] ∨ S.progress.getLast? = some '\n') (h : List (Entered K))
    (c : Console K) (ht : Terminal E S Console.fresh h c) (name : String) (rows : List (List K)) (m : Metric)
    (hm : m ≠ .sorensen ∧ m ≠ .cosine) (hs : m = .euclidean → LawfulSqrt K) (t : Dbl K) (w : ℕ) (f : List (Tok K))
    (ha : Archived E S rows w (metricName m) t f) (hr : RestoredBy E h name rows w f)
    (qname : String) (index a b : Int) (q : List K) (hq : Asks E h qname index a b q) (h2 : 2 ≤ q.length)
    (hrow : ∃ r ∈ rows, q.length ≤ r.length) (P : CliEnv K) (line : String) (hl : '\n' ∉ line.toList) (args : List String)
    (hw : Words line.toList (args.map String.toList)) (hu : Usage P args (.call (.call (.bestMatch name qname index a b)))) :
    ∃ T c', Terminal E S Console.fresh (h ++ [⟨P, line, T⟩]) c' :=
  sim_ready_answers E S hP h c ht name rows m hm hs t (restored_holds hP ha hr) qname index a b q hq h2 hrow P line hl args hw hu

/-- C115: and so `ksim`. -/
theorem C115_ksim (E : Env K) (hA : E.A.Lawful Cand.lt) (hB : E.B.Lawful GIdx.lt) (S : Screen K) (hS : Tidy S)
    (hP : S.progress = [] ∨ S.progress.getLast? = some '\n') (h : List (Entered K))
    (e : Entered K) (c : Console K) (ht : Terminal E S Console.fresh (h ++ [e]) c) (name : String) (rows : List (List K)) (m : Metric)
    (hm : m ≠ .sorensen ∧ m ≠ .cosine) (hs : m = .euclidean → LawfulSqrt K) (t : Dbl K) (w : ℕ) (f : List (Tok K))
    (ha : Archived E S rows w (metricName m) t f) (hr : RestoredBy E h name rows w f)
    (qname : String) (index a b : Int) (q : List K) (hq : Asks E h qname index a b q) (h2 : 2 ≤ q.length)
    (hrow : ∃ r ∈ rows, q.length ≤ r.length) (hW : WellSpaced m cliBand rows q) (k ke : ℕ) (h1 : 1 ≤ ke) (hke : k ≤ ke)
    (kText iText : String) (range : Option (String × String)) (keText : Option String) (hk : e.env.stoi kText = .ok (k : Int))
    (hi : e.env.stoi iText = .ok index) (hrange : OptRange e.env range a b) (hke' : Opt e.env k keText ke)
    (hboth : range = none ∨ keText = none) (hty : e.Typed (ksimForm kText name qname iText range keText)) :
    ∃ (res : List (ℕ × ℕ × ℕ × Dbl K)) (d : ℕ),
      answersIn e.text = res.map (matchLine S d) ++
        List.replicate (k - partCount rows cliBand q.length) (0, 0, 0, S.num d (fin 0)) ∧
      res.length = min k (partCount rows cliBand q.length) ∧ (res.map fun r => (r.1, r.2.1, r.2.2.1)).Nodup ∧
      (∀ r ∈ res, ∃ y, SubOf rows r.2.2.1 r.1 r.2.1 y ∧ 2 ≤ r.2.2.1 ∧ Comparable cliBand q.length r.2.2.1 ∧ Dtw m cliBand q y r.2.2.2) ∧
      res.Pairwise (fun r r' => r.2.2.2 ≤ r'.2.2.2) ∧ d ∈ [4, 6, 16] ∧ ((∀ l ∈ h, ¬ Starts l.line "timer") → d = 4) ∧
      (partCount rows cliBand q.length ≤ ke → ∀ i p ℓ y x, SubOf rows ℓ i p y → 2 ≤ ℓ → Comparable cliBand q.length ℓ →
        Dtw m cliBand q y x → (i, p, ℓ) ∉ res.map (fun r => (r.1, r.2.1, r.2.2.1)) → ∀ r ∈ res, r.2.2.2 ≤ x) :=
  ksim_ready E hA hB S hS hP h e c ht name rows m hm hs t (restored_holds hP ha hr) qname index a b q hq h2 hrow hW k ke h1 hke
    kText iText range keText hk hi hrange hke' hboth hty

/-- C115: and it can be typed: the program answers. -/
theorem C115_ksim_answers (E : Env K) (hA : E.A.Lawful Cand.lt) (hB : E.B.Lawful GIdx.lt) (S : Screen K)
    (hP : S.progress = [] ∨ S.progress.getLast? = some '\n') (h : List (Entered K)) (c : Console K)
    (ht : Terminal E S Console.fresh h c) (name : String) (rows : List (List K)) (m : Metric)
    (hm : m ≠ .sorensen ∧ m ≠ .cosine) (hs : m = .euclidean → LawfulSqrt K) (t : Dbl K) (w : ℕ) (f : List (Tok K))
    (ha : Archived E S rows w (metricName m) t f) (hr : RestoredBy E h name rows w f)
    (qname : String) (index a b : Int) (q : List K) (hq : Asks E h qname index a b q) (h2 : 2 ≤ q.length)
    (hrow : ∃ r ∈ rows, q.length ≤ r.length) (hW : WellSpaced m cliBand rows q) (k ke : ℕ) (h1 : 1 ≤ ke) (hke : k ≤ ke)
    (P : CliEnv K) (line kText iText : String) (range : Option (String × String)) (keText : Option String) (hk : P.stoi kText = .ok (k : Int))
    (hi : P.stoi iText = .ok index) (hrange : OptRange P range a b) (hke' : Opt P k keText ke)
    (hboth : range = none ∨ keText = none) (hl : '\n' ∉ line.toList)
    (hw : Words line.toList ((ksimForm kText name qname iText range keText).map String.toList)) :
    ∃ T c', Terminal E S Console.fresh (h ++ [⟨P, line, T⟩]) c' :=
  ksim_ready_answers E hA hB S hP h c ht name rows m hm hs t (restored_holds hP ha hr) qname index a b q hq h2 hrow hW k ke h1 hke
    P line kText iText range keText hk hi hrange hke' hboth hl hw

/-- C115: with another number of lines read, or another longest line, `loadGroups` shows an error. -/
theorem C115_refused (E : Env K) (S : Screen K) (hP : S.progress = [] ∨ S.progress.getLast? = some '\n') (rows : List (List K)) (w : ℕ)
    (distance : String) (t : Dbl K) (f : List (Tok K)) (ha : Archived E S rows w distance t f) (h : List (Entered K)) (e : Entered K)
    (c : Console K) (ht : Terminal E S Console.fresh (h ++ [e]) c) (name : String) (rows' : List (List K)) (w' : ℕ)
    (hw : WidthBy E name w' h rows') (hne : rows'.length ≠ rows.length ∨ w' ≠ w) (path : String)
    (hty : e.Typed ["loadGroups", name, path]) (hfile : e.env.archive path = some f) : ¬ e.Fine := by
  intro hfine
  obtain ⟨b, hb, he⟩ := terminal_split ht
  obtain ⟨z, R, hwh, hm, hf⟩ := archived_ready hP ha
  obtain ⟨g, hg, H, hmg⟩ := width_data hP hb hw
  obtain ⟨id, k1, k2⟩ := (terminal_kept hb).holds.1 hg
  have hp := usage_runs hty (.loadGroups name path) (by simp)
  obtain ⟨out, hst⟩ := fine_returns hP he hp hfine
  obtain ⟨msg, hmsg⟩ := C42_incompatible z g (by rw [hf]) (by
    rcases hne with hne | hne
    · refine .inl ?_
      rw [R.usable.1.count, H.count, List.length_map, List.length_map]
      exact fun h => hne h.symm
    · refine .inr ?_
      rw [hm, hmg]
      exact fun h => hne (by exact_mod_cast h.symm))
  rw [hf] at hmsg
  change b.api.exec E _ = _ at hst
  simp only [exec] at hst
  rw [withSet_some k1 k2, hfile] at hst
  simp only [GSet.loadFromFile, hmsg] at hst
  cases (Prod.mk.inj hst).2

end

/-! ## Two sessions -/

theorem exTerm_width (h : List (Entered ℚ)) (hh : ∀ x ∈ h, ¬ x.Touches ["load", "unload", "normalize"] "d") :
    WidthBy exEnv "d" 3 (exEnterLoad :: h) exTermRows :=
  .load (h₁ := []) (args := ["load", "d", "g"]) (startCol := 0) (tokens_words "load d g".toList) (.load0 "d" "g") exTerm_file
    ⟨⟨"1 1 1".toList, by decide +kernel, by decide +kernel⟩, by
      rintro n ⟨l, hl, rfl⟩
      revert l
      decide +kernel⟩ exTerm_fine.1 hh

/-- The file that `saveGroups d a` leaves after `load d g` and `group d 1 chebyshev`. -/
theorem exArchived : ∃ f, Leaves exEnv exScreen [exEnterLoad, exEnterGroup] "d" f ∧
    Archived exEnv exScreen exTermRows 3 (metricName .chebyshev) (fin 1) f := by
  obtain ⟨T, c', f, -, -, h1, h2⟩ := C115_save exEnv exScreen (.inl rfl) _ _ exEnterGroup_says "d" exTermRows 3 _ _ exTerm_grouped
    (exTerm_width _ (by simpa using exTerm_untouched)) exShow "saveGroups d a" "a" (by decide) (tokens_words "saveGroups d a".toList) rfl
  exact ⟨f, h1, h2⟩

/-- The same conversions, when there is an archive. -/
def exWith (f : List (Tok ℚ)) : CliEnv ℚ := { exShow with archive := fun p => if p = "a" then some f else none }

/-- In another session `loadGroups d a` after `load d g`. -/
theorem exRestored {f : List (Tok ℚ)} (ha : Archived exEnv exScreen exTermRows 3 (metricName .chebyshev) (fin 1) f) :
    ∃ T c, Terminal exEnv exScreen Console.fresh ([exEnterLoad] ++ [⟨exWith f, "loadGroups d a", T⟩]) c ∧
      RestoredBy exEnv ([exEnterLoad] ++ [⟨exWith f, "loadGroups d a", T⟩]) "d" exTermRows 3 f := by
  obtain ⟨N, hN⟩ := C115_load_partial exEnv exScreen (.inl rfl) exTermRows 3 _ _ f ha
  obtain ⟨T, c, h1, -, h2⟩ := hN _ _ "d" exEnterLoad_says (exTerm_width [] (by simp)) (exWith f) "loadGroups d a" "a" (by decide)
    (tokens_words "loadGroups d a".toList) rfl
  exact ⟨T, c, h1, h2⟩

theorem exRestored_untouched (P : CliEnv ℚ) (T : Text) : ¬ (⟨P, "loadGroups d a", T⟩ : Entered ℚ).Touches ["load", "unload", "normalize"] "d" := by
  rintro ⟨cmd, hc, ws, hw⟩
  have : (Cli.tokens "loadGroups d a".toList []).head? = some cmd.toList := by rw [words_unique hw]; rfl
  simp only [List.mem_cons, List.not_mem_nil, or_false] at hc
  rcases hc with rfl | rfl | rfl <;> exact absurd this (by decide)

/-- Then `sim d d 1 1 3` finds the part itself or one as near as the threshold promises, and the groups can be saved again. -/
example : ∃ (f : List (Tok ℚ)) (T T' : Text) (c : Console ℚ) (i p ℓ : ℕ) (y : List ℚ) (x : ℚ),
    Terminal exEnv exScreen Console.fresh (([exEnterLoad] ++ [⟨exWith f, "loadGroups d a", T⟩]) ++ [⟨exShow, "sim d d 1 1 3", T'⟩]) c ∧
    bestIn T' = [((i : Int), (p : Int), (p : Int) + ℓ)] ∧ SubOf exTermRows ℓ i p y ∧ Dtw .chebyshev cliBand [1, 2] y (fin x) ∧
    ∃ f', Archived exEnv exScreen exTermRows 3 (metricName .chebyshev) (fin 1) f' ∧
      Leaves exEnv exScreen ([exEnterLoad] ++ [⟨exWith f, "loadGroups d a", T⟩]) "d" f' := by
  obtain ⟨f, -, ha⟩ := exArchived
  obtain ⟨T, c, hT, hr⟩ := exRestored ha
  have hq : Asks exEnv ([exEnterLoad] ++ [⟨exWith f, "loadGroups d a", T⟩]) "d" 1 1 3 [1, 2] :=
    ⟨exTermRows, 1, [1, 1, 2], exTerm_loaded _ (by simpa using exRestored_untouched _ _), rfl, rfl,
      .inr ⟨1, 3, rfl, rfl, by decide, by decide, rfl⟩⟩
  obtain ⟨T', c', hT'⟩ := C115_sim_answers exEnv exScreen (.inl rfl) _ _ hT "d" exTermRows .chebyshev (by decide) (by simp) (fin 1) 3 f ha hr
    "d" 1 1 3 [1, 2] hq (by decide) ⟨[1, 1, 1], by simp [exTermRows], by decide⟩ exShow "sim d d 1 1 3" (by decide)
    ["sim", "d", "d", "1", "1", "3"] (tokens_words "sim d d 1 1 3".toList) (.sim1 "d" "d" "1" "1" "3" rfl rfl rfl)
  obtain ⟨i, p, ℓ, y, x, d, g1, -, g3, -, g5, -⟩ := C115_sim exEnv exScreen exScreen_tidy (.inl rfl) _ _ _ hT' "d" exTermRows .chebyshev
    (by decide) (by simp) 1 3 f ha hr "d" 1 1 3 [1, 2] hq (by decide) ⟨[1, 1, 1], by simp [exTermRows], by decide⟩
    ["sim", "d", "d", "1", "1", "3"] (tokens_words "sim d d 1 1 3".toList) (.sim1 "d" "d" "1" "1" "3" rfl rfl rfl)
  obtain ⟨-, -, f', -, -, l1, l2⟩ := C115_save_again exEnv exScreen (.inl rfl) _ _ hT "d" exTermRows 3 _ _ f ha hr exShow "saveGroups d b" "b"
    (by decide) (tokens_words "saveGroups d b".toList) rfl
  exact ⟨f, T, T', c', i, p, ℓ, y, x, hT', g1, g3, g5, f', l2, l1⟩

/-- `ksim 2 d d 1 1 3`: the answers, and that there are two. -/
example : ∃ (f : List (Tok ℚ)) (T T' : Text) (c : Console ℚ),
    Terminal exEnv exScreen Console.fresh (([exEnterLoad] ++ [⟨exWith f, "loadGroups d a", T⟩]) ++ [⟨exShow, "ksim 2 d d 1 1 3", T'⟩]) c ∧
    (answersIn T').length = 2 := by
  obtain ⟨f, -, ha⟩ := exArchived
  obtain ⟨T, c, hT, hr⟩ := exRestored ha
  have hq : Asks exEnv ([exEnterLoad] ++ [⟨exWith f, "loadGroups d a", T⟩]) "d" 1 1 3 [1, 2] :=
    ⟨exTermRows, 1, [1, 1, 2], exTerm_loaded _ (by simpa using exRestored_untouched _ _), rfl, rfl,
      .inr ⟨1, 3, rfl, rfl, by decide, by decide, rfl⟩⟩
  obtain ⟨T', c', h⟩ := C115_ksim_answers exEnv (refAlgos_lawful _) (refAlgos_lawful _) exScreen (.inl rfl) _ _ hT "d" exTermRows .chebyshev
    (by decide) (by simp) (fin 1) 3 f ha hr "d" 1 1 3 [1, 2] hq (by decide) ⟨[1, 1, 1], by simp [exTermRows], by decide⟩
    exTerm_spaced 2 2 (by decide) (by decide) exShow "ksim 2 d d 1 1 3" "2" "1" (some ("1", "3")) none rfl rfl ⟨rfl, rfl⟩ rfl (.inr rfl)
    (by decide) (tokens_words "ksim 2 d d 1 1 3".toList)
  refine ⟨f, T, T', c', h, ?_⟩
  obtain ⟨res, d, h1, h2, -⟩ := C115_ksim exEnv (refAlgos_lawful _) (refAlgos_lawful _) exScreen exScreen_tidy (.inl rfl) _ _ _ h "d" exTermRows
    .chebyshev (by decide) (by simp) (fin 1) 3 f ha hr "d" 1 1 3 [1, 2] hq (by decide) ⟨[1, 1, 1], by simp [exTermRows], by decide⟩
    exTerm_spaced 2 2 (by decide) (by decide) "2" "1" (some ("1", "3")) none rfl rfl ⟨rfl, rfl⟩ rfl (.inr rfl)
    (tokens_words "ksim 2 d d 1 1 3".toList)
  have e : partCount exTermRows cliBand 2 = 4 := by decide +kernel
  rw [show [(1 : ℚ), 2].length = 2 from rfl, e] at h1 h2
  rw [h1]
  simp [h2]

/-! ## A longer line that is left out -/

/-- A file with the same two lines and a longer one. -/
def exLonger (f : List (Tok ℚ)) : CliEnv ℚ :=
  { exWith f with text := fun p => if p = "g" then some "1 1 1\n1 1 2\n1 1 1 1".toList else none }

def exLongerCall : AnyCall ℚ := .call (.load "d" (some "1 1 1\n1 1 2\n1 1 1 1".toList) ['g'] [' '] 2 0 false)

def exLongerLoaded : Api ℚ := ((fresh : Api ℚ).exec exEnv (.load "d" (some "1 1 1\n1 1 2\n1 1 1 1".toList) ['g'] [' '] 2 0 false)).1

/-- The first two lines are read. -/
def exEnterLonger (f : List (Tok ℚ)) : Entered ℚ := ⟨exLonger f, "load d g \\s 2", Piece.texts exScreen (before exLongerCall ++
  (report true 6 (splitLine "load d g \\s 2") exLongerCall (.info ⟨"d", 2, 4, false, false, "", 0⟩)).1 ++ [.endl])⟩

theorem exEnterLonger_says (f : List (Tok ℚ)) : Terminal exEnv exScreen Console.fresh [exEnterLonger f] ⟨exLongerLoaded, true, 6⟩ := by
  have h := says_call exEnv (exLonger f) Console.fresh "load d g \\s 2" exLongerCall exLongerLoaded (.info ⟨"d", 2, 4, false, false, "", 0⟩) rfl (by
    rw [← infoOf_some (r := ((fresh : Api ℚ).exec exEnv (.load "d" (some "1 1 1\n1 1 2\n1 1 1 1".toList) ['g'] [' '] 2 0 false)).2) (by decide +kernel)]
    rfl)
  exact .snoc (h := []) (.nil _) (by decide) h (by simp)

theorem exEnterLonger_width (f : List (Tok ℚ)) : WidthBy exEnv "d" 4 [exEnterLonger f] exTermRows :=
  .load (h₁ := []) (args := ["load", "d", "g", "\\s", "2"]) (startCol := 0) (content := "1 1 1\n1 1 2\n1 1 1 1".toList) (sep := [' ']) (maxNumRow := 2)
    (tokens_words "load d g \\s 2".toList) (.load2 "d" "g" "\\s" "2" (.space .nil) rfl)
    ⟨by decide, by decide +kernel, by decide +kernel⟩
    ⟨⟨"1 1 1 1".toList, by decide +kernel, by decide +kernel⟩, by
      rintro n ⟨l, hl, rfl⟩
      revert l
      decide +kernel⟩
    (by
      unfold Entered.Fine HasLine
      show ¬ ∃ l ∈ textLines (Piece.texts exScreen (before exLongerCall ++
        (report true 6 (splitLine "load d g \\s 2") exLongerCall (.info ⟨"d", 2, 4, false, false, "", 0⟩)).1 ++ [.endl])), "Error! ".toList <+: l
      decide +kernel) (by simp)

/-- C115 fails otherwise: the same two series have been loaded, from a file with a longer line that was left out, and `loadGroups` refuses
the groups. -/
theorem C115_false : ∃ (f : List (Tok ℚ)) (h : List (Entered ℚ)) (e : Entered ℚ) (c : Console ℚ),
    (∃ w, Archived exEnv exScreen exTermRows w (metricName .chebyshev) (fin 1) f) ∧ Terminal exEnv exScreen Console.fresh (h ++ [e]) c ∧
    LoadedBy exEnv "d" h exTermRows ∧ e.Typed ["loadGroups", "d", "a"] ∧ e.env.archive "a" = some f ∧ ¬ e.Fine := by
  obtain ⟨f, -, ha⟩ := exArchived
  have hw := exEnterLonger_width f
  have hb := exEnterLonger_says f
  obtain ⟨z, R, hwh, hm, hf⟩ := archived_ready (.inl rfl) ha
  obtain ⟨g, hg, H, hmg⟩ := width_data (.inl rfl) hb hw
  obtain ⟨id, k1, k2⟩ := (terminal_kept hb).holds.1 hg
  obtain ⟨msg, hmsg⟩ := C42_incompatible z g (by rw [hf]) (.inr (by rw [hm, hmg]; decide))
  rw [hf] at hmsg
  have hp : processLine (exLonger f) "loadGroups d a" = .run (.ok (.call (.call (.loadGroups "d" (some f))))) := rfl
  have hex : exLongerLoaded.exec exEnv (.loadGroups "d" (some f)) = (exLongerLoaded.store id g, .ret (.error (.genex msg))) := by
    simp only [exec]
    rw [withSet_some k1 k2]
    simp only [GSet.loadFromFile, hmsg]
    rfl
  have hsay := says_fault exEnv (exLonger f) ⟨exLongerLoaded, true, 6⟩ "loadGroups d a" (.call (.loadGroups "d" (some f))) _ (.genex msg) _ hp rfl hex
  have hT := Terminal.snoc (S := exScreen) hb (by decide) hsay (by simp)
  exact ⟨f, _, _, _, ⟨3, ha⟩, hT, hw.loadedBy, tokens_words "loadGroups d a".toList, rfl,
    C115_refused exEnv exScreen (.inl rfl) exTermRows 3 _ _ f ha _ _ _ hT "d" exTermRows 4 hw (.inr (by decide)) "a"
      (tokens_words "loadGroups d a".toList) rfl⟩

end Genex.Props
