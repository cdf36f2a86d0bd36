import Verif.Props.DataFiles
import Verif.Props.TerminalDouble

/-!
# C117: the numbers read on the screen

C111 and C112 with the text that `operator<<` gives a number (`Model/NumberText.lean`): what a reader of the screen reads there.
-/

set_option linter.unusedSectionVars false

namespace Genex.Props

open Dbl Api Registry Spec Cli Manual

/-- Four digits or more. -/
theorem shown_near {d : ℕ} (hd : d ∈ [4, 6, 16]) (x : ℚ) :
    ∃ v, readNumber (numText d (fin x)) = some v ∧ |v - x| ≤ 5 / 10 ^ 4 * |x| ∧ ∀ y v', readNumber (numText d (fin y)) = some v' → x ≤ y → v ≤ v' := by
  have h1 : 4 ≤ d := by
    simp only [List.mem_cons, List.not_mem_nil, or_false] at hd
    omega
  obtain ⟨k1, -, k3⟩ := C116_near d (by omega) x _ (C116_reads d (by omega) x)
  refine ⟨_, C116_reads d (by omega) x, le_trans k1 (mul_le_mul_of_nonneg_right ?_ (abs_nonneg x)), fun y v' h hxy => k3 y v' h hxy⟩
  have : (10 : ℚ) ^ (1 - (d : ℤ)) ≤ 10 ^ (-3 : ℤ) := zpow_le_zpow_right₀ (by norm_num) (by omega)
  have e : (10 : ℚ) ^ (-3 : ℤ) = 1 / 1000 := by norm_num
  rw [e] at this
  linarith

theorem numText_tidy {S : Screen ℚ} (hN : S.num = numText) (hsec : '\n' ∉ S.seconds) : Tidy S :=
  ⟨fun d x => by rw [hN]; exact numText_line d x, hsec⟩

theorem words_numbers (q : List ℚ) :
    Words (q.map fun x => numText 16 (fin x) ++ [' ']).flatten (q.map fun x => numText 16 (fin x)) := by
  induction q with
  | nil => exact .nil
  | cons x q ih =>
    have := Words.word (numText_ne_nil (p := 16) (by norm_num) (fin x)) (separates_text exSpace 16 (fin x)) ih
    simpa using this

/-- C117: the number that is read after `sim` is the DTW distance of the part named, up to half a thousandth of it, and no part is nearer by
more than that and half of the threshold. -/
theorem C117_sim (E : Env ℚ) (S : Screen ℚ) (hN : S.num = numText) (hsec : '\n' ∉ S.seconds)
    (hP : S.progress = [] ∨ S.progress.getLast? = some '\n') (h : List (Entered ℚ)) (e : Entered ℚ) (c : Console ℚ)
    (ht : Terminal E S Console.fresh (h ++ [e]) c) (name : String) (rows : List (List ℚ)) (m : Metric) (hm : m = .manhattan ∨ m = .chebyshev)
    (τ : ℚ) (hg : GroupedBy E h name rows (metricName m) (fin τ)) (qname : String) (index a b : Int) (q : List ℚ)
    (hq : Asks E h qname index a b q) (h2 : 2 ≤ q.length) (hrow : ∃ r ∈ rows, q.length ≤ r.length) (args : List String) (hty : e.Typed args)
    (hu : Usage e.env args (.call (.call (.bestMatch name qname index a b)))) :
    ∃ (i p ℓ : ℕ) (y : List ℚ) (x v : ℚ) (w : Text), bestIn e.text = [((i : Int), (p : Int), (p : Int) + ℓ)] ∧
      afterWords "Distance = " e.text = [w] ∧ readNumber w = some v ∧ SubOf rows ℓ i p y ∧ Comparable cliBand q.length ℓ ∧
      Dtw m cliBand q y (fin x) ∧ |v - x| ≤ 5 / 10 ^ 4 * |x| ∧
      (0 ≤ τ → m = .chebyshev → ∀ i' p' ℓ' y' x', 2 ≤ ℓ' → SubOf rows ℓ' i' p' y' → Comparable cliBand q.length ℓ' →
        Dtw m cliBand q y' (fin x') → x ≤ x' + τ / 2) := by
  obtain ⟨i, p, ℓ, y, x, d, h1, h3, h4, h5, h6, h7, -, h8⟩ := C111_sim E S (numText_tidy hN hsec) hP h e c ht name rows m
    (by rcases hm with rfl | rfl <;> decide) (by rcases hm with rfl | rfl <;> simp) τ hg qname index a b q hq h2 hrow args hty hu
  obtain ⟨v, k1, k2, -⟩ := shown_near h7 x
  refine ⟨i, p, ℓ, y, x, v, _, h1, h3, by rw [hN]; exact k1, h4, h5, h6, k2, ?_⟩
  intro ht0 hc i' p' ℓ' y' x' g1 g2 g3 g4
  have := h8 ht0 (.inr hc) i' p' ℓ' y' x' g1 g2 g3 g4
  rwa [if_neg (by rw [hc]; decide)] at this

/-- C117: the numbers that are read after `ksim` are the DTW distances of the parts named, up to half a thousandth of them, or infinite, and
do not decrease. -/
theorem C117_ksim (E : Env ℚ) (hA : E.A.Lawful Cand.lt) (hB : E.B.Lawful GIdx.lt) (S : Screen ℚ) (hN : S.num = numText)
    (hsec : '\n' ∉ S.seconds) (hP : S.progress = [] ∨ S.progress.getLast? = some '\n') (h : List (Entered ℚ)) (e : Entered ℚ) (c : Console ℚ)
    (ht : Terminal E S Console.fresh (h ++ [e]) c) (name : String) (rows : List (List ℚ)) (m : Metric) (hm : m = .manhattan ∨ m = .chebyshev)
    (t : Dbl ℚ) (hg : GroupedBy E h name rows (metricName m) t) (qname : String) (index a b : Int) (q : List ℚ)
    (hq : Asks E h qname index a b q) (h2 : 2 ≤ q.length) (hrow : ∃ r ∈ rows, q.length ≤ r.length) (hW : WellSpaced m cliBand rows q)
    (k ke : ℕ) (h1 : 1 ≤ ke) (hke : k ≤ ke) (hk' : k ≤ partCount rows cliBand q.length)
    (kText iText : String) (range : Option (String × String)) (keText : Option String) (hk : e.env.stoi kText = .ok (k : Int))
    (hi : e.env.stoi iText = .ok index) (hrange : OptRange e.env range a b) (hke' : Opt e.env k keText ke)
    (hboth : range = none ∨ keText = none) (hty : e.Typed (ksimForm kText name qname iText range keText)) :
    (answersIn e.text).length = k ∧
    (∀ r ∈ answersIn e.text, ∃ (i p ℓ : ℕ) (y : List ℚ), r.1 = i ∧ r.2.1 = p ∧ r.2.2.1 = (p : Int) + ℓ ∧ SubOf rows ℓ i p y ∧
      Comparable cliBand q.length ℓ ∧
      (∀ x, Dtw m cliBand q y (fin x) → ∃ v, readNumber r.2.2.2 = some v ∧ |v - x| ≤ 5 / 10 ^ 4 * |x|) ∧
      (Dtw m cliBand q y inf → r.2.2.2 = ['i', 'n', 'f'])) ∧
    (answersIn e.text).Pairwise (fun r r' => ∀ v v', readNumber r.2.2.2 = some v → readNumber r'.2.2.2 = some v' → v ≤ v') := by
  obtain ⟨res, d, g1, g2, -, g4, g5, g6, -, -⟩ := C111_ksim E hA hB S (numText_tidy hN hsec) hP h e c ht name rows m
    (by rcases hm with rfl | rfl <;> decide) (by rcases hm with rfl | rfl <;> simp) t hg qname index a b q hq h2 hrow hW k ke h1 hke kText iText
    range keText hk hi hrange hke' hboth hty
  have hz : k - partCount rows cliBand q.length = 0 := by omega
  have hd : 1 ≤ d := by
    simp only [List.mem_cons, List.not_mem_nil, or_false] at g6
    omega
  rw [hz, List.replicate_zero, List.append_nil] at g1
  rw [g1]
  refine ⟨by rw [List.length_map, g2]; omega, ?_, ?_⟩
  · intro r hr
    obtain ⟨s, hs, rfl⟩ := List.mem_map.1 hr
    obtain ⟨y, s1, -, s3, s4⟩ := g4 s hs
    refine ⟨s.1, s.2.1, s.2.2.1, y, rfl, rfl, rfl, s1, s3, ?_, ?_⟩
    · intro x hx
      have e1 : s.2.2.2 = fin x := dtw_unique s4 hx
      obtain ⟨v, k1, k2, -⟩ := shown_near g6 x
      exact ⟨v, by simp only [matchLine, hN, e1]; exact k1, k2⟩
    · intro hx
      have e1 : s.2.2.2 = inf := dtw_unique s4 hx
      simp only [matchLine, hN, e1]
      rfl
  · rw [List.pairwise_map]
    refine g5.imp_of_mem ?_
    intro r r' hr hr' hle v v' hv hv'
    simp only [matchLine, hN] at hv hv'
    have fr : ∀ z : Dbl ℚ, ∀ u, readNumber (numText d z) = some u → ∃ x, z = fin x := by
      intro z u hz
      cases z with
      | fin x => exact ⟨x, rfl⟩
      | inf => simp only [numText] at hz; revert hz; have : readNumber ['i', 'n', 'f'] = none := by decide +kernel
               rw [this]; intro hz; cases hz
      | ninf => simp only [numText] at hz; revert hz; have : readNumber ['-', 'i', 'n', 'f'] = none := by decide +kernel
                rw [this]; intro hz; cases hz
      | nan => simp only [numText] at hz; revert hz; have : readNumber ['n', 'a', 'n'] = none := by decide +kernel
               rw [this]; intro hz; cases hz
    obtain ⟨x, ex⟩ := fr _ _ hv
    obtain ⟨x', ex'⟩ := fr _ _ hv'
    rw [ex] at hv hle
    rw [ex'] at hv' hle
    exact (C116_near d hd x v hv).2.2 x' v' hv' (by simpa using hle)

/-- C117, part: what is read after `print` are the points asked for, rounded to sixteen digits.  Missing: they are not told apart
(`C117_print_false`). -/
theorem C117_print_partial (E : Env ℚ) (S : Screen ℚ) (hN : S.num = numText)
    (hP : S.progress = [] ∨ S.progress.getLast? = some '\n') (h : List (Entered ℚ)) (e : Entered ℚ) (c : Console ℚ)
    (ht : Terminal E S Console.fresh (h ++ [e]) c) (name : String) (index a b : Int) (q : List ℚ) (hq : Asks E h name index a b q)
    (args : List String) (hty : e.Typed args) (hu : Usage e.env args (.call (.call (.series name index a b)))) :
    ∃ ws : List Text, Words e.text.dropLast ws ∧ ws.map readNumber = q.map (fun x => some (decimal 16 x)) ∧
      ∀ x ∈ q, |decimal 16 x - x| ≤ 5 / 10 ^ 16 * |x| := by
  rw [C111_print E S hP h e c ht name index a b q hq args hty hu, hN, List.dropLast_concat]
  refine ⟨q.map fun x => numText 16 (fin x), ?_, ?_, ?_⟩
  · exact words_numbers q
  · rw [List.map_map]
    exact List.map_congr_left fun x _ => C116_reads 16 (by norm_num) x
  · intro x _
    refine le_trans (C116_near 16 (by norm_num) x _ (C116_reads 16 (by norm_num) x)).1 (mul_le_mul_of_nonneg_right ?_ (abs_nonneg x))
    norm_num

/-- C117 in double arithmetic: the number that is read after `sim` is the DTW distance up to half a thousandth and the error of C112. -/
theorem C117_double [A : Arith ℚ] [BandOps] (hA : A = doubleArith) (E : Env ℚ) (S : Screen ℚ) (hN : S.num = numText) (hsec : '\n' ∉ S.seconds)
    (hP : S.progress = [] ∨ S.progress.getLast? = some '\n') (h : List (Entered ℚ)) (e : Entered ℚ) (c : Console ℚ)
    (ht : Terminal E S Console.fresh (h ++ [e]) c) (name : String) (W : ℕ) (rows : List (List ℚ)) (m : Metric)
    (hm : m = .manhattan ∨ m = .chebyshev) (τ : ℚ) (hg : ServedGroups E h name W rows (metricName m) (fin τ)) (qname : String) (index a b : Int)
    (q : List ℚ) (hq : AsksServed E h qname index a b q) (h2 : 2 ≤ q.length) (hrow : ∃ r ∈ rows, q.length ≤ r.length)
    (ε : ℚ) (hε : 12 * ((q.length : ℚ) + W) ≤ ε * 2 ^ 53) (hε1 : ε < 1) (args : List String) (hty : e.Typed args)
    (hu : Usage e.env args (.call (.call (.bestMatch name qname index a b)))) :
    ∃ (i p ℓ : ℕ) (y : List ℚ) (D v : ℚ) (w : Text), bestIn e.text = [((i : Int), (p : Int), (p : Int) + ℓ)] ∧
      afterWords "Distance = " e.text = [w] ∧ readNumber w = some v ∧ SubOf rows ℓ i p y ∧ Comparable cliBand q.length ℓ ∧
      Dtw m cliBand q y (fin D) ∧ |v - D| ≤ 5 / 10 ^ 4 * |D| + 10005 / 10 ^ 4 * (ε * D + 4 * (1 / 2 ^ 537)) := by
  obtain ⟨i, p, ℓ, y, x, D, d, h1, h3, h4, h5, h6, h7, h8, -⟩ := C112_sim hA E S hP h (numText_tidy hN hsec) e c ht name W rows m
    (by rcases hm with rfl | rfl <;> decide) (by rcases hm with rfl | rfl <;> simp) τ hg qname index a b q hq h2 hrow ε hε hε1 args hty hu
  obtain ⟨v, k1, k2, -⟩ := shown_near h8 x
  refine ⟨i, p, ℓ, y, D, v, _, h1, h3, by rw [hN]; exact k1, h4, h5, h6, ?_⟩
  generalize ε * D + 4 * (1 / 2 ^ 537) = δ at h7 ⊢
  have t1 : |v - D| ≤ |v - x| + |x - D| := abs_sub_le v x D
  have t2 : |x| ≤ |D| + |x - D| := by
    have := abs_add_le D (x - D)
    rwa [add_sub_cancel] at this
  linarith

/-- C117 fails for doubles: two of them are shown alike, even by `print` with its sixteen digits. -/
theorem C117_print_false : ∃ x y : ℚ, roundDouble x = x ∧ roundDouble y = y ∧ x ≠ y ∧ numText 16 (fin x) = numText 16 (fin y) :=
  ⟨5404319552844595 / 2 ^ 54, 5404319552844596 / 2 ^ 54, by decide +kernel, by decide +kernel, by decide +kernel, by decide +kernel⟩

/-! ## The sessions of C111 and C112 on such a screen -/

def exDigits : Screen ℚ := { exScreen with num := numText }

theorem exDigits_group : Terminal exEnv exDigits Console.fresh [exEnterLoad, exEnterGroup] ⟨exTermGrouped.1, true, 4⟩ := by
  have h := says_call exEnv exShow Console.fresh "load d g" exLoadCall exLoaded (.info ⟨"d", 2, 3, false, false, "", 0⟩) rfl (by
    rw [← infoOf_some (r := ((fresh : Api ℚ).exec exEnv (.load "d" (some "1 1 1\n1 1 2".toList) ['g'] [' '] 0 0 false)).2) (by decide +kernel)]
    rfl)
  have h1 : Terminal exEnv exDigits Console.fresh [exEnterLoad] ⟨exLoaded, true, 6⟩ := .snoc (h := []) (.nil _) (by decide) h (by simp)
  have h2 := says_call exEnv exShow ⟨exLoaded, true, 6⟩ "group d 1 chebyshev" exGroupCall exTermGrouped.1 (.int 4) rfl (by
    rw [← intOf_some (r := exTermGrouped.2) (by decide +kernel)]
    exact exTermGrouped_step)
  exact .snoc (h := [exEnterLoad]) h1 (by decide) h2 (by simp)

/-- `sim d d 1 1 3` on this screen. -/
example : ∃ (T : Text) (c : Console ℚ), Terminal exEnv exDigits Console.fresh ([exEnterLoad, exEnterGroup] ++ [⟨exShow, "sim d d 1 1 3", T⟩]) c ∧
    ∃ w v, afterWords "Distance = " T = [w] ∧ readNumber w = some v := by
  obtain ⟨T, c, h⟩ := C111_sim_answers exEnv exDigits (.inl rfl) _ _ exDigits_group "d" exTermRows .chebyshev (by decide) (by simp) (fin 1)
    exTerm_grouped "d" 1 1 3 [1, 2] exTerm_asks (by decide) ⟨[1, 1, 1], by simp [exTermRows], by decide⟩ exShow "sim d d 1 1 3" (by decide)
    ["sim", "d", "d", "1", "1", "3"] (tokens_words "sim d d 1 1 3".toList) (.sim1 "d" "d" "1" "1" "3" rfl rfl rfl)
  obtain ⟨i, p, ℓ, y, x, v, w, -, h1, h2, -⟩ := C117_sim exEnv exDigits rfl (by decide) (.inl rfl) _ _ _ h "d" exTermRows .chebyshev (.inr rfl) 1
    exTerm_grouped "d" 1 1 3 [1, 2] exTerm_asks (by decide) ⟨[1, 1, 1], by simp [exTermRows], by decide⟩
    ["sim", "d", "d", "1", "1", "3"] (tokens_words "sim d d 1 1 3".toList) (.sim1 "d" "d" "1" "1" "3" rfl rfl rfl)
  exact ⟨T, c, h, w, v, h1, h2⟩

/-- `ksim 2 d d 1 1 3` on this screen. -/
example : ∃ (T : Text) (c : Console ℚ), Terminal exEnv exDigits Console.fresh ([exEnterLoad, exEnterGroup] ++ [⟨exShow, "ksim 2 d d 1 1 3", T⟩]) c ∧
    (answersIn T).length = 2 := by
  obtain ⟨T, c, h⟩ := C111_ksim_answers exEnv (refAlgos_lawful _) (refAlgos_lawful _) exDigits (.inl rfl) _ _ exDigits_group "d" exTermRows .chebyshev
    (by decide) (by simp) (fin 1) exTerm_grouped "d" 1 1 3 [1, 2] exTerm_asks (by decide) ⟨[1, 1, 1], by simp [exTermRows], by decide⟩
    exTerm_spaced 2 2 (by decide) (by decide) exShow "ksim 2 d d 1 1 3" "2" "1" (some ("1", "3")) none rfl rfl ⟨rfl, rfl⟩ rfl (.inr rfl)
    (by decide) (tokens_words "ksim 2 d d 1 1 3".toList)
  exact ⟨T, c, h, (C117_ksim exEnv (refAlgos_lawful _) (refAlgos_lawful _) exDigits rfl (by decide) (.inl rfl) _ _ _ h "d" exTermRows .chebyshev
    (.inr rfl) (fin 1) exTerm_grouped "d" 1 1 3 [1, 2] exTerm_asks (by decide) ⟨[1, 1, 1], by simp [exTermRows], by decide⟩
    exTerm_spaced 2 2 (by decide) (by decide) (by decide +kernel) "2" "1" (some ("1", "3")) none rfl rfl ⟨rfl, rfl⟩ rfl (.inr rfl)
    (tokens_words "ksim 2 d d 1 1 3".toList)).1⟩

/-- `print d 1 1 3` on this screen. -/
example : ∃ (T : Text) (c : Console ℚ), Terminal exEnv exDigits Console.fresh ([exEnterLoad, exEnterGroup] ++ [⟨exShow, "print d 1 1 3", T⟩]) c ∧
    ∃ ws, Words T.dropLast ws ∧ ws.map readNumber = [some 1, some 2] := by
  obtain ⟨T, c, h⟩ := C111_print_answers exEnv exDigits (.inl rfl) _ _ exDigits_group "d" 1 1 3 [1, 2] exTerm_asks exShow
    "print d 1 1 3" (by decide) ["print", "d", "1", "1", "3"] (tokens_words "print d 1 1 3".toList) (.print "d" "1" "1" "3" rfl rfl rfl)
  obtain ⟨ws, h1, h2, -⟩ := C117_print_partial exEnv exDigits rfl (.inl rfl) _ _ _ h "d" 1 1 3 [1, 2] exTerm_asks ["print", "d", "1", "1", "3"]
    (tokens_words "print d 1 1 3".toList) (.print "d" "1" "1" "3" rfl rfl rfl)
  refine ⟨T, c, h, ws, h1, h2.trans ?_⟩
  have e1 : decimal 16 (1 : ℚ) = 1 := by decide +kernel
  have e2 : decimal 16 (2 : ℚ) = 2 := by decide +kernel
  simp [e1, e2]

section examples

attribute [local instance 2000] exBandD exDouble

/-- `normalize d` on this screen. -/
def exDigitsNorm : Entered ℚ := ⟨exShowD, "normalize d", Piece.texts exDigits
  (before exTypeNorm ++ (report true 6 (splitLine "normalize d") exTypeNorm (.pair (fin 1, fin 7))).1 ++ [.endl])⟩

theorem exDigits_double : Terminal exEnvD exDigits Console.fresh [exDoubleLoad, exDigitsNorm, exDoubleGroup] ⟨exTypeGrouped.1, true, 4⟩ := by
  have h := says_call exEnvD exShowD Console.fresh "load d g" exTypeLoad exTypeLoaded (.info ⟨"d", 2, 3, false, false, "", 0⟩) rfl (by
    rw [← infoOf_some (r := ((fresh : Api ℚ).exec exEnvD (.load "d" (some "1 4 2\n2 3 7".toList) ['g'] [' '] 0 0 false)).2) (by decide +kernel)]
    rfl)
  have h1 : Terminal exEnvD exDigits Console.fresh [exDoubleLoad] ⟨exTypeLoaded, true, 6⟩ := .snoc (h := []) (.nil _) (by decide) h (by simp)
  have h2 := says_call exEnvD exShowD ⟨exTypeLoaded, true, 6⟩ "normalize d" exTypeNorm exTypeUnit (.pair (fin 1, fin 7)) rfl (by
    rw [← pairOf_some (r := (exTypeLoaded.exec exEnvD (.normalize "d")).2) (by decide +kernel)]
    rfl)
  have h3 : Terminal exEnvD exDigits Console.fresh [exDoubleLoad, exDigitsNorm] ⟨exTypeUnit, true, 6⟩ :=
    .snoc (h := [exDoubleLoad]) h1 (by decide) h2 (by simp)
  have h4 := says_call exEnvD exShowD ⟨exTypeUnit, true, 6⟩ "group d 1 chebyshev" exGroupCall exTypeGrouped.1 (.int 3) rfl (by
    rw [← intOf_some (r := exTypeGrouped.2) (by decide +kernel)]
    exact exTypeGrouped_step)
  exact .snoc (h := [exDoubleLoad, exDigitsNorm]) h3 (by decide) h4 (by simp)

theorem exDigits_served (h : List (Entered ℚ)) (hh : ∀ x ∈ h, ¬ x.Touches ["load", "unload", "normalize"] "d") :
    ServedBy exEnvD "d" 3 (exDoubleLoad :: exDigitsNorm :: h) exRowsD :=
  .normalize (h₁ := [exDoubleLoad]) exDouble_raw (tokens_words "normalize d".toList) exRowsD_scaled
    (by unfold Entered.Fine HasLine; decide +kernel) hh

theorem exDigits_grouped : ServedGroups exEnvD [exDoubleLoad, exDigitsNorm, exDoubleGroup] "d" 3 exRowsD (metricName .chebyshev) (fin 1) :=
  ⟨[exDoubleLoad, exDigitsNorm], [], exDoubleGroup, ["group", "d", "1", "chebyshev"], 1, rfl, exDigits_served [] (by simp),
    tokens_words "group d 1 chebyshev".toList, .group1 "d" "1" "chebyshev" rfl, exDouble_fine.2.2, by simp⟩

theorem exDigits_asks : AsksServed exEnvD [exDoubleLoad, exDigitsNorm, exDoubleGroup] "d" 0 1 3 exQueryD :=
  ⟨3, exRowsD, 0, [0, 1 / 2, 6004799503160661 / 2 ^ 55], exDigits_served _ (by simpa using exDouble_untouched), rfl, by decide +kernel,
    .inr ⟨1, 3, rfl, rfl, by decide, by decide, rfl⟩⟩

/-- `sim d d 0 1 3` in double arithmetic on this screen. -/
example : ∃ (T : Text) (c : Console ℚ), Terminal exEnvD exDigits Console.fresh ([exDoubleLoad, exDigitsNorm, exDoubleGroup] ++
    [⟨exShowD, "sim d d 0 1 3", T⟩]) c ∧ ∃ w v, afterWords "Distance = " T = [w] ∧ readNumber w = some v := by
  obtain ⟨T, c, h⟩ := C112_sim_answers rfl exEnvD exDigits (.inl rfl) _ _ exDigits_double "d" 3 exRowsD .chebyshev (by decide) (by simp) (fin 1)
    exDigits_grouped "d" 0 1 3 exQueryD exDigits_asks (by decide) (by decide) (by decide +kernel) exShowD "sim d d 0 1 3" (by decide)
    ["sim", "d", "d", "0", "1", "3"] (tokens_words "sim d d 0 1 3".toList) (.sim1 "d" "d" "0" "1" "3" rfl rfl rfl)
  obtain ⟨i, p, ℓ, y, D, v, w, -, h1, h2, -⟩ := C117_double rfl exEnvD exDigits rfl (by decide) (.inl rfl) _ _ _ h "d" 3 exRowsD .chebyshev (.inr rfl) 1
    exDigits_grouped "d" 0 1 3 exQueryD exDigits_asks (by decide) (by decide +kernel) (1 / 10 ^ 14) exErrorD (by norm_num)
    ["sim", "d", "d", "0", "1", "3"] (tokens_words "sim d d 0 1 3".toList) (.sim1 "d" "d" "0" "1" "3" rfl rfl rfl)
  exact ⟨T, c, h, w, v, h1, h2⟩

end examples

end Genex.Props
