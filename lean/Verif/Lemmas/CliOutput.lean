import Verif.Spec.CliOutput
import Verif.Lemmas.Decimal
import Verif.Lemmas.Cli
import Verif.Lemmas.DatasetOps

/-!
# Lemmas about what the command line program prints
-/

set_option linter.unusedSectionVars false

namespace Genex

open Spec Cli

/-! ### Decimal digits -/

theorem decimal_digits {n : ℕ} (hn : 1 ≤ n) (x : ℚ) : Digits n (decimal n x) := by
  by_cases hx : x = 0
  · rw [hx, decimal_zero]
    exact ⟨0, 0, by simp, by simp⟩
  have hax : 0 < |x| := abs_pos.2 hx
  set s : ℤ := lastDecimal n x with hs
  have hs0 := ten_zpow s
  have l2 : |x| < (10 : ℚ) ^ (Int.log 10 |x| + 1) := by exact_mod_cast Int.lt_zpow_succ_log_self (b := 10) (by norm_num) |x|
  have hz : |x / 10 ^ s| ≤ ((10 ^ n : ℤ) : ℚ) := by
    rw [abs_div, abs_of_pos hs0, div_le_iff₀ hs0]
    push_cast
    rw [← zpow_natCast, ← zpow_add₀ (by norm_num)]
    rw [show (n : ℤ) + s = Int.log 10 |x| + 1 by rw [hs]; unfold lastDecimal; omega]
    exact le_of_lt l2
  obtain ⟨z1, z2⟩ := abs_le.1 hz
  have k2 := roundEven_mono z2
  have k1 := roundEven_mono z1
  rw [roundEven_int] at k2
  rw [roundEven_neg, roundEven_int] at k1
  rcases eq_or_lt_of_le (abs_le.2 ⟨k1, k2⟩ : |roundEven (x / 10 ^ s)| ≤ 10 ^ n) with h | h
  · have h10 : (1 : ℤ) < 10 ^ n := one_lt_pow₀ (by norm_num) (by omega)
    have e : (10 : ℚ) ^ n * 10 ^ s = 10 ^ ((n : ℤ) + s) := by rw [← zpow_natCast, ← zpow_add₀ (by norm_num)]
    rcases abs_choice (roundEven (x / 10 ^ s)) with h' | h'
    · refine ⟨1, n + s, by simpa using h10, ?_⟩
      unfold decimal
      rw [← hs, ← h', h]
      push_cast
      rw [e, one_mul]
    · refine ⟨-1, n + s, by simpa using h10, ?_⟩
      unfold decimal
      rw [← hs, ← neg_neg (roundEven (x / 10 ^ s)), ← h', h]
      push_cast
      rw [neg_mul, e, neg_one_mul]
  · exact ⟨_, s, h, rfl⟩

theorem decimal_nearest' {n : ℕ} (hn : 1 ≤ n) {x d : ℚ} (hd : Digits n d) : |decimal n x - x| ≤ |d - x| := by
  by_cases hx : x = 0
  · rw [hx, decimal_zero, sub_self, abs_zero]
    exact abs_nonneg _
  · exact decimal_nearest hn hx hd

/-- Printing keeps the order. -/
theorem decimal_mono {n : ℕ} (hn : 1 ≤ n) {x y : ℚ} (h : x ≤ y) : decimal n x ≤ decimal n y := by
  rcases eq_or_lt_of_le h with rfl | h
  · exact le_refl _
  by_contra hc
  push Not at hc
  have h1 := decimal_nearest' hn (x := x) (decimal_digits hn y)
  have h2 := decimal_nearest' hn (x := y) (decimal_digits hn x)
  set a := decimal n x
  set b := decimal n y
  have e1 : (a + b) / 2 ≤ x := by
    by_contra hx
    push Not at hx
    rcases le_total b x with hb | hb
    · rw [abs_of_nonpos (by linarith : b - x ≤ 0), abs_of_nonneg (by linarith : 0 ≤ a - x)] at h1
      linarith
    · rw [abs_of_nonneg (by linarith : 0 ≤ b - x), abs_of_nonneg (by linarith : 0 ≤ a - x)] at h1
      linarith
  have e2 : y ≤ (a + b) / 2 := by
    by_contra hx
    push Not at hx
    rcases le_total y a with hb | hb
    · rw [abs_of_nonpos (by linarith : b - y ≤ 0), abs_of_nonneg (by linarith : 0 ≤ a - y)] at h2
      linarith
    · rw [abs_of_nonpos (by linarith : b - y ≤ 0), abs_of_nonpos (by linarith : a - y ≤ 0)] at h2
      linarith
  linarith

/-! ### Lines -/

theorem textLines_ne (t : Text) : textLines t ≠ [] := by
  cases t with
  | nil => simp [textLines]
  | cons c cs =>
    rw [textLines]
    split
    · simp
    · split <;> simp

theorem textLines_app {l : Text} (hl : '\n' ∉ l) (t : Text) : textLines (l ++ '\n' :: t) = l :: textLines t := by
  induction l with
  | nil => simp [textLines]
  | cons c cs ih =>
    simp only [List.mem_cons, not_or] at hl
    rw [List.cons_append, textLines, if_neg (fun h => hl.1 h.symm), ih hl.2]

theorem textLines_last {l : Text} (hl : '\n' ∉ l) : textLines l = [l] := by
  induction l with
  | nil => rfl
  | cons c cs ih =>
    simp only [List.mem_cons, not_or] at hl
    rw [textLines, if_neg (fun h => hl.1 h.symm), ih hl.2]

/-- An end of a line separates. -/
theorem textLines_cut (a b : Text) : textLines (a ++ '\n' :: b) = textLines a ++ textLines b := by
  induction a with
  | nil => simp [textLines]
  | cons c cs ih =>
    rw [List.cons_append, textLines, textLines]
    by_cases hc : c = '\n'
    · rw [if_pos hc, if_pos hc, ih]; rfl
    · rw [if_neg hc, if_neg hc, ih]
      cases h : textLines cs with
      | nil => exact absurd h (textLines_ne cs)
      | cons x xs => rfl

theorem textLines_flat (L : List Text) (hL : ∀ l ∈ L, '\n' ∉ l) (t : Text) :
    textLines ((L.map (· ++ ['\n'])).flatten ++ t) = L ++ textLines t := by
  induction L with
  | nil => rfl
  | cons l L ih =>
    rw [List.map_cons, List.flatten_cons, List.append_assoc, List.append_assoc, List.singleton_append,
      textLines_app (hL l (by simp)), ih (fun x hx => hL x (by simp [hx]))]
    rfl

/-! ### Pieces -/

section
variable {K : Type} (S : Screen K)

theorem texts_app (a b : List (Piece K)) : Piece.texts S (a ++ b) = Piece.texts S a ++ Piece.texts S b := by
  induction a with
  | nil => simp [Piece.texts]
  | cons p ps ih => simp [Piece.texts, ih]

theorem texts_flat {α : Type} (f : α → List (Piece K)) (l : List α) :
    Piece.texts S (l.map f).flatten = (l.map fun x => Piece.texts S (f x)).flatten := by
  induction l with
  | nil => simp [Piece.texts]
  | cons a l ih => simp [texts_app, ih]

end

/-! ### Numbers -/

theorem following_app (p : String) (t : Text) : following p (p.toList ++ t) = some t := by
  rw [following, if_pos (List.prefix_append _ _), List.drop_left]

theorem takeWhile_app {α : Type} {p : α → Bool} {l : List α} (h : ∀ x ∈ l, p x = true) (t : List α) (ht : ∀ c, t.head? = some c → p c = false) :
    (l ++ t).takeWhile p = l ∧ (l ++ t).dropWhile p = t := by
  induction l with
  | nil =>
    cases t with
    | nil => simp
    | cons c cs => simp [ht c rfl]
  | cons a as ih =>
    have ha := h a (by simp)
    obtain ⟨h1, h2⟩ := ih (fun x hx => h x (by simp [hx]))
    simp [ha, h1, h2]

theorem readNat_app (n : ℕ) {t : Text} (ht : ∀ c, t.head? = some c → c.isDigit = false) :
    readNat (Nat.toDigits 10 n ++ t) = some (n, t) := by
  obtain ⟨h1, h2⟩ := takeWhile_app (p := Char.isDigit) (l := Nat.toDigits 10 n)
    (fun x hx => Nat.isDigit_of_mem_toDigits (by norm_num) (by norm_num) hx) t ht
  rw [readNat, h1, h2, if_neg Nat.toDigits_ne_nil, Nat.ofDigitChars_toDigits (by norm_num) (by norm_num)]

theorem intText_nat (n : ℕ) : intText (n : Int) = Nat.toDigits 10 n := by
  show (Int.repr (n : Int)).toList = _
  exact Nat.toList_repr

theorem intText_neg (n : ℕ) : intText (Int.negSucc n) = '-' :: Nat.toDigits 10 (n + 1) := by
  show ("-" ++ Nat.repr (n + 1)).toList = _
  rw [String.toList_append, Nat.toList_repr]
  rfl

theorem readInt_app (z : Int) {t : Text} (ht : ∀ c, t.head? = some c → c.isDigit = false) :
    readInt (intText z ++ t) = some (z, t) := by
  cases z with
  | ofNat n =>
    show readInt (intText (n : Int) ++ t) = _
    rw [intText_nat]
    have h := readNat_app n ht
    have hne : ∀ r, Nat.toDigits 10 n ++ t ≠ '-' :: r := by
      intro r hr
      cases hd : Nat.toDigits 10 n with
      | nil => exact Nat.toDigits_ne_nil hd
      | cons c cs =>
        rw [hd, List.cons_append] at hr
        injection hr with h1 _
        have := Nat.isDigit_of_mem_toDigits (b := 10) (n := n) (c := c) (by norm_num) (by norm_num) (by rw [hd]; simp)
        rw [h1] at this
        exact absurd this (by decide)
    rw [readInt, h]
    · rfl
    · exact hne
  | negSucc n =>
    rw [intText_neg, List.cons_append]
    simp only [readInt]
    rw [readNat_app _ ht]
    rfl

theorem intText_noNewline (z : Int) : '\n' ∉ intText z := by
  have hd : ∀ n : ℕ, '\n' ∉ Nat.toDigits 10 n := fun n h =>
    absurd (Nat.isDigit_of_mem_toDigits (by norm_num) (by norm_num) h) (by decide)
  cases z with
  | ofNat n => show '\n' ∉ intText (n : Int); rw [intText_nat]; exact hd n
  | negSucc n => rw [intText_neg]; simp [hd]

theorem readPlace_app (i a b : Int) (t : Text) :
    readPlace (intText i ++ (" [".toList ++ (intText a ++ (", ".toList ++ (intText b ++ ("] ".toList ++ t)))))) = some ((i, a, b), t) := by
  unfold readPlace
  rw [readInt_app i (by intro c hc; cases hc; decide), Option.bind_some, following_app, Option.bind_some,
    readInt_app a (by intro c hc; cases hc; decide), Option.bind_some, following_app, Option.bind_some,
    readInt_app b (by intro c hc; cases hc; decide), Option.bind_some, following_app]
  rfl

end Genex

namespace Genex

open Spec Cli

section
variable {K : Type} (S : Screen K)

/-! ### Answers -/

/-- The line of an answer. -/
def answerText (d : ℕ) (i a b : Int) (x : Dbl K) : Text :=
  "Timeseries ".toList ++ (intText i ++ (" [".toList ++ (intText a ++ (", ".toList ++ (intText b ++ ("] ".toList ++
    ("- distance = ".toList ++ S.num d x)))))))

theorem texts_answer (d : ℕ) (i a b : Int) (x : Dbl K) : Piece.texts S (answer d i a b x) = answerText S d i a b x ++ ['\n'] := by
  unfold answer place answerText
  generalize "Timeseries " = s1, " [" = s2, ", " = s3, "] " = s4, "- distance = " = s5
  simp only [Piece.texts, Piece.text, List.append_assoc, List.cons_append, List.nil_append]

variable {S}

theorem answerText_line (hS : Tidy S) (d : ℕ) (i a b : Int) (x : Dbl K) : '\n' ∉ answerText S d i a b x := by
  unfold answerText
  simp only [List.mem_append, not_or]
  exact ⟨by decide, intText_noNewline i, by decide, intText_noNewline a, by decide, intText_noNewline b, by decide, by decide, hS.num d x⟩

theorem readAnswer_answerText (d : ℕ) (i a b : Int) (x : Dbl K) : readAnswer (answerText S d i a b x) = some (i, a, b, S.num d x) := by
  unfold readAnswer answerText
  rw [following_app, Option.bind_some, readPlace_app, Option.bind_some, following_app]
  rfl

theorem following_not {p : String} (n : ℕ) {a t : Text} (hp : n ≤ p.toList.length) (ha : n ≤ a.length) (h : p.toList.take n ≠ a.take n) :
    following p (a ++ t) = none := by
  rw [following, if_neg]
  rintro ⟨r, hr⟩
  refine h ?_
  have := congrArg (List.take n) hr
  rwa [List.take_append_of_le_length hp, List.take_append_of_le_length ha] at this

theorem readAnswer_not (n : ℕ) {a t : Text} (hp : n ≤ "Timeseries ".toList.length) (ha : n ≤ a.length)
    (h : "Timeseries ".toList.take n ≠ a.take n) : readAnswer (a ++ t) = none := by
  rw [readAnswer, following_not n hp ha h]
  rfl

theorem readAnswer_nil : readAnswer [] = none := rfl

theorem following_nil {p : String} (hp : p.toList ≠ []) : following p [] = none := by
  rw [following, if_neg]
  rintro ⟨r, hr⟩
  exact hp (List.append_eq_nil_iff.1 hr).1

theorem filterMap_lines {β : Type} (f : Text → Option β) (H L : List Text) (hH : ∀ l ∈ H, '\n' ∉ l ∧ f l = none) (hL : ∀ l ∈ L, '\n' ∉ l)
    (hf : f [] = none) :
    (textLines ((H.map (· ++ ['\n'])).flatten ++ ((L.map (· ++ ['\n'])).flatten ++ ['\n']))).filterMap f = L.filterMap f := by
  rw [textLines_flat _ (fun l hl => (hH l hl).1), textLines_flat _ hL]
  have e : textLines ['\n'] = [[], []] := rfl
  rw [e, List.filterMap_append, List.filterMap_append]
  have h1 : H.filterMap f = [] := List.filterMap_eq_nil_iff.2 fun l hl => (hH l hl).2
  rw [h1]
  simp [hf]

/-- The line of the clock. -/
def clockLines (S : Screen K) (timer : Bool) : List Text :=
  if timer then ["Command executed in ".toList ++ (S.seconds ++ ['s'])] else []

theorem texts_timed (timer : Bool) (d : ℕ) : Piece.texts S (timed (K := K) timer d).1 = ((clockLines S timer).map (· ++ ['\n'])).flatten ∧
    (timed (K := K) timer d).2 = if timer then 4 else d := by
  cases timer <;> simp [timed, clockLines, Piece.texts, Piece.text]

end

/-! ### The names in a line -/

theorem tokens_chars {l cur : List Char} {w : List Char} {c : Char} (hw : w ∈ Cli.tokens l cur) (hc : c ∈ w) : c ∈ l ∨ c ∈ cur := by
  induction l generalizing cur with
  | nil =>
    rw [Cli.tokens] at hw
    split at hw
    · cases hw
    · rw [List.mem_singleton] at hw
      subst hw
      exact .inr (by simpa using hc)
  | cons x xs ih =>
    rw [Cli.tokens] at hw
    split at hw
    · split at hw
      · rcases ih hw with h | h
        · exact .inl (List.mem_cons_of_mem _ h)
        · cases h
      · rw [List.mem_cons] at hw
        rcases hw with rfl | hw
        · exact .inr (by simpa using hc)
        · rcases ih hw with h | h
          · exact .inl (List.mem_cons_of_mem _ h)
          · cases h
    · rcases ih hw with h | h
      · exact .inl (List.mem_cons_of_mem _ h)
      · rw [List.mem_cons] at h
        rcases h with rfl | h
        · exact .inl List.mem_cons_self
        · exact .inr h

theorem arg_line {line : String} (hl : '\n' ∉ line.toList) (i : ℕ) : '\n' ∉ (arg (splitLine line) i).toList := by
  unfold arg
  rw [List.getD_eq_getElem?_getD]
  cases h : (splitLine line)[i]? with
  | none => simp
  | some w =>
    have hm := List.mem_of_getElem? h
    unfold splitLine at hm
    rw [List.mem_map] at hm
    obtain ⟨v, hv, rfl⟩ := hm
    intro hc
    rw [Option.getD_some, String.toList_ofList] at hc
    rcases tokens_chars hv hc with h | h
    · exact hl h
    · cases h

variable {K : Type}

/-- A line on which a command runs. -/
theorem process_command {P : CliEnv K} {line : String} {r : Res (Action K)} (h : processLine P line = .run r) :
    ∃ f, (commands P).lookup (arg (splitLine line) 0) = some f ∧ f (splitLine line) = r ∧ splitLine line ≠ [] := by
  unfold processLine at h
  split at h
  · cases h
  rename_i a as hs
  split at h
  · cases h
  split at h
  · cases h
  split at h
  · cases h
  split at h
  · cases h
  rename_i f hf
  injection h with h
  rw [hs]
  exact ⟨f, hf, h, by simp⟩

/-- The lines before the answers of `ksim`. -/
def ksimHead (S : Screen K) (timer : Bool) (k ke : Int) (t q : String) (i a b : Int) : List Text :=
  clockLines S timer ++ ["Target dataset: ".toList ++ t.toList, "Query dataset: ".toList ++ q.toList,
    "k = ".toList ++ (intText k ++ (". ke = ".toList ++ intText ke)),
    "Query time series: ".toList ++ (intText i ++ (" [".toList ++ (intText a ++ (", ".toList ++ (intText b ++ "] ".toList)))))]

/-- The lines before the answers of `ksimBF`. -/
def bfHead (S : Screen K) (timer : Bool) (k : Int) (t q : String) (i a b : Int) : List Text :=
  clockLines S timer ++ ["Target dataset: ".toList ++ t.toList, "Query dataset: ".toList ++ q.toList, "k = ".toList ++ intText k,
    "Query time series: ".toList ++ (intText i ++ (" [".toList ++ (intText a ++ (", ".toList ++ (intText b ++ "] ".toList)))))]

theorem clockLines_head {S : Screen K} (hS : Tidy S) (timer : Bool) : ∀ l ∈ clockLines S timer, '\n' ∉ l ∧ readAnswer l = none := by
  intro l hl
  cases timer with
  | false => cases hl
  | true =>
    simp only [clockLines, if_true, List.mem_singleton] at hl
    subst hl
    refine ⟨?_, readAnswer_not 1 (by decide) (by decide) (by decide)⟩
    simp only [List.mem_append, not_or]
    exact ⟨by decide, hS.seconds, by decide⟩

theorem ksimHead_head {S : Screen K} (hS : Tidy S) (timer : Bool) (k ke : Int) {t q : String} (ht : '\n' ∉ t.toList) (hq : '\n' ∉ q.toList)
    (i a b : Int) : ∀ l ∈ ksimHead S timer k ke t q i a b, '\n' ∉ l ∧ readAnswer l = none := by
  intro l hl
  unfold ksimHead at hl
  rw [List.mem_append] at hl
  rcases hl with hl | hl
  · exact clockLines_head hS timer l hl
  · simp only [List.mem_cons, List.not_mem_nil, or_false] at hl
    rcases hl with rfl | rfl | rfl | rfl
    all_goals refine ⟨?_, readAnswer_not 2 (by decide) (by decide) (by decide)⟩
    all_goals simp only [List.mem_append, not_or]
    · exact ⟨by decide, ht⟩
    · exact ⟨by decide, hq⟩
    · exact ⟨by decide, intText_noNewline k, by decide, intText_noNewline ke⟩
    · exact ⟨by decide, intText_noNewline i, by decide, intText_noNewline a, by decide, intText_noNewline b, by decide⟩

theorem bfHead_head {S : Screen K} (hS : Tidy S) (timer : Bool) (k : Int) {t q : String} (ht : '\n' ∉ t.toList) (hq : '\n' ∉ q.toList)
    (i a b : Int) : ∀ l ∈ bfHead S timer k t q i a b, '\n' ∉ l ∧ readAnswer l = none := by
  intro l hl
  unfold bfHead at hl
  rw [List.mem_append] at hl
  rcases hl with hl | hl
  · exact clockLines_head hS timer l hl
  · simp only [List.mem_cons, List.not_mem_nil, or_false] at hl
    rcases hl with rfl | rfl | rfl | rfl
    all_goals refine ⟨?_, readAnswer_not 2 (by decide) (by decide) (by decide)⟩
    all_goals simp only [List.mem_append, not_or]
    · exact ⟨by decide, ht⟩
    · exact ⟨by decide, hq⟩
    · exact ⟨by decide, intText_noNewline k⟩
    · exact ⟨by decide, intText_noNewline i, by decide, intText_noNewline a, by decide, intText_noNewline b, by decide⟩

theorem texts_ksim [Zero K] (S : Screen K) (timer : Bool) (d : ℕ) (args : List String) (k ke : Int) (t q : String) (i a b : Int)
    (l : List (GSet.Entry K)) :
    Piece.texts S ((report timer d args (.call (.kBest k ke t q i a b)) (.entries l)).1 ++ [.endl]) =
      ((ksimHead S timer k ke t q i a b).map (· ++ ['\n'])).flatten ++
        ((l.map fun e => Piece.texts S (entryLine (if timer then 4 else d) e)).flatten ++ ['\n']) := by
  obtain ⟨h1, h2⟩ := texts_timed (S := S) timer d
  unfold report ksimHead place
  simp only [texts_app, texts_flat, h1, h2, List.map_append, List.flatten_append, List.append_assoc]
  generalize "Target dataset: " = s1, "Query dataset: " = s2, "k = " = s3, ". ke = " = s4, "Query time series: " = s5, " [" = s6, ", " = s7,
    "] " = s8
  simp only [Piece.texts, Piece.text, List.append_assoc, List.cons_append, List.nil_append, List.map_cons, List.map_nil, List.flatten_cons,
    List.flatten_nil]

theorem texts_bf [Zero K] (S : Screen K) (timer : Bool) (d : ℕ) (args : List String) (k : Int) (t q : String) (i a b : Int) (dist : String)
    (l : List (Cand K)) :
    Piece.texts S ((report timer d args (.call (.bruteForce k t q i a b dist)) (.cands l)).1 ++ [.endl]) =
      ((bfHead S timer k t q i a b).map (· ++ ['\n'])).flatten ++
        ((l.map fun c => Piece.texts S (answer (if timer then 4 else d) c.view.index c.view.start c.view.stop c.dist)).flatten ++
          ['\n']) := by
  obtain ⟨h1, h2⟩ := texts_timed (S := S) timer d
  unfold report bfHead place
  simp only [texts_app, texts_flat, h1, h2, List.map_append, List.flatten_append, List.append_assoc]
  generalize "Target dataset: " = s1, "Query dataset: " = s2, "k = " = s3, "Query time series: " = s5, " [" = s6, ", " = s7, "] " = s8
  simp only [Piece.texts, Piece.text, List.append_assoc, List.cons_append, List.nil_append, List.map_cons, List.map_nil, List.flatten_cons,
    List.flatten_nil]

/-- The lines before the answer of `sim`. -/
def simHead (S : Screen K) (timer : Bool) (t q : String) (i a b : Int) : List Text :=
  clockLines S timer ++ ["Target dataset: ".toList ++ t.toList, "Query dataset: ".toList ++ q.toList,
    "Query time series: ".toList ++ (intText i ++ (" [".toList ++ (intText a ++ (", ".toList ++ (intText b ++ "] ".toList)))))]

theorem simHead_head {S : Screen K} (hS : Tidy S) (timer : Bool) {t q : String} (ht : '\n' ∉ t.toList) (hq : '\n' ∉ q.toList)
    (i a b : Int) : (∀ l ∈ simHead S timer t q i a b, '\n' ∉ l ∧
      ((following "Best match is time series " l).bind fun r => (readPlace r).map Prod.fst) = none) ∧
    ∀ l ∈ simHead S timer t q i a b, '\n' ∉ l ∧ following "Distance = " l = none := by
  have key : ∀ l ∈ simHead S timer t q i a b, '\n' ∉ l ∧ following "Best match is time series " l = none ∧ following "Distance = " l = none := by
    intro l hl
    unfold simHead at hl
    rw [List.mem_append] at hl
    rcases hl with hl | hl
    · refine ⟨(clockLines_head hS timer l hl).1, ?_⟩
      cases timer with
      | false => cases hl
      | true =>
        simp only [clockLines, if_true, List.mem_singleton] at hl
        subst hl
        exact ⟨following_not 1 (by decide) (by decide) (by decide), following_not 1 (by decide) (by decide) (by decide)⟩
    · simp only [List.mem_cons, List.not_mem_nil, or_false] at hl
      rcases hl with rfl | rfl | rfl
      all_goals refine ⟨?_, following_not 1 (by decide) (by decide) (by decide), following_not 1 (by decide) (by decide) (by decide)⟩
      all_goals simp only [List.mem_append, not_or]
      · exact ⟨by decide, ht⟩
      · exact ⟨by decide, hq⟩
      · exact ⟨by decide, intText_noNewline i, by decide, intText_noNewline a, by decide, intText_noNewline b, by decide⟩
  exact ⟨fun l hl => ⟨(key l hl).1, by rw [(key l hl).2.1]; rfl⟩, fun l hl => ⟨(key l hl).1, (key l hl).2.2⟩⟩

/-- The two lines of the answer of `sim`. -/
def bestLines (S : Screen K) (d : ℕ) (i a b : Int) (x : Dbl K) : List Text :=
  ["Best match is time series ".toList ++ (intText i ++ (" [".toList ++ (intText a ++ (", ".toList ++ (intText b ++ "] ".toList))))),
    "Distance = ".toList ++ S.num d x]

theorem bestLines_line {S : Screen K} (hS : Tidy S) (d : ℕ) (i a b : Int) (x : Dbl K) : ∀ l ∈ bestLines S d i a b x, '\n' ∉ l := by
  intro l hl
  simp only [bestLines, List.mem_cons, List.not_mem_nil, or_false] at hl
  rcases hl with rfl | rfl
  all_goals simp only [List.mem_append, not_or]
  · exact ⟨by decide, intText_noNewline i, by decide, intText_noNewline a, by decide, intText_noNewline b, by decide⟩
  · exact ⟨by decide, hS.num d x⟩

theorem texts_sim [Zero K] (S : Screen K) (timer : Bool) (d : ℕ) (args : List String) (t q : String) (i a b : Int) (r : Cand K) :
    Piece.texts S ((report timer d args (.call (.bestMatch t q i a b)) (.cand r)).1 ++ [.endl]) =
      ((simHead S timer t q i a b).map (· ++ ['\n'])).flatten ++
        (((bestLines S (if timer then 4 else d) r.view.index r.view.start r.view.stop r.dist).map (· ++ ['\n'])).flatten ++ ['\n']) := by
  obtain ⟨h1, h2⟩ := texts_timed (S := S) timer d
  unfold report simHead bestLines place
  simp only [texts_app, h1, h2, List.map_append, List.flatten_append, List.append_assoc]
  generalize "Target dataset: " = s1, "Query dataset: " = s2, "Best match is time series " = s3, "Distance = " = s4,
    "Query time series: " = s5, " [" = s6, ", " = s7, "] " = s8
  simp only [Piece.texts, Piece.text, List.append_assoc, List.cons_append, List.nil_append, List.map_cons, List.map_nil, List.flatten_cons,
    List.flatten_nil]

theorem texts_distance [Zero K] (S : Screen K) (timer : Bool) (d : ℕ) (args : List String) (n1 n2 dist : String)
    (i1 s1 e1 i2 s2 e2 : Int) (x : Dbl K) : ∃ A : Text,
    Piece.texts S ((report timer d args (.call (.distance n1 i1 s1 e1 n2 i2 s2 e2 dist)) (.dist x)).1 ++ [.endl]) =
      (A ++ ['\n']) ++ ("is ".toList ++ (S.num d x ++ ['\n', '\n'])) := by
  unfold report place
  generalize " distance between " = t1, "from dataset " = t2, "is " = t3, " [" = t4, ", " = t5, "] " = t6
  simp only [Piece.texts, Piece.text, List.append_assoc, List.cons_append, List.nil_append]
  refine ⟨dist.toList ++ (t1.toList ++ '\n' :: (intText i1 ++ (t4.toList ++ (intText s1 ++ (t5.toList ++ (intText e1 ++ (t6.toList ++
    (t2.toList ++ (n1.toList ++ '\n' :: (intText i2 ++ (t4.toList ++ (intText s2 ++ (t5.toList ++ (intText e2 ++ (t6.toList ++
    (t2.toList ++ n2.toList)))))))))))))))), ?_⟩
  simp only [List.append_assoc, List.cons_append, List.nil_append]

/-- The commands that search, and the names they are given. -/
theorem call_args {P : CliEnv K} {line : String} {a : Api.AnyCall K} (h : processLine P line = .run (.ok (.call a))) :
    match a with
    | .call (.kBest _ _ t q _ _ _) => arg (splitLine line) 0 = "ksim" ∧ t = arg (splitLine line) 2 ∧ q = arg (splitLine line) 3
    | .call (.bruteForce _ t q _ _ _ _) => arg (splitLine line) 0 = "ksimBF" ∧ t = arg (splitLine line) 2 ∧ q = arg (splitLine line) 3
    | .call (.bestMatch t q _ _ _) => arg (splitLine line) 0 = "sim" ∧ t = arg (splitLine line) 1 ∧ q = arg (splitLine line) 2
    | .call (.distance n _ _ _ m _ _ _ _) => arg (splitLine line) 0 = "distance" ∧ n = arg (splitLine line) 1 ∧ m = arg (splitLine line) 5
    | .group n _ _ _ _ => arg (splitLine line) 0 = "group" ∧ n = arg (splitLine line) 1
    | .call (.series n _ _ _) => arg (splitLine line) 0 = "print" ∧ n = arg (splitLine line) 1
    | _ => True := by
  obtain ⟨f, hf, hr, -⟩ := process_command h
  have hm := lookup_mem hf
  simp only [commands, List.map_cons, List.map_nil, List.mem_cons, List.not_mem_nil, or_false] at hm
  generalize splitLine line = args at hf hr hm ⊢
  rcases hm with e | e | e | e | e | e | e | e | e | e | e | e | e | e <;> rw [e] at hf ⊢ <;> cases hf
  · unfold load at hr
    split at hr
    · cases hr
    obtain ⟨_, -, hr⟩ := res_bind hr
    obtain ⟨_, -, hr⟩ := res_bind hr
    obtain ⟨_, -, hr⟩ := res_bind hr
    cases hr
    trivial
  · unfold save at hr
    split at hr <;> cases hr
    trivial
  · unfold unload at hr
    split at hr <;> cases hr
    trivial
  · unfold list at hr
    split at hr
    · cases hr
    split at hr
    · cases hr; trivial
    split at hr <;> cases hr
    trivial
  · unfold timer at hr
    split at hr
    · cases hr
    split at hr
    · cases hr
    split at hr
    · cases hr
    split at hr <;> cases hr
  · unfold distance at hr
    split at hr
    · cases hr
    obtain ⟨_, -, hr⟩ := res_bind hr
    obtain ⟨_, -, hr⟩ := res_bind hr
    obtain ⟨_, -, hr⟩ := res_bind hr
    obtain ⟨_, -, hr⟩ := res_bind hr
    obtain ⟨_, -, hr⟩ := res_bind hr
    obtain ⟨_, -, hr⟩ := res_bind hr
    cases hr
    exact ⟨rfl, rfl, rfl⟩
  · unfold group at hr
    split at hr
    · cases hr
    obtain ⟨_, -, hr⟩ := res_bind hr
    cases hr
    exact ⟨rfl, rfl⟩
  · unfold saveGroups at hr
    split at hr
    · cases hr
    obtain ⟨_, -, hr⟩ := res_bind hr
    split at hr <;> cases hr <;> trivial
  · unfold loadGroups at hr
    split at hr <;> cases hr
    trivial
  · unfold normalize at hr
    split at hr <;> cases hr
    trivial
  · unfold sim at hr
    split at hr
    · cases hr
    obtain ⟨_, -, hr⟩ := res_bind hr
    split at hr
    · obtain ⟨_, -, hr⟩ := res_bind hr
      obtain ⟨_, -, hr⟩ := res_bind hr
      cases hr
      exact ⟨rfl, rfl, rfl⟩
    split at hr <;> cases hr
    exact ⟨rfl, rfl, rfl⟩
  · unfold ksim at hr
    split at hr
    · cases hr
    obtain ⟨_, -, hr⟩ := res_bind hr
    obtain ⟨_, -, hr⟩ := res_bind hr
    obtain ⟨_, -, hr⟩ := res_bind hr
    cases hr
    exact ⟨rfl, rfl, rfl⟩
  · unfold ksimBF at hr
    split at hr
    · cases hr
    obtain ⟨_, -, hr⟩ := res_bind hr
    obtain ⟨_, -, hr⟩ := res_bind hr
    obtain ⟨_, -, hr⟩ := res_bind hr
    cases hr
    exact ⟨rfl, rfl, rfl⟩
  · unfold print at hr
    split at hr
    · cases hr
    obtain ⟨_, -, hr⟩ := res_bind hr
    obtain ⟨_, -, hr⟩ := res_bind hr
    obtain ⟨_, -, hr⟩ := res_bind hr
    cases hr
    exact ⟨rfl, rfl⟩

/-- A line that prints the state of the timer. -/
theorem nothing_args {P : CliEnv K} {line : String} (h : processLine P line = .run (.ok .nothing)) : arg (splitLine line) 0 = "timer" := by
  obtain ⟨f, hf, hr, -⟩ := process_command h
  have hm := lookup_mem hf
  simp only [commands, List.map_cons, List.map_nil, List.mem_cons, List.not_mem_nil, or_false] at hm
  generalize splitLine line = args at hf hr hm ⊢
  rcases hm with e | e | e | e | e | e | e | e | e | e | e | e | e | e <;> rw [e] at hf ⊢ <;> cases hf <;> exfalso
  · unfold load at hr
    split at hr
    · cases hr
    obtain ⟨_, -, hr⟩ := res_bind hr
    obtain ⟨_, -, hr⟩ := res_bind hr
    obtain ⟨_, -, hr⟩ := res_bind hr
    cases hr
  · unfold save at hr
    split at hr <;> cases hr
  · unfold unload at hr
    split at hr <;> cases hr
  · unfold list at hr
    split at hr
    · cases hr
    split at hr
    · cases hr
    split at hr <;> cases hr
  · unfold distance at hr
    split at hr
    · cases hr
    obtain ⟨_, -, hr⟩ := res_bind hr
    obtain ⟨_, -, hr⟩ := res_bind hr
    obtain ⟨_, -, hr⟩ := res_bind hr
    obtain ⟨_, -, hr⟩ := res_bind hr
    obtain ⟨_, -, hr⟩ := res_bind hr
    obtain ⟨_, -, hr⟩ := res_bind hr
    cases hr
  · unfold group at hr
    split at hr
    · cases hr
    obtain ⟨_, -, hr⟩ := res_bind hr
    cases hr
  · unfold saveGroups at hr
    split at hr
    · cases hr
    obtain ⟨_, -, hr⟩ := res_bind hr
    split at hr <;> cases hr
  · unfold loadGroups at hr
    split at hr <;> cases hr
  · unfold normalize at hr
    split at hr <;> cases hr
  · unfold sim at hr
    split at hr
    · cases hr
    obtain ⟨_, -, hr⟩ := res_bind hr
    split at hr
    · obtain ⟨_, -, hr⟩ := res_bind hr
      obtain ⟨_, -, hr⟩ := res_bind hr
      cases hr
    split at hr <;> cases hr
  · unfold ksim at hr
    split at hr
    · cases hr
    obtain ⟨_, -, hr⟩ := res_bind hr
    obtain ⟨_, -, hr⟩ := res_bind hr
    obtain ⟨_, -, hr⟩ := res_bind hr
    cases hr
  · unfold ksimBF at hr
    split at hr
    · cases hr
    obtain ⟨_, -, hr⟩ := res_bind hr
    obtain ⟨_, -, hr⟩ := res_bind hr
    obtain ⟨_, -, hr⟩ := res_bind hr
    cases hr
  · unfold print at hr
    split at hr
    · cases hr
    obtain ⟨_, -, hr⟩ := res_bind hr
    obtain ⟨_, -, hr⟩ := res_bind hr
    obtain ⟨_, -, hr⟩ := res_bind hr
    cases hr

theorem starts_arg {line w : String} (hw : w ≠ "") (h : arg (splitLine line) 0 = w) : Starts line w := by
  have ht := tokens_words line.toList
  unfold arg splitLine at h
  cases hl : Cli.tokens line.toList [] with
  | nil => rw [hl] at h; exact absurd h.symm hw
  | cons v vs =>
    rw [hl] at h ht
    refine ⟨vs, ?_⟩
    have : w.toList = v := by rw [← h]; simp
    rw [this]
    exact ht

theorem report_digits [Zero K] (timer : Bool) (d : ℕ) (args : List String) (a : Api.AnyCall K) (out : Out K) :
    (report timer d args a out).2 = d ∨
    (timer = true ∧ (report timer d args a out).2 = 4 ∧ ((∃ n t dist m w, a = .group n t dist m w) ∨
      (∃ t q i s e, a = .call (.bestMatch t q i s e)) ∨ (∃ k ke t q i s e, a = .call (.kBest k ke t q i s e)) ∨
      ∃ k t q i s e dist, a = .call (.bruteForce k t q i s e dist))) ∨
    ((report timer d args a out).2 = 16 ∧ ∃ n i s e, a = .call (.series n i s e)) := by
  have ht : ∀ p : Prop, p → (timed (K := K) timer d).2 = d ∨ (timer = true ∧ (timed (K := K) timer d).2 = 4 ∧ p) := by
    intro p hp
    cases timer
    · exact .inl rfl
    · exact .inr ⟨rfl, rfl, hp⟩
  unfold report
  split
  case h_7 => exact (ht _ (.inl ⟨_, _, _, _, _, rfl⟩)).elim .inl (fun h => .inr (.inl h))
  case h_12 => exact (ht _ (.inr (.inl ⟨_, _, _, _, _, rfl⟩))).elim .inl (fun h => .inr (.inl h))
  case h_13 => exact (ht _ (.inr (.inr (.inl ⟨_, _, _, _, _, _, _, rfl⟩)))).elim .inl (fun h => .inr (.inl h))
  case h_14 => exact (ht _ (.inr (.inr (.inr ⟨_, _, _, _, _, _, _, rfl⟩)))).elim .inl (fun h => .inr (.inl h))
  case h_15 pts =>
    by_cases h : pts = []
    · exact .inl (if_pos h)
    · exact .inr (.inr ⟨if_neg h, _, _, _, _, rfl⟩)
  all_goals exact .inl rfl

section
variable [Field K] [LinearOrder K] [HasSqrt K] [Arith K] [BandOps]

theorem says_state {E : Env K} {P : CliEnv K} {c c' : Console K} {line : String} {ps : List (Piece K)} {o : Outcome K}
    (hs : Says E P c line c' ps o) :
    (c'.digits = c.digits ∨
    (c.timer = true ∧ c'.digits = 4 ∧ (Starts line "group" ∨ Starts line "sim" ∨ Starts line "ksim" ∨ Starts line "ksimBF")) ∨
    (c'.digits = 16 ∧ Starts line "print")) ∧ (c'.timer = c.timer ∨ Starts line "timer") := by
  have h := hs.2
  unfold output at h
  split at h
  case h_1 => simp only [Option.some.injEq, Prod.mk.injEq] at h; exact ⟨.inl h.2.2.symm, .inl h.2.1.symm⟩
  case h_2 => simp only [Option.some.injEq, Prod.mk.injEq] at h; exact ⟨.inl h.2.2.symm, .inl h.2.1.symm⟩
  case h_3 =>
    dsimp only at h
    split at h
    · simp only [Option.some.injEq, Prod.mk.injEq] at h; exact ⟨.inl h.2.2.symm, .inl h.2.1.symm⟩
    split at h <;> simp only [Option.some.injEq, Prod.mk.injEq] at h <;> exact ⟨.inl h.2.2.symm, .inl h.2.1.symm⟩
  case h_4 => simp only [Option.some.injEq, Prod.mk.injEq] at h; exact ⟨.inl h.2.2.symm, .inl h.2.1.symm⟩
  case h_5 => simp only [Option.some.injEq, Prod.mk.injEq] at h; exact ⟨.inl h.2.2.symm, .inl h.2.1.symm⟩
  case h_6 hp =>
    simp only [Option.some.injEq, Prod.mk.injEq] at h
    exact ⟨.inl h.2.2.symm, .inr (starts_arg (by decide) (nothing_args hp))⟩
  case h_7 => simp only [Option.some.injEq, Prod.mk.injEq] at h; exact ⟨.inl h.2.2.symm, .inl h.2.1.symm⟩
  case h_8 a hp =>
    split at h
    · rename_i out
      simp only [Option.some.injEq, Prod.mk.injEq] at h
      refine ⟨?_, .inl h.2.1.symm⟩
      have ha := call_args hp
      rw [← h.2.2]
      rcases report_digits c.timer c.digits (splitLine line) a out with h1 | ⟨h1, h2, h3⟩ | ⟨h1, h2⟩
      · exact .inl h1
      · refine .inr (.inl ⟨h1, h2, ?_⟩)
        rcases h3 with ⟨_, _, _, _, _, rfl⟩ | ⟨_, _, _, _, _, rfl⟩ | ⟨_, _, _, _, _, _, _, rfl⟩ | ⟨_, _, _, _, _, _, _, rfl⟩
        · exact .inl (starts_arg (by decide) ha.1)
        · exact .inr (.inl (starts_arg (by decide) ha.1))
        · exact .inr (.inr (.inl (starts_arg (by decide) ha.1)))
        · exact .inr (.inr (.inr (starts_arg (by decide) ha.1)))
      · obtain ⟨_, _, _, _, rfl⟩ := h2
        exact .inr (.inr ⟨h1, starts_arg (by decide) ha.1⟩)
    · rw [Option.bind_eq_some_iff] at h
      obtain ⟨m, -, h⟩ := h
      simp only [Option.some.injEq, Prod.mk.injEq] at h
      exact ⟨.inl h.2.2.symm, .inl h.2.1.symm⟩
    · cases h


/-! ### Errors -/

theorem textLines_prefix {p : Text} (hp : '\n' ∉ p) (t : Text) : ∃ l ls, textLines (p ++ t) = (p ++ l) :: ls := by
  induction p with
  | nil =>
    cases h : textLines t with
    | nil => exact absurd h (textLines_ne t)
    | cons l ls => exact ⟨l, ls, h⟩
  | cons c cs ih =>
    simp only [List.mem_cons, not_or] at hp
    obtain ⟨l, ls, h⟩ := ih hp.2
    rw [List.cons_append, textLines, if_neg (fun e => hp.1 e.symm), h]
    exact ⟨l, ls, rfl⟩

theorem hasLine_start {p : String} (hp : '\n' ∉ p.toList) (t : Text) : HasLine p (p.toList ++ t) := by
  obtain ⟨l, ls, h⟩ := textLines_prefix hp t
  exact ⟨p.toList ++ l, by rw [h]; exact List.mem_cons_self, List.prefix_append _ _⟩

theorem hasLine_after {p : String} {a t : Text} (ha : a = [] ∨ a.getLast? = some '\n') (h : HasLine p t) : HasLine p (a ++ t) := by
  rcases ha with rfl | ha
  · exact h
  · obtain ⟨l, hl, hp⟩ := h
    obtain ⟨b, rfl⟩ : ∃ b, a = b ++ ['\n'] := ⟨a.dropLast, (List.dropLast_append_getLast? _ ha).symm⟩
    rw [List.append_assoc, List.singleton_append]
    exact ⟨l, by rw [textLines_cut]; exact List.mem_append_right _ hl, hp⟩

theorem hasLine_left {p : String} {a t : Text} (hp : '\n' ∉ p.toList) (h : p.toList <+: a) : HasLine p (a ++ t) := by
  obtain ⟨r, rfl⟩ := h
  rw [List.append_assoc]
  exact hasLine_start hp _

theorem message_prefix (S : Screen K) {e : Fault} {m : List (Piece K)} (h : message e = some m) : "Error! ".toList <+: Piece.texts S m := by
  unfold message at h
  split at h
  · cases h
    exact List.prefix_append _ _
  · split at h <;> cases h
    · exact ⟨"Cannot convert some value to numeric\n".toList, by rfl⟩
    · exact List.prefix_append _ _
  · cases h
  · cases h

theorem says_error {E : Env K} {P : CliEnv K} {S : Screen K} (hS : S.progress = [] ∨ S.progress.getLast? = some '\n') {c c' : Console K}
    {line : String} {ps : List (Piece K)} {e : Fault} {o : Outcome K} (ho : o = .caught e ∨ o = .reply (.ret (.error e)))
    (hs : Says E P c line c' ps o) : HasLine "Error! " (Piece.texts S ps) := by
  have hn : '\n' ∉ "Error! ".toList := by decide
  obtain ⟨ht, h⟩ := hs
  unfold output at h
  unfold Turn at ht
  split at ht
  · rcases ho with rfl | rfl <;> cases ht.2
  · rename_i a hp
    rw [hp] at h
    obtain ⟨r, -, hr⟩ := ht
    rcases ho with rfl | rfl
    · cases hr
    dsimp only at h
    rw [Option.bind_eq_some_iff] at h
    obtain ⟨m, hm, h⟩ := h
    simp only [Option.some.injEq, Prod.mk.injEq] at h
    rw [← h.1, texts_app, texts_app, List.append_assoc]
    refine hasLine_after ?_ (hasLine_left hn (message_prefix S hm))
    unfold before
    split
    · right
      simp only [Piece.texts, Piece.text, List.append_nil]
      rcases hS with hS | hS
      · rw [hS, ← List.append_assoc, ← List.append_assoc, List.append_nil, List.getLast?_append]
        rfl
      · simp only [List.getLast?_append, hS]
        rfl
    · left
      rfl
  · rename_i e' hp
    rw [hp] at h
    simp only [Option.some.injEq, Prod.mk.injEq] at h
    rw [← h.1, texts_app]
    exact hasLine_left hn ⟨"Cannot convert some value to numeric\n".toList, by rfl⟩
  · rcases ho with rfl | rfl <;> cases ht.2

/-- Why a command prints its usage. -/
theorem usage_args {P : CliEnv K} {line : String} (h : processLine P line = .run (.ok .usage)) :
    (∃ l, limits.lookup (arg (splitLine line) 0) = some l ∧ countMessage (splitLine line) l.1 l.2 ≠ none) ∨
    arg (splitLine line) 0 = "list" ∨ arg (splitLine line) 0 = "timer" ∨
    (arg (splitLine line) 0 = "sim" ∧ (splitLine line).length = 5) := by
  have hb : ∀ {args : List String} {lo hi : ℕ}, badCount args lo hi = true → countMessage args lo hi ≠ none := by
    intro args lo hi h
    unfold badCount at h
    unfold countMessage
    simp only [Bool.or_eq_true, decide_eq_true_eq] at h
    split
    · simp
    split
    · simp
    omega
  obtain ⟨f, hf, hr, -⟩ := process_command h
  have hm := lookup_mem hf
  simp only [commands, List.map_cons, List.map_nil, List.mem_cons, List.not_mem_nil, or_false] at hm
  generalize splitLine line = args at hf hr hm ⊢
  rcases hm with e | e | e | e | e | e | e | e | e | e | e | e | e | e <;> rw [e] at hf ⊢ <;> cases hf
  · unfold load at hr
    split at hr
    · rename_i h; exact .inl ⟨_, rfl, hb h⟩
    obtain ⟨_, -, hr⟩ := res_bind hr
    obtain ⟨_, -, hr⟩ := res_bind hr
    obtain ⟨_, -, hr⟩ := res_bind hr
    cases hr
  · unfold save at hr
    split at hr <;> cases hr
    rename_i h; exact .inl ⟨_, rfl, hb h⟩
  · unfold unload at hr
    split at hr <;> cases hr
    rename_i h; exact .inl ⟨_, rfl, hb h⟩
  · exact .inr (.inl rfl)
  · exact .inr (.inr (.inl rfl))
  · unfold distance at hr
    split at hr
    · rename_i h; exact .inl ⟨_, rfl, hb h⟩
    obtain ⟨_, -, hr⟩ := res_bind hr
    obtain ⟨_, -, hr⟩ := res_bind hr
    obtain ⟨_, -, hr⟩ := res_bind hr
    obtain ⟨_, -, hr⟩ := res_bind hr
    obtain ⟨_, -, hr⟩ := res_bind hr
    obtain ⟨_, -, hr⟩ := res_bind hr
    cases hr
  · unfold group at hr
    split at hr
    · rename_i h; exact .inl ⟨_, rfl, hb h⟩
    obtain ⟨_, -, hr⟩ := res_bind hr
    cases hr
  · unfold saveGroups at hr
    split at hr
    · rename_i h; exact .inl ⟨_, rfl, hb h⟩
    obtain ⟨_, -, hr⟩ := res_bind hr
    split at hr <;> cases hr
  · unfold loadGroups at hr
    split at hr <;> cases hr
    rename_i h; exact .inl ⟨_, rfl, hb h⟩
  · unfold normalize at hr
    split at hr <;> cases hr
    rename_i h; exact .inl ⟨_, rfl, hb h⟩
  · unfold sim at hr
    split at hr
    · rename_i h; exact .inl ⟨_, rfl, hb h⟩
    obtain ⟨_, -, hr⟩ := res_bind hr
    split at hr
    · obtain ⟨_, -, hr⟩ := res_bind hr
      obtain ⟨_, -, hr⟩ := res_bind hr
      cases hr
    split at hr
    · rename_i h
      exact .inr (.inr (.inr ⟨rfl, h⟩))
    · cases hr
  · unfold ksim at hr
    split at hr
    · rename_i h; exact .inl ⟨_, rfl, hb h⟩
    obtain ⟨_, -, hr⟩ := res_bind hr
    obtain ⟨_, -, hr⟩ := res_bind hr
    obtain ⟨_, -, hr⟩ := res_bind hr
    cases hr
  · unfold ksimBF at hr
    split at hr
    · rename_i h; exact .inl ⟨_, rfl, hb h⟩
    obtain ⟨_, -, hr⟩ := res_bind hr
    obtain ⟨_, -, hr⟩ := res_bind hr
    obtain ⟨_, -, hr⟩ := res_bind hr
    cases hr
  · unfold print at hr
    split at hr
    · rename_i h; exact .inl ⟨_, rfl, hb h⟩
    obtain ⟨_, -, hr⟩ := res_bind hr
    obtain ⟨_, -, hr⟩ := res_bind hr
    obtain ⟨_, -, hr⟩ := res_bind hr
    cases hr

theorem refusal_prefix (S : Screen K) {args : List String}
    (h : (∃ l, limits.lookup (arg args 0) = some l ∧ countMessage args l.1 l.2 ≠ none) ∨ arg args 0 = "list" ∨ arg args 0 = "timer") :
    "Error! ".toList <+: Piece.texts S (refusal args : List (Piece K)) := by
  unfold refusal
  cases hc : countMessage args ((limits.lookup (arg args 0)).getD (0, 0)).1 ((limits.lookup (arg args 0)).getD (0, 0)).2 with
  | some m =>
    dsimp only
    rw [hc]
    unfold countMessage at hc
    split at hc
    · cases hc
      exact ⟨"Too few arguments\n".toList, by rfl⟩
    split at hc
    · cases hc
      exact ⟨"Too many arguments\n".toList, by rfl⟩
    · cases hc
  | none =>
    dsimp only
    rw [hc]
    rcases h with ⟨l, hl, h⟩ | h | h
    · rw [hl] at hc
      exact absurd hc h
    · dsimp only
      rw [if_pos h]
      exact ⟨"Unknown object: ".toList ++ ((arg args 1).toList ++ ['\n']), by
        rw [← List.append_assoc]
        rfl⟩
    · dsimp only
      rw [if_neg (by rw [h]; decide), if_pos h]
      exact ⟨"Argument for timer must be 'on' or 'off'\n".toList, by rfl⟩

theorem says_refused {E : Env K} {P : CliEnv K} {S : Screen K} {c c' : Console K} {line : String} {ps : List (Piece K)} {o : Outcome K}
    (hp : processLine P line = .run (.ok .usage) ∨ processLine P line = .unknown)
    (hsim : ¬ ∃ t q i x, Manual.Words line.toList (["sim", t, q, i, x].map String.toList)) (hs : Says E P c line c' ps o) :
    HasLine "Error! " (Piece.texts S ps) := by
  have hn : '\n' ∉ "Error! ".toList := by decide
  have h := hs.2
  unfold output at h
  rcases hp with hp | hp
  · rw [hp] at h
    simp only [Option.some.injEq, Prod.mk.injEq] at h
    rw [← h.1, texts_app, texts_app, List.append_assoc]
    refine hasLine_left hn (refusal_prefix S ?_)
    rcases usage_args hp with h1 | h1 | h1 | ⟨h1, h2⟩
    · exact .inl h1
    · exact .inr (.inl h1)
    · exact .inr (.inr h1)
    · exfalso
      have ht := tokens_words line.toList
      have e : (Cli.tokens line.toList []) = (splitLine line).map String.toList := by
        unfold splitLine
        rw [List.map_map]
        simp [Function.comp_def]
      rw [e] at ht
      match hl : splitLine line, h2 with
      | [a, t, q, i, x], _ =>
        rw [hl] at ht h1
        have : a = "sim" := h1
        subst this
        exact hsim ⟨t, q, i, x, ht⟩
  · rw [hp] at h
    simp only [Option.some.injEq, Prod.mk.injEq] at h
    rw [← h.1, texts_app]
    refine hasLine_left hn ⟨"Cannot find command: ".toList ++ ((arg (splitLine line) 0).toList ++ ['\n']), ?_⟩
    rw [← List.append_assoc]
    rfl

theorem asked_mem {ls : List (Option String)} {x : Option String} (h : x ∈ (asked ls).2) : x ∈ ls := by
  induction ls with
  | nil => cases h
  | cons l ls ih =>
    cases l with
    | none => exact List.mem_cons_of_mem _ h
    | some l =>
      simp only [asked] at h
      split at h
      · exact List.mem_cons_of_mem _ h
      split at h
      · exact List.mem_cons_of_mem _ h
      · exact List.mem_cons_of_mem _ (ih h)

/-! ### One series -/

/-- A dataset of one series. -/
def oneSeries (pts : List (Dbl K)) : Dataset K := ⟨some pts, [], [(pts.length : Int)], 1, pts.length, [], false⟩

theorem oneSeries_holds (pts : List (Dbl K)) : Holds (oneSeries pts) [pts] := by
  refine ⟨rfl, rfl, ?_, ?_⟩
  · intro i r hr
    cases i with
    | zero => cases hr; exact le_refl _
    | succ i => cases hr
  · intro i r hr j x hx
    cases i with
    | succ i => cases hr
    | zero =>
      cases hr
      simp [oneSeries, Dataset.read, hx]

theorem oneSeries_save (print : Dbl K → Text) (sep : Char) (pts : List (Dbl K)) :
    (oneSeries pts).saveData print sep = .ok ((pts.map fun x => print x ++ [sep]).flatten ++ ['\n']) := by
  rw [saveData_ok print sep (oneSeries_holds pts) (.inl rfl)]
  simp [oneSeries, rowText]

end

end Genex
