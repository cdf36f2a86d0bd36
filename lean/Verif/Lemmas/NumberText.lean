import Verif.Model.NumberText
import Verif.Spec.NumberText
import Verif.Lemmas.Decimal
import Verif.Lemmas.CliOutput
import Verif.Lemmas.DatasetProps

/-!
# Lemmas on the text of a number
-/

set_option linter.unusedSectionVars false

namespace Genex

open Dbl Spec

/-- All are digits. -/
def AllDigits (l : List Char) : Prop := ∀ c ∈ l, c.isDigit = true

theorem AllDigits.append {l m : List Char} (hl : AllDigits l) (hm : AllDigits m) : AllDigits (l ++ m) := by
  intro c hc
  rcases List.mem_append.1 hc with h | h
  exacts [hl c h, hm c h]

theorem allDigits_zeros (n : ℕ) : AllDigits (List.replicate n '0') := by
  intro c hc
  rw [List.eq_of_mem_replicate hc]
  rfl

theorem allDigits_toDigits (n : ℕ) : AllDigits (Nat.toDigits 10 n) :=
  fun _ hc => Nat.isDigit_of_mem_toDigits (by norm_num) (by norm_num) hc

/-! ### Digits without the zeros at the end -/

theorem dropZeros_spec (l : List Char) : ∃ z, l = dropZeros l ++ List.replicate z '0' := by
  refine ⟨(l.reverse.takeWhile (· = '0')).length, ?_⟩
  have h : l.reverse.takeWhile (· = '0') = List.replicate (l.reverse.takeWhile (· = '0')).length '0' := by
    rw [List.eq_replicate_iff]
    refine ⟨rfl, fun c hc => ?_⟩
    have h2 : ∀ (l : List Char), ∀ c ∈ l.takeWhile (· = '0'), c = '0' := by
      intro l
      induction l with
      | nil => simp
      | cons a l ih =>
        intro c hc
        rw [List.takeWhile_cons] at hc
        split at hc
        · rename_i ha
          rcases List.mem_cons.1 hc with h | h
          · rw [h]; simpa using ha
          · exact ih c h
        · simp at hc
    exact h2 _ c hc
  unfold dropZeros
  conv_lhs => rw [← List.reverse_reverse l, ← List.takeWhile_append_dropWhile (p := (· = '0')) (l := l.reverse)]
  rw [List.reverse_append]
  congr 1
  rw [h]
  simp

theorem dropZeros_digits {l : List Char} (h : AllDigits l) : AllDigits (dropZeros l) := by
  obtain ⟨z, hz⟩ := dropZeros_spec l
  intro c hc
  refine h c ?_
  rw [hz]
  exact List.mem_append_left _ hc

theorem length_toDigits {p m : ℕ} (hp : 1 ≤ p) (h1 : 10 ^ (p - 1) ≤ m) (h2 : m < 10 ^ p) : (Nat.toDigits 10 m).length = p := by
  refine le_antisymm ((Nat.length_toDigits_le_iff (by norm_num) hp).2 h2) ?_
  by_contra hc
  have h3 : (Nat.toDigits 10 m).length ≤ p - 1 := by omega
  have h4 := Nat.length_toDigits_pos (b := 10) (n := m)
  rw [Nat.length_toDigits_le_iff (by norm_num) (by omega)] at h3
  omega

/-- The digits that are left, and what they make. -/
theorem digits_left {p m : ℕ} (hp : 1 ≤ p) (h1 : 10 ^ (p - 1) ≤ m) (h2 : m < 10 ^ p) :
    dropZeros (Nat.toDigits 10 m) ≠ [] ∧ (m : ℚ) = (Nat.ofDigitChars 10 (dropZeros (Nat.toDigits 10 m)) 0 : ℚ) *
      10 ^ ((p : ℤ) - ((dropZeros (Nat.toDigits 10 m)).length : ℤ)) := by
  obtain ⟨z, hz⟩ := dropZeros_spec (Nat.toDigits 10 m)
  set D := dropZeros (Nat.toDigits 10 m) with hD
  have hm : m = 10 ^ z * Nat.ofDigitChars 10 D 0 := by
    conv_lhs => rw [← Nat.ofDigitChars_ten_toDigits (n := m), hz, Nat.ofDigitChars_append, Nat.ofDigitChars_replicate_zero]
  have hl := length_toDigits hp h1 h2
  rw [hz, List.length_append, List.length_replicate] at hl
  have h0 : 0 < m := lt_of_lt_of_le (by positivity) h1
  constructor
  · intro e
    rw [e] at hm
    simp at hm
    omega
  · have e : (p : ℤ) - (D.length : ℤ) = (z : ℤ) := by omega
    rw [e, zpow_natCast]
    conv_lhs => rw [hm]
    push_cast
    ring

/-! ### Reading -/

theorem readUnsigned_int {A E : List Char} (hA : AllDigits A) (h0 : A ≠ []) {e : ℤ} (hE : readExponent E = some e)
    (hh : ∀ c, E.head? = some c → c = 'e') : readUnsigned (A ++ E) = some ((Nat.ofDigitChars 10 A 0 : ℚ) * 10 ^ e) := by
  obtain ⟨h1, h2⟩ := takeWhile_app (p := Char.isDigit) (l := A) hA E (fun c hc => by rw [hh c hc]; rfl)
  have h3 : readFraction E = ([], E) := by
    cases E with
    | nil => rfl
    | cons c t =>
      have := hh c rfl
      subst this
      rfl
  unfold readUnsigned
  rw [h1, h2, if_neg h0, h3]
  simp [hE]

theorem readUnsigned_frac {A B E : List Char} (hA : AllDigits A) (h0 : A ≠ []) (hB : AllDigits B) {e : ℤ} (hE : readExponent E = some e)
    (hh : ∀ c, E.head? = some c → c = 'e') :
    readUnsigned (A ++ '.' :: (B ++ E)) = some ((Nat.ofDigitChars 10 (A ++ B) 0 : ℚ) * 10 ^ (e - (B.length : ℤ))) := by
  obtain ⟨h1, h2⟩ := takeWhile_app (p := Char.isDigit) (l := A) hA ('.' :: (B ++ E)) (fun c hc => by
    simp only [List.head?_cons, Option.some.injEq] at hc
    rw [← hc]; rfl)
  obtain ⟨h3, h4⟩ := takeWhile_app (p := Char.isDigit) (l := B) hB E (fun c hc => by rw [hh c hc]; rfl)
  unfold readUnsigned
  rw [h1, h2, if_neg h0]
  simp [readFraction, h3, h4, hE]

theorem readExponent_text (e : ℤ) : readExponent (exponentText e) = some e ∧ ∀ c, (exponentText e).head? = some c → c = 'e' := by
  refine ⟨?_, fun c hc => by simp [exponentText] at hc; exact hc.symm⟩
  have hw : ∀ n k : ℕ, wholeOf (List.replicate k '0' ++ Nat.toDigits 10 n) = some n := by
    intro n k
    unfold wholeOf
    rw [if_pos ⟨by simp [Nat.toDigits_ne_nil], by
      rw [List.all_eq_true]
      exact (allDigits_zeros k).append (allDigits_toDigits n)⟩, Nat.ofDigitChars_append, Nat.ofDigitChars_replicate_zero, Nat.mul_zero,
      Nat.ofDigitChars_ten_toDigits]
  unfold exponentText
  by_cases h : e < 0
  · rw [if_pos h]
    have h1 := hw e.natAbs (2 - (Nat.toDigits 10 e.natAbs).length)
    generalize List.replicate (2 - (Nat.toDigits 10 e.natAbs).length) '0' ++ Nat.toDigits 10 e.natAbs = t at h1 ⊢
    have h2 : ∀ t, readExponent ('e' :: '-' :: t) = (wholeOf t).map fun (n : ℕ) => -(n : ℤ) := fun _ => rfl
    rw [h2, h1]
    simp only [Option.map_some, Option.some.injEq]
    omega
  · rw [if_neg h]
    have h1 := hw e.natAbs (2 - (Nat.toDigits 10 e.natAbs).length)
    generalize List.replicate (2 - (Nat.toDigits 10 e.natAbs).length) '0' ++ Nat.toDigits 10 e.natAbs = t at h1 ⊢
    have h2 : ∀ t, readExponent ('e' :: '+' :: t) = (wholeOf t).map fun (n : ℕ) => (n : ℤ) := fun _ => rfl
    rw [h2, h1]
    simp only [Option.map_some, Option.some.injEq]
    omega

/-- Digits with a point among them, and an exponent. -/
theorem read_point {D E : List Char} (hD : AllDigits D) (h0 : D ≠ []) {k : ℕ} (hk : 1 ≤ k) {e : ℤ} (hE : readExponent E = some e)
    (hh : ∀ c, E.head? = some c → c = 'e') :
    readUnsigned (pointAfter k D ++ E) = some ((Nat.ofDigitChars 10 D 0 : ℚ) * 10 ^ (e + k - (D.length : ℤ))) := by
  unfold pointAfter
  split
  · rename_i h
    rw [readUnsigned_int (hD.append (allDigits_zeros _)) (by simp [h0]) hE hh, Nat.ofDigitChars_append, Nat.ofDigitChars_replicate_zero]
    congr 1
    rw [show e + (k : ℤ) - (D.length : ℤ) = ((k - D.length : ℕ) : ℤ) + e by omega, zpow_add₀ (by norm_num : (10 : ℚ) ≠ 0), zpow_natCast]
    push_cast
    ring
  · rename_i h
    have h1 : AllDigits (D.take k) := fun c hc => hD c (List.mem_of_mem_take hc)
    have h2 : AllDigits (D.drop k) := fun c hc => hD c (List.mem_of_mem_drop hc)
    have h3 : D.take k ≠ [] := by
      intro hc
      have := congrArg List.length hc
      rw [List.length_take, List.length_nil] at this
      omega
    rw [List.append_assoc, List.cons_append, readUnsigned_frac h1 h3 h2 hE hh, List.take_append_drop, List.length_drop]
    congr 3
    omega

/-! ### The significant digits -/

theorem significant_spec {p : ℕ} (hp : 1 ≤ p) {x : ℚ} (hx : x ≠ 0) :
    10 ^ (p - 1) ≤ (significant p x).1 ∧ (significant p x).1 < 10 ^ p ∧
      decimal p |x| = ((significant p x).1 : ℚ) * 10 ^ ((significant p x).2 - ((p : ℤ) - 1)) := by
  have hax : 0 < |x| := abs_pos.2 hx
  set e := Int.log 10 |x| with he
  set s := e - ((p : ℤ) - 1) with hs
  have l1 : (10 : ℚ) ^ e ≤ |x| := by exact_mod_cast Int.zpow_log_le_self (b := 10) (by norm_num) hax
  have l2 : |x| < (10 : ℚ) ^ (e + 1) := by exact_mod_cast Int.lt_zpow_succ_log_self (b := 10) (by norm_num) |x|
  have hs0 := ten_zpow s
  have b1 : ((10 : ℤ) ^ (p - 1) : ℤ) ≤ roundEven (|x| / 10 ^ s) := by
    have := roundEven_mono (K := ℚ) (z := ((10 ^ (p - 1) : ℤ) : ℚ)) (w := |x| / 10 ^ s) (by
      rw [le_div_iff₀ hs0]
      push_cast
      rw [← zpow_natCast, ← zpow_add₀ (by norm_num), show ((p - 1 : ℕ) : ℤ) + s = e by omega]
      exact l1)
    rwa [roundEven_int] at this
  have b2 : roundEven (|x| / 10 ^ s) ≤ (10 : ℤ) ^ p := by
    have := roundEven_mono (K := ℚ) (z := |x| / 10 ^ s) (w := ((10 ^ p : ℤ) : ℚ)) (by
      rw [div_le_iff₀ hs0]
      push_cast
      rw [← zpow_natCast, ← zpow_add₀ (by norm_num), show (p : ℤ) + s = e + 1 by omega]
      exact le_of_lt l2)
    rwa [roundEven_int] at this
  have hpos : (0 : ℤ) < 10 ^ (p - 1) := by positivity
  obtain ⟨m, hm⟩ : ∃ m : ℕ, roundEven (|x| / 10 ^ s) = m := ⟨(roundEven (|x| / 10 ^ s)).toNat, by omega⟩
  have hdec : decimal p |x| = (m : ℚ) * 10 ^ s := by
    unfold decimal lastDecimal
    rw [abs_abs, ← he, ← hs, hm]
    simp
  have hsig : significant p x = if m = 10 ^ p then (10 ^ (p - 1), e + 1) else (m, e) := by
    unfold significant
    dsimp only
    rw [← he, ← hs, hm]
    simp only [Int.toNat_natCast]
  rw [hm] at b1 b2
  have c1 : 10 ^ (p - 1) ≤ m := by exact_mod_cast b1
  have c2 : m ≤ 10 ^ p := by exact_mod_cast b2
  have hlt : (10 : ℕ) ^ (p - 1) < 10 ^ p := Nat.pow_lt_pow_right (by norm_num) (by omega)
  rw [hsig, hdec]
  split
  · rename_i h
    refine ⟨le_refl _, hlt, ?_⟩
    dsimp only
    rw [h]
    push_cast
    rw [← zpow_natCast, ← zpow_natCast, ← zpow_add₀ (by norm_num), ← zpow_add₀ (by norm_num)]
    congr 1
    omega
  · rename_i h
    exact ⟨c1, lt_of_le_of_ne c2 h, rfl⟩

theorem decimal_neg (p : ℕ) (x : ℚ) : decimal p (-x) = -decimal p x := by
  unfold decimal lastDecimal
  rw [abs_neg, neg_div, roundEven_neg]
  push_cast
  ring

theorem read_magnitude {p : ℕ} (hp : 1 ≤ p) {x : ℚ} (hx : x ≠ 0) : readUnsigned (magnitudeText p x) = some (decimal p |x|) := by
  obtain ⟨h1, h2, h3⟩ := significant_spec hp hx
  rw [h3]
  unfold magnitudeText
  generalize significant p x = r at h1 h2
  obtain ⟨m, e⟩ := r
  dsimp only at *
  obtain ⟨h4, h5⟩ := digits_left hp h1 h2
  have hD := dropZeros_digits (allDigits_toDigits m)
  generalize dropZeros (Nat.toDigits 10 m) = D at *
  have hv : (m : ℚ) * 10 ^ (e - ((p : ℤ) - 1)) = (Nat.ofDigitChars 10 D 0 : ℚ) * 10 ^ (e + 1 - (D.length : ℤ)) := by
    rw [h5, mul_assoc, ← zpow_add₀ (by norm_num)]
    congr 2
    omega
  rw [hv]
  split
  · obtain ⟨g1, g2⟩ := readExponent_text e
    rw [read_point hD h4 (le_refl 1) g1 g2]
    simp
  · split
    · rename_i hneg
      have := readUnsigned_frac (A := ['0']) (B := List.replicate (-e - 1).toNat '0' ++ D) (E := []) (e := 0)
        (by intro c hc; simp at hc; subst hc; rfl) (by simp) ((allDigits_zeros _).append hD) rfl (by simp)
      rw [List.append_nil, List.singleton_append] at this
      rw [this, List.singleton_append]
      have e1 : Nat.ofDigitChars 10 ('0' :: (List.replicate (-e - 1).toNat '0' ++ D)) 0 = Nat.ofDigitChars 10 D 0 := by
        rw [Nat.ofDigitChars_cons, Nat.ofDigitChars_append]
        simp
      rw [e1, List.length_append, List.length_replicate]
      congr 3
      omega
    · rename_i hneg
      have := read_point (E := []) hD h4 (k := (e + 1).toNat) (by omega) rfl (by simp)
      rw [List.append_nil] at this
      rw [this]
      congr 3
      omega

theorem magnitude_head {p : ℕ} (hp : 1 ≤ p) {x : ℚ} (hx : x ≠ 0) : ∀ r, magnitudeText p x ≠ '-' :: r := by
  intro r hr
  have h := read_magnitude hp hx
  rw [hr] at h
  simp [readUnsigned] at h

/-- Whoever reads the text reads the number rounded to so many digits. -/
theorem read_numText {p : ℕ} (hp : 1 ≤ p) (x : ℚ) : readNumber (numText p (.fin x)) = some (decimal p x) := by
  show readNumber (if x = 0 then ['0'] else if x < 0 then '-' :: magnitudeText p x else magnitudeText p x) = _
  split
  · rename_i h
    rw [h, decimal_zero]
    decide +kernel
  · rename_i h
    split
    · rename_i hneg
      show (readUnsigned (magnitudeText p x)).map (fun q => -q) = _
      rw [read_magnitude hp h, abs_of_neg hneg, decimal_neg]
      simp
    · rename_i hneg
      have hm := magnitude_head hp h
      have hr := read_magnitude hp h
      rw [abs_of_nonneg (by linarith)] at hr
      generalize magnitudeText p x = t at hm hr
      unfold readNumber
      split
      · rename_i u
        exact absurd rfl (hm u)
      · exact hr

/-! ### The characters -/

/-- The characters of numbers. -/
def numberChars : List Char := ['.', '+', '-', 'e', 'i', 'n', 'f', 'a']

theorem pointAfter_chars {k : ℕ} {D : List Char} (hD : AllDigits D) : ∀ c ∈ pointAfter k D, c.isDigit = true ∨ c ∈ numberChars := by
  intro c hc
  unfold pointAfter at hc
  split at hc
  · exact .inl (hD.append (allDigits_zeros _) c hc)
  · rcases List.mem_append.1 hc with h | h
    · exact .inl (hD c (List.mem_of_mem_take h))
    · rcases List.mem_cons.1 h with h | h
      · rw [h]; exact .inr (by decide)
      · exact .inl (hD c (List.mem_of_mem_drop h))

theorem numText_chars (p : ℕ) (x : Dbl ℚ) : ∀ c ∈ numText p x, c.isDigit = true ∨ c ∈ numberChars := by
  have hmag : ∀ y : ℚ, ∀ c ∈ magnitudeText p y, c.isDigit = true ∨ c ∈ numberChars := by
    intro y c hc
    unfold magnitudeText at hc
    have hD := dropZeros_digits (allDigits_toDigits (significant p y).1)
    dsimp only at hc
    split at hc
    · rcases List.mem_append.1 hc with h | h
      · exact pointAfter_chars hD c h
      · unfold exponentText at h
        simp only [List.mem_cons] at h
        rcases h with h | h | h
        · rw [h]; exact .inr (by decide)
        · rw [h]; split <;> exact .inr (by decide)
        · exact .inl ((allDigits_zeros _).append (allDigits_toDigits _) c h)
    · split at hc
      · simp only [List.mem_cons] at hc
        rcases hc with h | h | h
        · rw [h]; exact .inl rfl
        · rw [h]; exact .inr (by decide)
        · exact .inl ((allDigits_zeros _).append hD c h)
      · exact pointAfter_chars hD c hc
  intro c hc
  cases x with
  | fin y =>
    unfold numText at hc
    dsimp only at hc
    split at hc
    · simp at hc; rw [hc]; exact .inl rfl
    · split at hc
      · rcases List.mem_cons.1 hc with h | h
        · rw [h]; exact .inr (by decide)
        · exact hmag y c h
      · exact hmag y c hc
  | inf => simp [numText] at hc; rcases hc with h | h | h <;> rw [h] <;> exact .inr (by decide)
  | ninf => simp [numText] at hc; rcases hc with h | h | h | h <;> rw [h] <;> exact .inr (by decide)
  | nan => simp [numText] at hc; rcases hc with h | h | h <;> rw [h] <;> exact .inr (by decide)

theorem numText_ne_nil {p : ℕ} (hp : 1 ≤ p) (x : Dbl ℚ) : numText p x ≠ [] := by
  cases x with
  | fin y =>
    intro h
    have := read_numText hp y
    rw [h] at this
    simp [readNumber, readUnsigned] at this
  | _ => simp [numText]

/-! ### Numbers that are shown alike -/

/-- The digits and the exponent are determined by the value. -/
theorem normal_unique {p m m' : ℕ} {e e' : ℤ} (h1 : 10 ^ (p - 1) ≤ m) (h2 : m < 10 ^ p) (h1' : 10 ^ (p - 1) ≤ m') (h2' : m' < 10 ^ p)
    (hp : 1 ≤ p) (h : (m : ℚ) * 10 ^ e = (m' : ℚ) * 10 ^ e') : m = m' ∧ e = e' := by
  have key : ∀ {m m' : ℕ} {e e' : ℤ}, 10 ^ (p - 1) ≤ m → m' < 10 ^ p → (m : ℚ) * 10 ^ e = (m' : ℚ) * 10 ^ e' → e ≤ e' := by
    intro m m' e e' g1 g2 g
    by_contra hc
    have e1 : e = e' + ((e - e').toNat : ℤ) := by omega
    have hn : 1 ≤ (e - e').toNat := by omega
    generalize (e - e').toNat = n at *
    rw [e1, zpow_add₀ (by norm_num), zpow_natCast, mul_comm ((10 : ℚ) ^ e'), ← mul_assoc] at g
    have g' := mul_right_cancel₀ (ne_of_gt (ten_zpow e')) g
    have g3 : m * 10 ^ n = m' := by exact_mod_cast g'
    have g4 : 10 ^ (p - 1) * 10 ^ n ≤ m * 10 ^ n := Nat.mul_le_mul_right _ g1
    have g5 : 10 ^ p ≤ 10 ^ (p - 1) * 10 ^ n := by
      rw [← pow_add]
      exact Nat.pow_le_pow_right (by norm_num) (by omega)
    omega
  have h3 : e = e' := le_antisymm (key h1 h2' h) (key h1' h2 h.symm)
  subst h3
  exact ⟨by exact_mod_cast mul_right_cancel₀ (ne_of_gt (ten_zpow e)) h, rfl⟩

theorem decimal_ne_zero {p : ℕ} (hp : 1 ≤ p) {x : ℚ} (hx : x ≠ 0) : decimal p x ≠ 0 := by
  have h := significant_spec hp hx
  have h0 : (0 : ℚ) < ((significant p x).1 : ℚ) := by
    have : 0 < (significant p x).1 := lt_of_lt_of_le (by positivity) h.1
    exact_mod_cast this
  have h1 : 0 < decimal p |x| := by
    rw [h.2.2]
    exact mul_pos h0 (ten_zpow _)
  rcases abs_choice x with e | e
  · rw [e] at h1; exact ne_of_gt h1
  · rw [e, decimal_neg] at h1
    intro hc
    rw [hc] at h1
    simp at h1

theorem decimal_neg_iff {p : ℕ} (hp : 1 ≤ p) (x : ℚ) : decimal p x < 0 ↔ x < 0 := by
  constructor
  · intro h
    by_contra hc
    have := decimal_mono hp (not_lt.1 hc)
    rw [decimal_zero] at this
    linarith
  · intro h
    refine lt_of_le_of_ne ?_ (decimal_ne_zero hp (ne_of_lt h))
    have := decimal_mono hp (le_of_lt h)
    rwa [decimal_zero] at this

/-- Numbers are shown alike iff they round to the same. -/
theorem numText_iff {p : ℕ} (hp : 1 ≤ p) (x y : ℚ) : numText p (.fin x) = numText p (.fin y) ↔ decimal p x = decimal p y := by
  constructor
  · intro h
    have h1 := read_numText hp x
    rw [h, read_numText hp y] at h1
    exact (Option.some.inj h1).symm
  · intro h
    by_cases hx : x = 0
    · have hy : y = 0 := by
        by_contra hy
        rw [hx, decimal_zero] at h
        exact decimal_ne_zero hp hy h.symm
      rw [hx, hy]
    · have hy : y ≠ 0 := by
        intro hy
        rw [hy, decimal_zero] at h
        exact decimal_ne_zero hp hx h
      have hn : x < 0 ↔ y < 0 := by rw [← decimal_neg_iff hp x, h, decimal_neg_iff hp y]
      have ha : decimal p |x| = decimal p |y| := by
        by_cases hc : x < 0
        · rw [abs_of_neg hc, abs_of_neg (hn.1 hc), decimal_neg, decimal_neg, h]
        · rw [abs_of_nonneg (by linarith), abs_of_nonneg (by have := mt hn.2 hc; linarith), h]
      obtain ⟨a1, a2, a3⟩ := significant_spec hp hx
      obtain ⟨b1, b2, b3⟩ := significant_spec hp hy
      rw [a3, b3] at ha
      obtain ⟨c1, c2⟩ := normal_unique a1 a2 b1 b2 hp ha
      have hs : significant p x = significant p y := Prod.ext c1 (by linarith)
      have hm : magnitudeText p x = magnitudeText p y := by unfold magnitudeText; rw [hs]
      show (if x = 0 then ['0'] else if x < 0 then '-' :: magnitudeText p x else magnitudeText p x) =
        (if y = 0 then ['0'] else if y < 0 then '-' :: magnitudeText p y else magnitudeText p y)
      rw [if_neg hx, if_neg hy, hm]
      by_cases hc : x < 0
      · rw [if_pos hc, if_pos (hn.1 hc)]
      · rw [if_neg hc, if_neg (mt hn.2 hc)]

/-! ### The form -/

theorem AllDigits.not_mem {l : List Char} (h : AllDigits l) {c : Char} (hc : c.isDigit = false) : c ∉ l := fun hm => by
  rw [h c hm] at hc
  cases hc

theorem dropZeros_last (l : List Char) : (dropZeros l).getLast? ≠ some '0' := by
  unfold dropZeros
  rw [List.getLast?_reverse]
  induction l.reverse with
  | nil => simp
  | cons a r ih =>
    rw [List.dropWhile_cons]
    split
    · exact ih
    · rename_i h
      simpa using h

theorem pointAfter_e {k : ℕ} {D : List Char} (hD : AllDigits D) : 'e' ∉ pointAfter k D := by
  unfold pointAfter
  split
  · exact (hD.append (allDigits_zeros _)).not_mem rfl
  · intro h
    rcases List.mem_append.1 h with h | h
    · exact hD.not_mem rfl (List.mem_of_mem_take h)
    · rcases List.mem_cons.1 h with h | h
      · cases h
      · exact hD.not_mem rfl (List.mem_of_mem_drop h)

theorem pointAfter_last {k : ℕ} {D : List Char} (hD : AllDigits D) (hl : D.getLast? ≠ some '0') (h : '.' ∈ pointAfter k D) :
    ∃ c, (pointAfter k D).getLast? = some c ∧ c.isDigit = true ∧ c ≠ '0' := by
  unfold pointAfter at h ⊢
  split at h
  · exact absurd h ((hD.append (allDigits_zeros _)).not_mem rfl)
  · rename_i hk
    rw [if_neg hk]
    have e : D = D.take k ++ D.drop k := (List.take_append_drop k D).symm
    obtain ⟨c, hc⟩ : ∃ c, (D.drop k).getLast? = some c := by
      cases h : D.drop k with
      | nil => simp at h; omega
      | cons a r => exact ⟨_, List.getLast?_eq_some_getLast (by simp)⟩
    refine ⟨c, by rw [List.getLast?_append, List.getLast?_cons, hc]; simp, hD c (List.mem_of_mem_drop (List.mem_of_getLast? hc)), ?_⟩
    rintro rfl
    refine hl ?_
    rw [e, List.getLast?_append, hc]
    rfl

theorem magnitude_form {p : ℕ} (hp : 1 ≤ p) {x : ℚ} (hx : x ≠ 0) :
    ('e' ∈ magnitudeText p x ↔ decimal p |x| < 1 / 10 ^ 4 ∨ 10 ^ p ≤ decimal p |x|) ∧
    ('.' ∈ magnitudeText p x → ∃ c, ((magnitudeText p x).takeWhile (· ≠ 'e')).getLast? = some c ∧ c.isDigit = true ∧ c ≠ '0') := by
  obtain ⟨h1, h2, h3⟩ := significant_spec hp hx
  have hD := dropZeros_digits (allDigits_toDigits (significant p x).1)
  have hl := dropZeros_last (Nat.toDigits 10 (significant p x).1)
  have hne := (digits_left hp h1 h2).1
  unfold magnitudeText
  dsimp only
  generalize hDD : dropZeros (Nat.toDigits 10 (significant p x).1) = D at *
  generalize (significant p x).1 = m at *
  generalize (significant p x).2 = e at *
  have m1 : (10 : ℚ) ^ e ≤ decimal p |x| := by
    rw [h3, show e = ((p - 1 : ℕ) : ℤ) + (e - ((p : ℤ) - 1)) by omega, zpow_add₀ (by norm_num), zpow_natCast]
    rw [show ((p - 1 : ℕ) : ℤ) + (e - ((p : ℤ) - 1)) - ((p : ℤ) - 1) = e - ((p : ℤ) - 1) by omega]
    exact mul_le_mul_of_nonneg_right (by exact_mod_cast h1) (ten_zpow _).le
  have m2 : decimal p |x| < (10 : ℚ) ^ (e + 1) := by
    rw [h3, show e + 1 = (p : ℤ) + (e - ((p : ℤ) - 1)) by omega, zpow_add₀ (by norm_num), zpow_natCast]
    exact mul_lt_mul_of_pos_right (by exact_mod_cast h2) (ten_zpow _)
  have k1 : e < -4 ↔ decimal p |x| < 1 / 10 ^ 4 := by
    have e4 : (1 : ℚ) / 10 ^ 4 = 10 ^ (-4 : ℤ) := by norm_num
    rw [e4]
    constructor
    · intro h
      exact lt_of_lt_of_le m2 (zpow_le_zpow_right₀ (by norm_num) (by omega))
    · intro h
      exact (zpow_lt_zpow_iff_right₀ (by norm_num : (1 : ℚ) < 10)).1 (lt_of_le_of_lt m1 h)
  have k2 : (p : ℤ) ≤ e ↔ 10 ^ p ≤ decimal p |x| := by
    rw [← zpow_natCast (10 : ℚ) p]
    constructor
    · intro h
      exact le_trans (zpow_le_zpow_right₀ (by norm_num) h) m1
    · intro h
      have := (zpow_lt_zpow_iff_right₀ (by norm_num : (1 : ℚ) < 10)).1 (lt_of_le_of_lt h m2)
      omega
  rw [← k1, ← k2]
  have tw : ∀ l : List Char, 'e' ∉ l → l.takeWhile (· ≠ 'e') = l := by
    intro l hl
    have := List.takeWhile_append_of_pos (p := (· ≠ 'e')) (l₁ := l) (l₂ := []) (fun c hc => by
      simp only [ne_eq, decide_eq_true_eq]
      rintro rfl
      exact hl hc)
    simpa using this
  by_cases c1 : e < -4 ∨ (p : ℤ) ≤ e
  · rw [if_pos c1]
    refine ⟨⟨fun _ => c1, fun _ => List.mem_append_right _ (by simp [exponentText])⟩, fun h => ?_⟩
    have h' : '.' ∈ pointAfter 1 D := by
      rcases List.mem_append.1 h with h | h
      · exact h
      · exfalso
        unfold exponentText at h
        simp only [List.mem_cons] at h
        rcases h with h | h | h
        · cases h
        · split at h <;> cases h
        · exact ((allDigits_zeros _).append (allDigits_toDigits _)).not_mem rfl h
    have : (pointAfter 1 D ++ exponentText e).takeWhile (· ≠ 'e') = pointAfter 1 D := by
      rw [List.takeWhile_append_of_pos]
      · simp [exponentText]
      · intro c hc
        simp only [ne_eq, decide_eq_true_eq]
        rintro rfl
        exact pointAfter_e hD hc
    rw [this]
    exact pointAfter_last hD hl h'
  · rw [if_neg c1]
    split
    · have hz : 'e' ∉ '0' :: '.' :: (List.replicate (-e - 1).toNat '0' ++ D) := by
        simp only [List.mem_cons, not_or]
        exact ⟨by decide, by decide, ((allDigits_zeros _).append hD).not_mem rfl⟩
      refine ⟨⟨fun h => absurd h hz, fun h => absurd h c1⟩, fun _ => ?_⟩
      rw [tw _ hz]
      obtain ⟨c, hc⟩ : ∃ c, D.getLast? = some c := ⟨_, List.getLast?_eq_some_getLast hne⟩
      refine ⟨c, ?_, hD c (List.mem_of_getLast? hc), ?_⟩
      · rw [List.getLast?_cons, List.getLast?_cons, List.getLast?_append, hc]
        simp
      · rintro rfl
        exact hl hc
    · refine ⟨⟨fun h => absurd h (pointAfter_e hD), fun h => absurd h c1⟩, fun h => ?_⟩
      rw [tw _ (pointAfter_e hD)]
      exact pointAfter_last hD hl h

theorem numText_form {p : ℕ} (hp : 1 ≤ p) (x : ℚ) :
    ('e' ∈ numText p (.fin x) ↔ x ≠ 0 ∧ (|decimal p x| < 1 / 10 ^ 4 ∨ 10 ^ p ≤ |decimal p x|)) ∧
    ('.' ∈ numText p (.fin x) → ∃ c, ((numText p (.fin x)).takeWhile (· ≠ 'e')).getLast? = some c ∧ c.isDigit = true ∧ c ≠ '0') := by
  unfold numText
  dsimp only
  by_cases h0 : x = 0
  · rw [if_pos h0]
    simp [h0]
  · rw [if_neg h0]
    obtain ⟨f1, f2⟩ := magnitude_form hp h0
    have ha : |decimal p x| = decimal p |x| := by
      have hd := decimal_neg_iff hp x
      rcases lt_or_gt_of_ne h0 with h | h
      · rw [abs_of_neg h, decimal_neg, abs_of_neg (hd.2 h)]
      · rw [abs_of_pos h, abs_of_nonneg (not_lt.1 fun k => absurd (hd.1 k) (not_lt.2 h.le))]
    rw [ha]
    split
    · refine ⟨by simp [f1, h0], fun h => ?_⟩
      obtain ⟨c, hc, h2⟩ := f2 (by simpa using h)
      refine ⟨c, ?_, h2⟩
      rw [List.takeWhile_cons_of_pos (by decide), List.getLast?_cons, hc]
      rfl
    · exact ⟨by simp [f1, h0], f2⟩

/-- Two numbers of `p` digits are apart. -/
theorem digits_apart {p m m' : ℕ} {e e' : ℤ} (hp : 1 ≤ p) (h1 : 10 ^ (p - 1) ≤ m) (h2 : m < 10 ^ p) (h1' : 10 ^ (p - 1) ≤ m')
    (h2' : m' < 10 ^ p) (h : (m' : ℚ) * 10 ^ e' < (m : ℚ) * 10 ^ e) : (m : ℚ) * 10 ^ e - (m' : ℚ) * 10 ^ e' ≥ (m : ℚ) * 10 ^ e / 10 ^ p := by
  have hP : (0 : ℚ) < 10 ^ p := by positivity
  have hm : (m : ℚ) < 10 ^ p := by exact_mod_cast h2
  have hm' : (m' : ℚ) < 10 ^ p := by exact_mod_cast h2'
  have hm1 : (10 : ℚ) ^ (p - 1) ≤ m := by exact_mod_cast h1
  have hm1' : (10 : ℚ) ^ (p - 1) ≤ m' := by exact_mod_cast h1'
  have hpp : (10 : ℚ) ^ p = 10 * 10 ^ (p - 1) := by rw [← pow_succ', show p - 1 + 1 = p by omega]
  have hE := ten_zpow e
  have hE' := ten_zpow e'
  have hle : e' ≤ e := by
    by_contra hc
    have e1 : (10 : ℚ) ^ (e + 1) ≤ 10 ^ e' := zpow_le_zpow_right₀ (by norm_num) (by omega)
    rw [zpow_add₀ (by norm_num), zpow_one] at e1
    nlinarith
  have hbig : (m : ℚ) * 10 ^ e / 10 ^ p ≤ 10 ^ e := by
    rw [div_le_iff₀ hP]
    nlinarith
  rcases eq_or_lt_of_le hle with rfl | hlt
  · have h3 : (m' : ℚ) < m := lt_of_mul_lt_mul_right h (le_of_lt hE')
    have h4 : m' + 1 ≤ m := by exact_mod_cast h3
    have h5 : (m' : ℚ) + 1 ≤ m := by exact_mod_cast h4
    nlinarith
  · have e1 : (10 : ℚ) ^ e' ≤ 10 ^ (e - 1) := zpow_le_zpow_right₀ (by norm_num) (by omega)
    have e2 : (10 : ℚ) ^ e = 10 ^ (e - 1) * 10 := by rw [← zpow_add_one₀ (by norm_num), sub_add_cancel]
    have hE1 := ten_zpow (e - 1)
    have h3 : m' + 1 ≤ 10 ^ p := h2'
    have h5 : (m' : ℚ) + 1 ≤ 10 ^ p := by exact_mod_cast h3
    have h6 : (m' : ℚ) * 10 ^ e' ≤ (10 ^ p - 1) * 10 ^ (e - 1) :=
      mul_le_mul (by linarith) e1 (le_of_lt hE') (by linarith)
    rcases eq_or_lt_of_le h1 with h7 | h7
    · have h8 : (m : ℚ) = 10 ^ (p - 1) := by rw [← h7]; push_cast; rfl
      have h9 : (m : ℚ) * 10 ^ e = 10 ^ p * 10 ^ (e - 1) := by rw [h8, e2, hpp]; ring
      have h10 : (m : ℚ) * 10 ^ e / 10 ^ p = 10 ^ (e - 1) := by
        rw [h9]; field_simp
      rw [h10, h9]
      linarith
    · have h8 : 10 ^ (p - 1) + 1 ≤ m := h7
      have h9 : (10 : ℚ) ^ (p - 1) + 1 ≤ m := by exact_mod_cast h8
      have h10 : (10 ^ (p - 1) + 1) * (10 : ℚ) ^ e ≤ m * 10 ^ e := mul_le_mul_of_nonneg_right h9 (le_of_lt hE)
      have h11 : ((10 : ℚ) ^ p - 1) * 10 ^ (e - 1) ≤ 10 ^ (p - 1) * 10 ^ e := by
        rw [e2, hpp]
        nlinarith
      linarith

/-- A small change does not change the digits shown of a number of so many digits. -/
theorem decimal_stable {p : ℕ} (hp : 1 ≤ p) {x z : ℚ} (hz : |z - decimal p x| ≤ |decimal p x| / (4 * 10 ^ p)) :
    decimal p z = decimal p x := by
  have main : ∀ x z : ℚ, 0 < x → |z - decimal p x| ≤ |decimal p x| / (4 * 10 ^ p) → decimal p z = decimal p x := by
    intro x z hx hz
    have hT : (1 : ℚ) ≤ 10 ^ p := one_le_pow₀ (by norm_num)
    obtain ⟨a1, a2, a3⟩ := significant_spec hp (ne_of_gt hx)
    rw [abs_of_pos hx] at a3
    have hy : 0 < decimal p x := by
      have := decimal_mono hp (le_of_lt hx)
      rw [decimal_zero] at this
      exact lt_of_le_of_ne this (Ne.symm (decimal_ne_zero hp (ne_of_gt hx)))
    rw [abs_of_pos hy] at hz
    set y := decimal p x with hyd
    have hq : y / (4 * 10 ^ p) ≤ y / 4 := div_le_div_of_nonneg_left (le_of_lt hy) (by norm_num) (by linarith)
    have hz0 : 0 < z := by
      rw [abs_le] at hz
      linarith
    obtain ⟨b1, b2, b3⟩ := significant_spec hp (ne_of_gt hz0)
    rw [abs_of_pos hz0] at b3
    have hn := decimal_nearest' hp (x := z) (decimal_digits hp x)
    rw [← hyd, abs_sub_comm y z] at hn
    have hd0 : 0 ≤ decimal p z := by
      have := decimal_mono hp (le_of_lt hz0)
      rwa [decimal_zero] at this
    have hq2 : y / (4 * 10 ^ p) = y / 10 ^ p / 4 := by rw [div_div, mul_comm]
    rw [hq2] at hz
    set d := decimal p z with hdd
    have hdy : |d - y| ≤ y / 10 ^ p / 2 := by
      have := abs_sub_le d z y
      linarith
    have hyp : 0 < y / 10 ^ p := div_pos hy (by positivity)
    by_contra hne
    rw [abs_le] at hdy
    rcases lt_or_gt_of_ne hne with h | h
    · have := digits_apart hp a1 a2 b1 b2 (by rw [← a3, ← b3]; exact h)
      rw [← a3, ← b3] at this
      linarith
    · have := digits_apart hp b1 b2 a1 a2 (by rw [← a3, ← b3]; exact h)
      rw [← a3, ← b3] at this
      have hmono : y / 10 ^ p ≤ d / 10 ^ p := by gcongr
      linarith
  rcases lt_trichotomy x 0 with h | h | h
  · have := main (-x) (-z) (by linarith) (by
      rw [decimal_neg, ← abs_neg, abs_neg (decimal p x)]
      convert hz using 2
      ring)
    rw [decimal_neg, decimal_neg] at this
    linarith
  · rw [h, decimal_zero] at hz ⊢
    have : z = 0 := by simpa using hz
    rw [this, decimal_zero]
  · exact main x z h hz

/-! ### Files of numbers -/

theorem ordinary_decimal {p : ℕ} (hp : 1 ≤ p) {x : ℚ} (hx : Ordinary x) : Ordinary (decimal p x) := by
  rcases hx with rfl | ⟨h1, h2⟩
  · left; exact decimal_zero p
  · right
    have ha : |decimal p x| = decimal p |x| := by
      rcases abs_choice x with e | e
      · rw [e]
        have h0 : (0 : ℚ) ≤ x := by rw [← e]; exact abs_nonneg x
        have := decimal_mono hp h0
        rw [decimal_zero] at this
        exact abs_of_nonneg this
      · rw [e, decimal_neg]
        have h0 : x ≤ 0 := by have := abs_nonneg x; rw [e] at this; linarith
        have := decimal_mono hp h0
        rw [decimal_zero] at this
        exact abs_of_nonpos this
    have d1 : Digits p (1 / 10 ^ 300 : ℚ) := ⟨1, -300, by
      rw [abs_one]; exact one_lt_pow₀ (by norm_num) (by omega), by
      rw [zpow_neg]; norm_cast⟩
    have d2 : Digits p (10 ^ 300 : ℚ) := ⟨1, 300, by
      rw [abs_one]; exact one_lt_pow₀ (by norm_num) (by omega), by
      norm_cast⟩
    have m1 := decimal_mono hp h1
    have m2 := decimal_mono hp h2
    rw [decimal_exact hp d1] at m1
    rw [decimal_exact hp d2] at m2
    rw [ha]
    exact ⟨m1, m2⟩

theorem ordinary_between {x : ℚ} (h1 : 1 / 10 ^ 10 ≤ |x|) (h2 : |x| ≤ 10 ^ 10) : 1 / 10 ^ 300 ≤ |x| ∧ |x| ≤ 10 ^ 300 := by
  have a1 : (10 : ℚ) ^ 10 ≤ 10 ^ 300 := pow_le_pow_right₀ (by norm_num) (by norm_num)
  have a2 : (1 : ℚ) / 10 ^ 300 ≤ 1 / 10 ^ 10 := one_div_le_one_div_of_le (by norm_num) a1
  exact ⟨le_trans a2 h1, le_trans h2 a1⟩

theorem separates_text {sep : Char} (h : Separates sep) (p : ℕ) (x : Dbl ℚ) : sep ∉ numText p x := by
  intro hc
  rcases numText_chars p x sep hc with h1 | h1
  · rw [h.2.1] at h1; simp at h1
  · exact h.2.2 h1

theorem numText_line (p : ℕ) (x : Dbl ℚ) : '\n' ∉ numText p x := by
  intro hc
  rcases numText_chars p x _ hc with h1 | h1
  · simp at h1
  · revert h1; decide

/-- The file that `saveData` leaves, with the numbers as `operator<<` prints them. -/
theorem save_numbers {parse : Text → Parsed ℚ} {rd : ℚ → ℚ} (hr : ReadsNumbers parse rd) {p : ℕ} (hp : 1 ≤ p) {sep : Char} (hs : Separates sep)
    {ds : Dataset ℚ} {rows : List (List ℚ)} (H : Holds ds (rows.map (·.map fin))) (ho : ∀ r ∈ rows, ∀ x ∈ r, Ordinary x)
    (hnames : ds.names = [] ∨ ds.names.length = rows.length) (hname : ∀ n ∈ ds.names, n ≠ [] ∧ sep ∉ n ∧ '\n' ∉ n) (path : Text) :
    ∃ text ds', ds.saveData (numText p) sep = .ok text ∧
      readVals parse 0 0 [sep] (decide (ds.names ≠ [])) text = (rows.map (·.map fun x => fin (rd (decimal p x)))).map (·.map Parsed.val) ∧
      (∀ l ∈ firstLines 0 text, valueCol 0 (decide (ds.names ≠ [])) ≤ (columns [sep] l).length) ∧
      Dataset.loadData parse (some text) path 0 0 [sep] (decide (ds.names ≠ [])) (Dataset.fresh : Dataset ℚ) = (ds', .ok ()) ∧
      Holds ds' (rows.map (·.map fun x => fin (rd (decimal p x)))) ∧ ds'.names = ds.names := by
  classical
  let S : Dbl ℚ → Prop := fun x => ∃ r ∈ rows, ∃ q ∈ r, x = fin q
  let pr : Dbl ℚ → Text := fun x => if S x then numText p x else ['0']
  let f : Dbl ℚ → Dbl ℚ := fun x => match x with | .fin q => fin (rd (decimal p q)) | y => y
  let rd' : Dbl ℚ → Dbl ℚ := fun x => if S x then f x else fin (rd 0)
  have h0 : parse ['0'] = .val (fin (rd 0)) := hr _ 0 (by decide +kernel) (.inl rfl)
  have hd : sep ≠ '0' := by
    intro e
    have := hs.2.1
    rw [e] at this
    simp at this
  have hpr : ∀ x, pr x ≠ [] ∧ sep ∉ pr x ∧ '\n' ∉ pr x := by
    intro x
    show (if S x then numText p x else ['0']) ≠ [] ∧ _
    by_cases hx : S x
    · simp only [pr, if_pos hx]
      exact ⟨numText_ne_nil hp x, separates_text hs p x, numText_line p x⟩
    · simp only [pr, if_neg hx]
      exact ⟨by simp, by simpa using hd, by decide⟩
  have hpa : ∀ x, parse (pr x) = .val (rd' x) := by
    intro x
    by_cases hx : S x
    · simp only [pr, rd', if_pos hx]
      obtain ⟨r, hr1, q, hq, rfl⟩ := hx
      exact hr _ _ (read_numText hp q) (ordinary_decimal hp (ho r hr1 q hq))
    · simp only [pr, rd', if_neg hx]
      exact h0
  have hmem : ∀ r ∈ rows, ∀ q ∈ r, S (fin q) := fun r hr q hq => ⟨r, hr, q, hq, rfl⟩
  have hrows : (rows.map (·.map fin)).map (·.map rd') = rows.map (·.map fun x => fin (rd (decimal p x))) := by
    rw [List.map_map]
    apply List.map_congr_left
    intro r hr
    simp only [Function.comp_def, List.map_map]
    apply List.map_congr_left
    intro q hq
    simp only [rd', if_pos (hmem r hr q hq), f]
  have hsame : ds.saveData (numText p) sep = ds.saveData pr sep := by
    rw [saveData_ok (numText p) sep H (by simpa using hnames), saveData_ok pr sep H (by simpa using hnames)]
    congr 2
    apply List.ext_getElem?
    intro i
    simp only [List.getElem?_mapIdx, List.getElem?_map, Option.map_map]
    cases hi : rows[i]? with
    | none => rfl
    | some r =>
      simp only [Option.map_some, Function.comp_def, Option.some.injEq]
      have hl : (r.map fin).map (numText p) = (r.map fin).map pr := by
        simp only [List.map_map]
        apply List.map_congr_left
        intro q hq
        simp only [Function.comp_def, pr, if_pos (hmem r (List.mem_of_getElem? hi) q hq)]
      rw [rowText_eq, rowText_eq]
      unfold linePieces
      rw [hl]
  obtain ⟨text, h1, h2, h3, h4, h5⟩ := save_file pr parse rd' sep hs.1 hpr hpa H (by simpa using hnames) hname
  obtain ⟨text', ds', g1, g2, g3, g4⟩ := save_load pr parse rd' sep path hs.1 hpr hpa H (by simpa using hnames) hname
  rw [h1, Except.ok.injEq] at g1
  subst g1
  rw [hrows] at h4 g3
  exact ⟨text, ds', by rw [hsame]; exact h1, h4, h5, g2, g3, g4⟩

end Genex
