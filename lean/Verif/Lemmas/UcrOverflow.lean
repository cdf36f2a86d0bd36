import Verif.Lemmas.UcrAny
import Verif.Lemmas.Overflow

/-! The scan with overflow and the scan without: the results of the former are those of the latter, infinite where they are beyond the limit. -/

set_option linter.unusedSectionVars false

namespace Genex.Ucr

open Dbl Spec

/-! ## Two computations -/

section
variable {α β γ δ : Type}

/-- Both fail in the same way, or the results are related. -/
def SimR (R : α → β → Prop) : Res α → Res β → Prop
  | .ok a, .ok b => R a b
  | .error e, .error e' => e = e'
  | _, _ => False

theorem SimR.bind {R : α → β → Prop} {S : γ → δ → Prop} {x : Res α} {y : Res β} {f : α → Res γ} {g : β → Res δ} (h : SimR R x y)
    (hf : ∀ a b, R a b → SimR S (f a) (g b)) : SimR S (x >>= f) (y >>= g) := by
  cases x <;> cases y <;> simp only [SimR] at h
  · subst h; rfl
  · exact hf _ _ h

theorem SimR.mono {R S : α → β → Prop} {x : Res α} {y : Res β} (h : SimR R x y) (hs : ∀ a b, R a b → S a b) : SimR S x y := by
  cases x <;> cases y <;> simp only [SimR] at h ⊢
  · exact h
  · exact hs _ _ h

theorem SimR.ite {R : α → β → Prop} {p q : Prop} [Decidable p] [Decidable q] {x x' : Res α} {y y' : Res β} (hpq : p ↔ q) (h : p → q → SimR R x y)
    (h' : ¬ p → ¬ q → SimR R x' y') : SimR R (if p then x else x') (if q then y else y') := by
  by_cases hp : p
  · rw [if_pos hp, if_pos (hpq.1 hp)]; exact h hp (hpq.1 hp)
  · rw [if_neg hp, if_neg (fun hq => hp (hpq.2 hq))]; exact h' hp (fun hq => hp (hpq.2 hq))

theorem SimR.eq {x y : Res α} (h : SimR Eq x y) : x = y := by
  cases x <;> cases y <;> simp only [SimR] at h
  · rw [h]
  · rw [h]

theorem SimR.same {P : α → Prop} {x : Res α} (h : ∀ a, x = .ok a → P a) : SimR (fun a b => a = b ∧ P b) x x := by
  cases x
  · rfl
  · exact ⟨rfl, h _ rfl⟩

theorem SimR.refl (x : Res α) : SimR Eq x x := by cases x <;> rfl

theorem SimR.foldlM {R : α → β → Prop} {f : α → γ → Res α} {g : β → γ → Res β} (hf : ∀ a b c, R a b → SimR R (f a c) (g b c)) (l : List γ) :
    ∀ {a b}, R a b → SimR R (l.foldlM f a) (l.foldlM g b) := by
  induction l with
  | nil => intro a b h; exact h
  | cons c l ih =>
    intro a b h
    rw [List.foldlM_cons, List.foldlM_cons]
    exact (hf a b c h).bind fun a' b' h' => ih h'

/-- Relations that depend on how many steps were made. -/
theorem SimR.foldlM_range {R : ℕ → α → β → Prop} {f : α → ℕ → Res α} {g : β → ℕ → Res β} (n : ℕ)
    (hf : ∀ a b c, c < n → R c a b → SimR (R (c + 1)) (f a c) (g b c)) {a : α} {b : β} (h : R 0 a b) :
    SimR (R n) ((List.range n).foldlM f a) ((List.range n).foldlM g b) := by
  induction n with
  | zero => exact h
  | succ n ih =>
    rw [List.range_succ, List.foldlM_append, List.foldlM_append]
    refine (ih fun a b c hc => hf a b c (by omega)).bind fun a' b' h' => ?_
    simp only [List.foldlM_cons, List.foldlM_nil]
    exact (hf a' b' n (by omega) h').bind fun _ _ h => h

theorem SimR.mapM {R : α → β → Prop} {f : γ → Res α} {g : γ → Res β} (hf : ∀ c, SimR R (f c) (g c)) (l : List γ) :
    SimR (List.Forall₂ R) (l.mapM f) (l.mapM g) := by
  induction l with
  | nil => simp only [List.mapM_nil]; exact .nil
  | cons c l ih =>
    rw [List.mapM_cons, List.mapM_cons]
    exact (hf c).bind fun a b h => ih.bind fun as bs hs => .cons h hs

end

/-! ## Numbers -/

section
variable {K : Type} [Field K] [LinearOrder K] [IsStrictOrderedRing K] {fl : K → K} {X c : K}

/-- The greatest number `X`, and the greatest number `c` of the query. -/
structure Lim (fl : K → K) (X c : K) : Prop extends Rounding fl where
  fixed : fl X = X
  big : 10 ^ 20 ≤ X
  c_le : c ≤ X
  far : ∀ v q, X < v → |q| ≤ c → X < fl (fl (v - q) * fl (v - q))

theorem Lim.one_le (h : Lim fl X c) : 1 ≤ X := _root_.le_trans (one_le_pow₀ (by norm_num)) h.big

/-- A number, once rounded. -/
def Fx (fl : K → K) (f : Dbl K) : Prop := rnd fl f = f

/-- A number that is not negative, an infinity, or no number. -/
def NN (f : Dbl K) : Prop := f ≠ ninf ∧ ∀ v, f = fin v → 0 ≤ v

/-- The first is the second, infinite beyond the limit. -/
def RS (fl : K → K) (X : K) (o f : Dbl K) : Prop := o = rndMax fl X f ∧ Fx fl f

/-- In addition, not negative. -/
def R0 (fl : K → K) (X : K) (o f : Dbl K) : Prop := RS fl X o f ∧ NN f

theorem fx_fin {v : K} : Fx fl (fin v) ↔ fl v = v := by simp [Fx, rnd]

theorem fx_rnd (h : Rounding fl) (d : Dbl K) : Fx fl (rnd fl d) := by
  cases d <;> simp [Fx, rnd, h.idem]

theorem rndMax_rnd (h : Rounding fl) (d : Dbl K) : rndMax fl X (rnd fl d) = rndMax fl X d := by
  cases d <;> simp [rndMax, rnd, h.idem]

theorem rs_rnd (h : Rounding fl) (d : Dbl K) : RS fl X (rndMax fl X d) (rnd fl d) := ⟨(rndMax_rnd h d).symm, fx_rnd h d⟩

theorem rndMax_in {v : K} (hf : fl v = v) (h : |v| ≤ X) : rndMax fl X (fin v) = fin v := by
  rw [rndMax_eq (by rwa [hf]), hf]

theorem rndMax_over {v : K} (hf : fl v = v) (h : X < v) : rndMax fl X (fin v) = inf := by
  simp only [rndMax, hf]; rw [if_pos h]

theorem rndMax_under {v : K} (hf : fl v = v) (hX : 0 ≤ X) (h : v < -X) : rndMax fl X (fin v) = ninf := by
  simp only [rndMax, hf]; rw [if_neg (by linarith), if_pos h]

theorem rs_fin {v : K} (hf : fl v = v) (h : |v| ≤ X) : RS fl X (fin v) (fin v) := ⟨(rndMax_in hf h).symm, fx_fin.2 hf⟩

/-- Of a number there are three cases. -/
theorem RS.cases (hX : 0 ≤ X) {o : Dbl K} {v : K} (h : RS fl X o (fin v)) :
    (|v| ≤ X ∧ o = fin v) ∨ (X < v ∧ o = inf) ∨ (v < -X ∧ o = ninf) := by
  obtain ⟨rfl, hf⟩ := h
  rw [fx_fin] at hf
  rcases lt_or_ge X v with h1 | h1
  · exact .inr (.inl ⟨h1, rndMax_over hf h1⟩)
  rcases lt_or_ge v (-X) with h2 | h2
  · exact .inr (.inr ⟨h2, rndMax_under hf hX h2⟩)
  · have : |v| ≤ X := abs_le.2 ⟨h2, h1⟩
    exact .inl ⟨this, rndMax_in hf this⟩

theorem RS.lt_right (hX : 0 ≤ X) {o f : Dbl K} (h : RS fl X o f) {b : K} (hb : |b| ≤ X) : o < fin b ↔ f < fin b := by
  have hb' := abs_le.1 hb
  cases f with
  | fin v =>
    rcases h.cases hX with ⟨-, rfl⟩ | ⟨h1, rfl⟩ | ⟨h1, rfl⟩
    · rfl
    · simp only [inf_lt, fin_lt_fin, false_iff]; linarith
    · simp only [ninf_lt_fin, fin_lt_fin, true_iff]; linarith
  | inf => rw [h.1]; rfl
  | ninf => rw [h.1]; rfl
  | nan => rw [h.1]; rfl

theorem RS.lt_left (hX : 0 ≤ X) {o f : Dbl K} (h : RS fl X o f) {b : K} (hb : |b| ≤ X) : fin b < o ↔ fin b < f := by
  have hb' := abs_le.1 hb
  cases f with
  | fin v =>
    rcases h.cases hX with ⟨-, rfl⟩ | ⟨h1, rfl⟩ | ⟨h1, rfl⟩
    · rfl
    · simp only [fin_lt_inf, fin_lt_fin, true_iff]; linarith
    · simp only [lt_ninf, fin_lt_fin, false_iff]; linarith
  | inf => rw [h.1]; rfl
  | ninf => rw [h.1]; rfl
  | nan => rw [h.1]; rfl

theorem RS.le_left (hX : 0 ≤ X) {o f : Dbl K} (h : RS fl X o f) {b : K} (hb : |b| ≤ X) : fin b ≤ o ↔ fin b ≤ f := by
  have hb' := abs_le.1 hb
  cases f with
  | fin v =>
    rcases h.cases hX with ⟨-, rfl⟩ | ⟨h1, rfl⟩ | ⟨h1, rfl⟩
    · rfl
    · simp only [fin_le_inf, fin_le_fin, true_iff]; linarith
    · simp only [le_def, lt_ninf, reduceCtorEq, false_and, or_self, fin_lt_fin, false_iff]
      rintro (h2 | ⟨h2, -⟩)
      · linarith
      · injection h2 with h2; linarith
  | inf => rw [h.1]; rfl
  | ninf => rw [h.1]; rfl
  | nan => rw [h.1]; rfl

/-- What is less than a number of the arithmetic, and not negative, is the same in both. -/
theorem R0.eq (hX : 0 ≤ X) {o f : Dbl K} (h : R0 fl X o f) {b : K} (hb : |b| ≤ X) (hlt : f < fin b) : ∃ v, f = fin v ∧ o = fin v ∧ 0 ≤ v ∧ v < b := by
  obtain ⟨h, h1, h2⟩ := h
  cases f with
  | fin v =>
    have h0 := h2 v rfl
    rw [fin_lt_fin] at hlt
    have hb' := abs_le.1 hb
    rcases h.cases hX with ⟨-, rfl⟩ | ⟨h1, rfl⟩ | ⟨h1, rfl⟩
    · exact ⟨v, rfl, rfl, h0, hlt⟩
    · linarith
    · linarith
  | inf => simp at hlt
  | ninf => exact absurd rfl h1
  | nan => simp at hlt

theorem rndMax_mn (hX : 0 ≤ X) {o o' f f' : Dbl K} (h : RS fl X o f) (h' : RS fl X o' f') : mn o o' = rndMax fl X (mn f f') := by
  unfold mn
  cases f with
  | nan => rw [h.1]; simp only [rndMax, nan_lt, if_false]; exact h'.1
  | inf => rw [h.1]; simp only [rndMax, inf_lt, if_false]; exact h'.1
  | ninf =>
    rw [h.1]; simp only [rndMax]
    cases f' with
    | fin w =>
      rcases h'.cases hX with ⟨-, rfl⟩ | ⟨h1, rfl⟩ | ⟨h1, rfl⟩
      · simp [rndMax]
      · simp [rndMax]
      · simp [rndMax]
    | inf => rw [h'.1]; simp [rndMax]
    | ninf => rw [h'.1]; simp [rndMax]
    | nan => rw [h'.1]; simp [rndMax]
  | fin v =>
    cases f' with
    | nan => rw [h'.1]; simp [rndMax]
    | ninf => rw [h'.1]; simp [rndMax]
    | inf =>
      have eo := h.1
      have e2 : rndMax fl X (inf : Dbl K) = inf := rfl
      rw [h'.1, e2, if_pos (show fin v < inf by simp)]
      rcases h.cases hX with ⟨-, rfl⟩ | ⟨-, rfl⟩ | ⟨-, rfl⟩
      · rw [if_pos (by simp)]; exact eo
      · rw [ite_self]; exact eo
      · rw [if_pos (by simp)]; exact eo
    | fin w =>
      have eo := h.1
      have eo' := h'.1
      rcases h.cases hX with ⟨a, rfl⟩ | ⟨a, rfl⟩ | ⟨a, rfl⟩ <;> rcases h'.cases hX with ⟨b, rfl⟩ | ⟨b, rfl⟩ | ⟨b, rfl⟩ <;>
        (try rw [abs_le] at a) <;> (try rw [abs_le] at b)
      · split_ifs <;> assumption
      · rw [if_pos (show fin v < inf by simp), if_pos (by rw [fin_lt_fin]; linarith)]; exact eo
      · rw [if_neg (by simp), if_neg (by rw [fin_lt_fin]; linarith)]; exact eo'
      · rw [if_neg (by simp), if_neg (by rw [fin_lt_fin]; linarith)]; exact eo'
      · rw [if_neg (by simp)]; split_ifs <;> assumption
      · rw [if_neg (by simp), if_neg (by rw [fin_lt_fin]; linarith)]; exact eo'
      · rw [if_pos (show (ninf : Dbl K) < fin w by simp), if_pos (by rw [fin_lt_fin]; linarith)]; exact eo
      · rw [if_pos (show (ninf : Dbl K) < inf by simp), if_pos (by rw [fin_lt_fin]; linarith)]; exact eo
      · rw [if_neg (by simp)]; split_ifs <;> assumption

theorem rs_mn (hX : 0 ≤ X) {o o' f f' : Dbl K} (h : RS fl X o f) (h' : RS fl X o' f') : RS fl X (mn o o') (mn f f') := by
  refine ⟨rndMax_mn hX h h', ?_⟩
  unfold mn
  split_ifs
  · exact h.2
  · exact h'.2

theorem r0_mn (hX : 0 ≤ X) {o o' f f' : Dbl K} (h : R0 fl X o f) (h' : R0 fl X o' f') : R0 fl X (mn o o') (mn f f') := by
  refine ⟨rs_mn hX h.1 h'.1, ?_⟩
  unfold mn
  split_ifs
  · exact h.2
  · exact h'.2

theorem r0_add (hr : Rounding fl) (hX : 0 ≤ X) {o o' f f' : Dbl K} (h : R0 fl X o f) (h' : R0 fl X o' f') :
    R0 fl X (rndMax fl X (o + o')) (rnd fl (f + f')) := by
  obtain ⟨h, n1, n2⟩ := h
  obtain ⟨h', n1', n2'⟩ := h'
  refine ⟨⟨?_, fx_rnd hr _⟩, ?_, ?_⟩
  · rw [rndMax_rnd hr]
    cases f with
    | nan => rw [h.1]; rfl
    | ninf => exact absurd rfl n1
    | inf =>
      rw [h.1]
      cases f' with
      | ninf => exact absurd rfl n1'
      | nan => rw [h'.1]; rfl
      | inf => rw [h'.1]; rfl
      | fin w =>
        have := n2' w rfl
        rcases h'.cases hX with ⟨-, rfl⟩ | ⟨h1, rfl⟩ | ⟨h1, rfl⟩
        · rfl
        · rfl
        · linarith
    | fin v =>
      have hv := n2 v rfl
      have fv := fx_fin.1 h.2
      cases f' with
      | ninf => exact absurd rfl n1'
      | nan =>
        rw [h'.1]
        cases o <;> rfl
      | inf =>
        rw [h'.1]
        rcases h.cases hX with ⟨-, rfl⟩ | ⟨h1, rfl⟩ | ⟨h1, rfl⟩
        · rfl
        · rfl
        · linarith
      | fin w =>
        have hw := n2' w rfl
        have fw := fx_fin.1 h'.2
        have big : X < v ∨ X < w → rndMax fl X (fin (v + w)) = inf := by
          intro hh
          have : X < fl (v + w) := by
            rcases hh with hh | hh
            · exact _root_.lt_of_lt_of_le hh (hr.add_le fv hw)
            · rw [add_comm]; exact _root_.lt_of_lt_of_le hh (hr.add_le fw hv)
          simp only [rndMax]; rw [if_pos this]
        rcases h.cases hX with ⟨-, rfl⟩ | ⟨h1, rfl⟩ | ⟨h1, rfl⟩
        · rcases h'.cases hX with ⟨-, rfl⟩ | ⟨h2, rfl⟩ | ⟨h2, rfl⟩
          · rfl
          · rw [fin_add_fin, big (.inr h2)]; rfl
          · linarith
        · rcases h'.cases hX with ⟨-, rfl⟩ | ⟨h2, rfl⟩ | ⟨h2, rfl⟩
          · rw [fin_add_fin, big (.inl h1)]; rfl
          · rw [fin_add_fin, big (.inl h1)]; rfl
          · linarith
        · linarith
  · cases f <;> cases f' <;> first | exact absurd rfl n1 | exact absurd rfl n1' | (intro e; exact absurd e (by simp [rnd, HAdd.hAdd, Add.add, Dbl.add]))
  · intro v e
    cases f <;> cases f' <;> first | exact absurd rfl n1 | exact absurd rfl n1' | (rename_i a b; rw [fin_add_fin, rnd_fin] at e; injection e with e; rw [← e]; exact hr.nonneg (add_nonneg (n2 _ rfl) (n2' _ rfl))) | (exact absurd e (by simp [rnd, HAdd.hAdd, Add.add, Dbl.add]))

theorem sqR_comm {ρ : Dbl K → Dbl K} (hρ : ∀ d, ρ (-d) = -ρ d) (x y : Dbl K) : sqR ρ x y = sqR ρ y x := by
  have e : x - y = -(y - x) := by
    cases x <;> cases y <;> first | rfl | (show fin _ = fin _; congr 1; ring)
  have m : ∀ d : Dbl K, -d * -d = d * d := by
    intro d
    cases d <;> first | rfl | (show fin _ = fin _; congr 1; ring)
  unfold sqR
  rw [e, hρ, m]

theorem rnd_neg (h : Rounding fl) (d : Dbl K) : rnd fl (-d) = -rnd fl d := by
  cases d with
  | fin v => show fin (fl (-v)) = fin (-fl v); rw [h.neg]
  | inf => rfl
  | ninf => rfl
  | nan => rfl

theorem rndMax_neg (h : Rounding fl) (hX : 0 ≤ X) (d : Dbl K) : rndMax fl X (-d) = -rndMax fl X d := by
  cases d with
  | fin v =>
    show rndMax fl X (fin (-v)) = -rndMax fl X (fin v)
    simp only [rndMax, h.neg]
    by_cases h1 : X < fl v
    · rw [if_neg (by linarith), if_pos (by linarith), if_pos h1]; rfl
    · rw [if_neg h1]
      by_cases h2 : fl v < -X
      · rw [if_pos (by linarith), if_pos h2]; rfl
      · rw [if_neg (by linarith), if_neg (by linarith), if_neg h2]; rfl
  | inf => rfl
  | ninf => rfl
  | nan => rfl

theorem r0_sq (h : Lim fl X c) {o f : Dbl K} (hs : RS fl X o f) {q : K} (hq : |q| ≤ c) :
    R0 fl X (sqR (rndMax fl X) o (fin q)) (sqR (rnd fl) f (fin q)) := by
  have hr := h.toRounding
  have hX1 := h.one_le
  have hX : 0 ≤ X := by linarith
  have big : ∀ w, fl w = w → X < w ∨ w < -X → rndMax fl X (fin (w * w)) = inf := by
    intro w hw hh
    have : X < fl (w * w) := by
      rcases hh with hh | hh
      · have := hr.mono w (w * w) (by nlinarith)
        rw [hw] at this; linarith
      · have := hr.mono (-w) (w * w) (by nlinarith)
        rw [hr.neg, hw] at this; linarith
    simp only [rndMax]; rw [if_pos this]
  refine ⟨⟨?_, fx_rnd hr _⟩, ?_, ?_⟩
  · unfold sqR
    rw [rndMax_rnd hr]
    cases f with
    | nan => rw [hs.1]; rfl
    | inf => rw [hs.1]; rfl
    | ninf => rw [hs.1]; rfl
    | fin v =>
      simp only [fin_sub_fin, rnd_fin, fin_mul_fin]
      rcases hs.cases hX with ⟨-, rfl⟩ | ⟨h1, rfl⟩ | ⟨h1, rfl⟩
      · have hd := rs_rnd (X := X) hr (fin (v - q))
        rw [rnd_fin] at hd
        have hi := hr.idem (v - q)
        rw [fin_sub_fin]
        rcases hd.cases hX with ⟨-, e⟩ | ⟨h2, e⟩ | ⟨h2, e⟩
        · rw [e, fin_mul_fin]
        · rw [e, big _ hi (.inl h2)]; rfl
        · rw [e, big _ hi (.inr h2)]; rfl
      · have := h.far v q h1 hq
        simp only [rndMax]; rw [if_pos this]; rfl
      · have := h.far (-v) (-q) (by linarith) (by rwa [abs_neg])
        rw [show -v - -q = -(v - q) by ring, hr.neg, neg_mul_neg] at this
        simp only [rndMax]; rw [if_pos this]; rfl
  · unfold sqR
    cases f <;> simp [rnd, HSub.hSub, Sub.sub, Dbl.add, Dbl.neg, HMul.hMul, Mul.mul, Dbl.mul]
  · intro v e
    unfold sqR at e
    cases f with
    | fin w =>
      simp only [fin_sub_fin, rnd_fin, fin_mul_fin] at e
      injection e with e
      rw [← e]
      exact hr.nonneg (mul_self_nonneg _)
    | inf => exact absurd e (by simp [rnd, HSub.hSub, Sub.sub, Dbl.add, Dbl.neg, HMul.hMul, Mul.mul, Dbl.mul])
    | ninf => exact absurd e (by simp [rnd, HSub.hSub, Sub.sub, Dbl.add, Dbl.neg, HMul.hMul, Mul.mul, Dbl.mul])
    | nan => exact absurd e (by simp [rnd, HSub.hSub, Sub.sub, Dbl.add, Dbl.neg, HMul.hMul, Mul.mul, Dbl.mul])

theorem r0_sq' (h : Lim fl X c) {o f : Dbl K} (hs : RS fl X o f) {q : K} (hq : |q| ≤ c) :
    R0 fl X (sqR (rndMax fl X) (fin q) o) (sqR (rnd fl) (fin q) f) := by
  rw [sqR_comm (rndMax_neg h.toRounding (by linarith [h.one_le])), sqR_comm (rnd_neg h.toRounding)]
  exact r0_sq h hs hq

theorem r0_fin {v : K} (hf : fl v = v) (h0 : 0 ≤ v) (h : v ≤ X) : R0 fl X (fin v) (fin v) :=
  ⟨rs_fin hf (by rwa [abs_of_nonneg h0]), by simp, fun w e => by injection e with e; rw [← e]; exact h0⟩

theorem r0_zero (h : Lim fl X c) : R0 fl X 0 0 := r0_fin h.toRounding.zero le_rfl (by linarith [h.one_le])

theorem r0_big (h : Lim fl X c) (hb : fl (10 ^ 20) = 10 ^ 20) : R0 fl X (big : Dbl K) big := r0_fin hb (by positivity) h.big

end

/-! ## Arrays -/

section
variable {K : Type}

/-- Arrays, cell by cell. -/
def ArrR (R : Dbl K → Dbl K → Prop) (a b : Arr K) : Prop := List.Forall₂ (Option.Rel R) a b

/-- What was written satisfies `P`. -/
def Cells (P : Dbl K → Prop) (a : Arr K) : Prop := ∀ x, some x ∈ a → P x

theorem forall₂_get {α β : Type} {S : α → β → Prop} {a : List α} {b : List β} (h : List.Forall₂ S a b) : ∀ n : ℕ, Option.Rel S a[n]? b[n]? := by
  induction h with
  | nil => intro n; simp
  | cons h _ ih =>
    intro n
    cases n with
    | zero => simpa using h
    | succ n => simpa using ih n

theorem forall₂_set {α β : Type} {S : α → β → Prop} {a : List α} {b : List β} (h : List.Forall₂ S a b) {x : α} {y : β} (hxy : S x y) :
    ∀ n : ℕ, List.Forall₂ S (a.set n x) (b.set n y) := by
  induction h with
  | nil => intro n; simp
  | cons h hs ih =>
    intro n
    cases n with
    | zero => exact .cons hxy hs
    | succ n => exact .cons h (ih n)

theorem rd_sim {R : Dbl K → Dbl K → Prop} {a b : Arr K} (h : ArrR R a b) (i : Int) : SimR R (rd a i) (rd b i) := by
  unfold rd
  split_ifs
  · have := forall₂_get h i.toNat
    revert this
    generalize a[i.toNat]? = x
    generalize b[i.toNat]? = y
    intro h
    cases h with
    | none => rfl
    | some h =>
      cases h with
      | none => rfl
      | some h => exact h
  · rfl

theorem wr_sim {R : Dbl K → Dbl K → Prop} {a b : Arr K} (h : ArrR R a b) (i : Int) {x y : Dbl K} (hxy : R x y) : SimR (ArrR R) (wr a i x) (wr b i y) := by
  unfold wr
  rw [List.Forall₂.length_eq h]
  split_ifs
  · exact forall₂_set h (.some hxy) _
  · rfl

theorem rd_cells {P : Dbl K → Prop} {a : Arr K} (h : Cells P a) {i : Int} {x : Dbl K} (e : rd a i = .ok x) : P x := by
  unfold rd at e
  split_ifs at e
  split at e
  · injection e with e
    subst e
    rename_i h'
    exact h _ (List.mem_of_getElem? h')
  · simp at e
  · simp at e

theorem wr_cells {P : Dbl K → Prop} {a b : Arr K} (h : Cells P a) {i : Int} {x : Dbl K} (hx : P x) (e : wr a i x = .ok b) : Cells P b := by
  unfold wr at e
  split_ifs at e
  injection e with e
  subst e
  intro y hy
  rcases List.mem_or_eq_of_mem_set hy with hy | hy
  · exact h y hy
  · injection hy with hy; rw [hy]; exact hx

theorem rd_same {P : Dbl K → Prop} {a : Arr K} (h : Cells P a) (i : Int) : SimR (fun x y => x = y ∧ P y) (rd a i) (rd a i) :=
  SimR.same fun _ e => rd_cells h e

theorem wr_same {P : Dbl K → Prop} {a : Arr K} (h : Cells P a) (i : Int) {x : Dbl K} (hx : P x) : SimR (fun x y => x = y ∧ Cells P y) (wr a i x) (wr a i x) :=
  SimR.same fun _ e => wr_cells h hx e

theorem cells_alloc (P : Dbl K → Prop) (n : ℕ) : Cells P (alloc n) := by
  intro x hx
  unfold alloc at hx
  have := List.eq_of_mem_replicate hx
  simp at this

theorem arrR_replicate {R : Dbl K → Dbl K → Prop} {x y : Dbl K} (h : R x y) (n : ℕ) : ArrR R (List.replicate n (some x)) (List.replicate n (some y)) := by
  induction n with
  | zero => exact .nil
  | succ n ih => exact .cons (.some h) ih

theorem arrR_map {R : Dbl K → Dbl K → Prop} {a b : List (Dbl K)} (h : List.Forall₂ R a b) : ArrR R (a.map some) (b.map some) := by
  induction h with
  | nil => exact .nil
  | cons h _ ih => exact .cons (.some h) ih

end

/-! ## The parts of the scan -/

section
variable {K : Type} [Field K] [LinearOrder K] [IsStrictOrderedRing K] {fl : K → K} {X c : K}

/-- A number up to `c`. -/
def UpTo (c : K) (x : Dbl K) : Prop := ∃ v, x = fin v ∧ |v| ≤ c

/-- The difference from the mean does not overflow. -/
def Calm (fl : K → K) (X : K) (mean x : Dbl K) : Prop := rndMax fl X (x - mean) = rnd fl (x - mean)

theorem zAtR_sim (h : Rounding fl) {t : Arr K} {mean std : Dbl K} (ht : Cells (Calm fl X mean) t) (i : Int) :
    SimR (RS fl X) (zAtR (rndMax fl X) t mean std i) (zAtR (rnd fl) t mean std i) := by
  unfold zAtR
  refine (rd_same ht i).bind ?_
  rintro x _ ⟨rfl, hx⟩
  show RS fl X _ _
  rw [hx]
  exact rs_rnd h _

section
variable (h : Lim fl X c)
include h

theorem lbKimR_sim {t q : Arr K} {mean std : Dbl K} (ht : Cells (Calm fl X mean) t) (hq : Cells (UpTo c) q) {b : K} (hb : |b| ≤ X) (j len : Int) :
    SimR (R0 fl X) (lbKimR (rndMax fl X) t q j len mean std (fin b)) (lbKimR (rnd fl) t q j len mean std (fin b)) := by
  have hr := h.toRounding
  have hX : 0 ≤ X := by linarith [h.one_le]
  unfold lbKimR
  refine (zAtR_sim hr ht _).bind fun x0 x0' hx0 => (zAtR_sim hr ht _).bind fun y0 y0' hy0 => (rd_same hq _).bind ?_
  rintro _ _ ⟨rfl, q0, rfl, hq0⟩
  refine (rd_same hq _).bind ?_
  rintro _ _ ⟨rfl, p0, rfl, hp0⟩
  have L := r0_add hr hX (r0_sq h hx0 hq0) (r0_sq h hy0 hp0)
  refine SimR.ite (L.1.le_left hX hb) (fun _ _ => L) fun _ _ => ?_
  refine (zAtR_sim hr ht _).bind fun x1 x1' hx1 => (rd_same hq _).bind ?_
  rintro _ _ ⟨rfl, q1, rfl, hq1⟩
  have L := r0_add hr hX L (r0_mn hX (r0_mn hX (r0_sq h hx1 hq0) (r0_sq h hx0 hq1)) (r0_sq h hx1 hq1))
  refine SimR.ite (L.1.le_left hX hb) (fun _ _ => L) fun _ _ => ?_
  refine (zAtR_sim hr ht _).bind fun y1 y1' hy1 => (rd_same hq _).bind ?_
  rintro _ _ ⟨rfl, p1, rfl, hp1⟩
  have L := r0_add hr hX L (r0_mn hX (r0_mn hX (r0_sq h hy1 hp0) (r0_sq h hy0 hp1)) (r0_sq h hy1 hp1))
  refine SimR.ite (L.1.le_left hX hb) (fun _ _ => L) fun _ _ => ?_
  refine (zAtR_sim hr ht _).bind fun x2 x2' hx2 => (rd_same hq _).bind ?_
  rintro _ _ ⟨rfl, q2, rfl, hq2⟩
  have L := r0_add hr hX L (r0_mn hX (r0_mn hX (r0_mn hX (r0_mn hX (r0_sq h hx0 hq2) (r0_sq h hx1 hq2)) (r0_sq h hx2 hq2)) (r0_sq h hx2 hq1)) (r0_sq h hx2 hq0))
  refine SimR.ite (L.1.le_left hX hb) (fun _ _ => L) fun _ _ => ?_
  refine (zAtR_sim hr ht _).bind fun y2 y2' hy2 => (rd_same hq _).bind ?_
  rintro _ _ ⟨rfl, p2, rfl, hp2⟩
  exact r0_add hr hX L (r0_mn hX (r0_mn hX (r0_mn hX (r0_mn hX (r0_sq h hy0 hp2) (r0_sq h hy1 hp2)) (r0_sq h hy2 hp2)) (r0_sq h hy2 hp1)) (r0_sq h hy2 hp0))

theorem keoghQR_sim {t uo lo : Arr K} {mean std : Dbl K} (ht : Cells (Calm fl X mean) t) (hu : Cells (UpTo c) uo) (hl : Cells (UpTo c) lo) {b : K} (hb : |b| ≤ X) (j : Int)
    (is : List ℕ) : ∀ (i : ℕ) {lb lb' : Dbl K} {cb cb' : Arr K}, R0 fl X lb lb' → ArrR (R0 fl X) cb cb' →
    SimR (fun x y => R0 fl X x.1 y.1 ∧ ArrR (R0 fl X) x.2 y.2) (keoghQR (rndMax fl X) t uo lo j mean std (fin b) is i lb cb)
      (keoghQR (rnd fl) t uo lo j mean std (fin b) is i lb' cb') := by
  have hr := h.toRounding
  have hX : 0 ≤ X := by linarith [h.one_le]
  induction is with
  | nil => intro i lb lb' cb cb' h1 h2; exact ⟨h1, h2⟩
  | cons o is ih =>
    intro i lb lb' cb cb' h1 h2
    unfold keoghQR
    refine SimR.ite (h1.1.lt_right hX hb) (fun _ _ => ?_) fun _ _ => ⟨h1, h2⟩
    refine (zAtR_sim hr ht _).bind fun x x' hx => (rd_same hu _).bind ?_
    rintro _ _ ⟨rfl, u, rfl, hu'⟩
    refine (rd_same hl _).bind ?_
    rintro _ _ ⟨rfl, l, rfl, hl'⟩
    have hd : R0 fl X (if fin u < x then sqR (rndMax fl X) x (fin u) else if x < fin l then sqR (rndMax fl X) x (fin l) else 0)
        (if fin u < x' then sqR (rnd fl) x' (fin u) else if x' < fin l then sqR (rnd fl) x' (fin l) else 0) := by
      have e1 := hx.lt_left hX (hu'.trans h.c_le)
      have e2 := hx.lt_right hX (hl'.trans h.c_le)
      by_cases c1 : fin u < x'
      · rw [if_pos c1, if_pos (e1.2 c1)]; exact r0_sq h hx hu'
      · rw [if_neg c1, if_neg (fun a => c1 (e1.1 a))]
        by_cases c2 : x' < fin l
        · rw [if_pos c2, if_pos (e2.2 c2)]; exact r0_sq h hx hl'
        · rw [if_neg c2, if_neg (fun a => c2 (e2.1 a))]; exact r0_zero h
    exact (wr_sim h2 _ hd).bind fun cb cb' hcb => ih _ (r0_add hr hX h1 hd) hcb

theorem keoghDR_sim {qo l u : Arr K} {mean std : Dbl K} (hq : Cells (UpTo c) qo) (hu : Cells (Calm fl X mean) u) (hl : Cells (Calm fl X mean) l) {b : K} (hb : |b| ≤ X) (I : Int)
    (is : List ℕ) : ∀ (i : ℕ) {lb lb' : Dbl K} {cb cb' : Arr K}, R0 fl X lb lb' → ArrR (R0 fl X) cb cb' →
    SimR (fun x y => R0 fl X x.1 y.1 ∧ ArrR (R0 fl X) x.2 y.2) (keoghDR (rndMax fl X) qo l u I mean std (fin b) is i lb cb)
      (keoghDR (rnd fl) qo l u I mean std (fin b) is i lb' cb') := by
  have hr := h.toRounding
  have hX : 0 ≤ X := by linarith [h.one_le]
  induction is with
  | nil => intro i lb lb' cb cb' h1 h2; exact ⟨h1, h2⟩
  | cons o is ih =>
    intro i lb lb' cb cb' h1 h2
    unfold keoghDR
    refine SimR.ite (h1.1.lt_right hX hb) (fun _ _ => ?_) fun _ _ => ⟨h1, h2⟩
    refine (zAtR_sim hr hu _).bind fun uu uu' huu => (zAtR_sim hr hl _).bind fun ll ll' hll => (rd_same hq _).bind ?_
    rintro _ _ ⟨rfl, x, rfl, hx⟩
    have hd : R0 fl X (if uu < fin x then sqR (rndMax fl X) (fin x) uu else if fin x < ll then sqR (rndMax fl X) (fin x) ll else 0)
        (if uu' < fin x then sqR (rnd fl) (fin x) uu' else if fin x < ll' then sqR (rnd fl) (fin x) ll' else 0) := by
      have e1 := huu.lt_right hX (hx.trans h.c_le)
      have e2 := hll.lt_left hX (hx.trans h.c_le)
      by_cases c1 : uu' < fin x
      · rw [if_pos c1, if_pos (e1.2 c1)]; exact r0_sq' h huu hx
      · rw [if_neg c1, if_neg (fun a => c1 (e1.1 a))]
        by_cases c2 : fin x < ll'
        · rw [if_pos c2, if_pos (e2.2 c2)]; exact r0_sq' h hll hx
        · rw [if_neg c2, if_neg (fun a => c2 (e2.1 a))]; exact r0_zero h
    exact (wr_sim h2 _ hd).bind fun cb cb' hcb => ih _ (r0_add hr hX h1 hd) hcb

theorem cumulateR_sim {a b : Arr K} (hab : ArrR (R0 fl X) a b) : SimR (ArrR (R0 fl X)) (cumulateR (rndMax fl X) a) (cumulateR (rnd fl) b) := by
  have hr := h.toRounding
  have hX : 0 ≤ X := by linarith [h.one_le]
  induction hab with
  | nil => exact .nil
  | @cons x y xs ys hxy hs ih =>
    have h1 : SimR (R0 fl X) (rd [x] 0) (rd [y] 0) := rd_sim (.cons hxy .nil) 0
    cases hs with
    | nil =>
      unfold cumulateR
      exact h1.bind fun x y h => .cons (.some h) .nil
    | cons h2 h3 =>
      unfold cumulateR
      refine ih.bind fun cb cb' hcb => (rd_sim hcb 0).bind fun s s' hs => h1.bind fun x y hxy => ?_
      exact .cons (.some (r0_add hr hX hs hxy)) hcb

theorem nbr_sim (hb : fl (10 ^ 20) = 10 ^ 20) {a a' : Arr K} (ha : ArrR (R0 fl X) a a') (out : Prop) [Decidable out] (k : Int) : SimR (R0 fl X) (nbr out a k) (nbr out a' k) := by
  unfold nbr
  exact SimR.ite Iff.rfl (fun _ _ => r0_big h hb) fun _ _ => rd_sim ha k

/-- Rows of the table. -/
def RowR (fl : K → K) (X : K) (s s' : Row K) : Prop := s.k = s'.k ∧ ArrR (R0 fl X) s.cost s'.cost ∧ R0 fl X s.minCost s'.minCost

theorem dtwCellR_sim (hb : fl (10 ^ 20) = 10 ^ 20) {A A' B prev prev' : Arr K} (hA : ArrR (RS fl X) A A') (hB : Cells (UpTo c) B) (hp : ArrR (R0 fl X) prev prev') (r i : ℕ)
    (s s' : Row K) (j : ℕ) (hs : RowR fl X s s') : SimR (RowR fl X) (dtwCellR (rndMax fl X) A B prev r i s j) (dtwCellR (rnd fl) A' B prev' r i s' j) := by
  have hr := h.toRounding
  have hX : 0 ≤ X := by linarith [h.one_le]
  obtain ⟨k, cost, mc⟩ := s
  obtain ⟨k', cost', mc'⟩ := s'
  obtain ⟨rfl, h1, h2⟩ := hs
  dsimp only at h1 h2
  unfold dtwCellR
  refine SimR.ite Iff.rfl (fun _ _ => ?_) fun _ _ => ?_
  · refine (rd_sim hA _).bind fun a a' ha => (rd_same hB _).bind ?_
    rintro _ _ ⟨rfl, q, rfl, hq⟩
    exact (wr_sim h1 _ (r0_sq h ha hq)).bind fun cost cost' hc => ⟨rfl, hc, r0_sq h ha hq⟩
  · refine (nbr_sim h hb h1 _ _).bind fun y y' hy => (nbr_sim h hb hp _ _).bind fun x x' hx => (nbr_sim h hb hp _ _).bind fun z z' hz =>
      (rd_sim hA _).bind fun a a' ha => (rd_same hB _).bind ?_
    rintro _ _ ⟨rfl, q, rfl, hq⟩
    have hc := r0_add hr hX (r0_mn hX (r0_mn hX hx hy) hz) (r0_sq h ha hq)
    exact (wr_sim h1 _ hc).bind fun cost cost' hcost => ⟨rfl, hcost, r0_mn hX hc h2⟩

theorem dtwRowsR_sim (hb : fl (10 ^ 20) = 10 ^ 20) {A A' B cb cb' : Arr K} (hA : ArrR (RS fl X) A A') (hB : Cells (UpTo c) B) (hcb : ArrR (R0 fl X) cb cb') {b : K} (hbX : |b| ≤ X)
    (m r : ℕ) (rows : ℕ) : ∀ (i k : ℕ) {cost cost' prev prev' : Arr K}, ArrR (R0 fl X) cost cost' → ArrR (R0 fl X) prev prev' →
    SimR (R0 fl X) (dtwRowsR (rndMax fl X) A B cb m r (fin b) rows i k cost prev) (dtwRowsR (rnd fl) A' B cb' m r (fin b) rows i k cost' prev') := by
  have hr := h.toRounding
  have hX : 0 ≤ X := by linarith [h.one_le]
  induction rows with
  | zero => intro i k cost cost' prev prev' _ hp; exact rd_sim hp _
  | succ rows ih =>
    intro i k cost cost' prev prev' hc hp
    unfold dtwRowsR
    refine (SimR.foldlM (R := RowR fl X) (fun s s' j => dtwCellR_sim h hb hA hB hp r i s s' j) _
      (a := ⟨r - i, cost, big⟩) (b := ⟨r - i, cost', big⟩) ⟨rfl, hc, r0_big h hb⟩).bind ?_
    rintro ⟨k, cost, mc⟩ ⟨k', cost', mc'⟩ ⟨rfl, h1, h2⟩
    dsimp only at h1 h2 ⊢
    refine SimR.ite Iff.rfl (fun _ _ => ?_) fun _ _ => ih _ _ hp h1
    refine (rd_sim hcb _).bind fun x x' hx => ?_
    have L := r0_add hr hX h2 hx
    exact SimR.ite (L.1.le_left hX hbX) (fun _ _ => L) fun _ _ => ih _ _ hp h1

theorem dtwR_sim (hb : fl (10 ^ 20) = 10 ^ 20) {A A' B cb cb' : Arr K} (hA : ArrR (RS fl X) A A') (hB : Cells (UpTo c) B) (hcb : ArrR (R0 fl X) cb cb') {b : K} (hbX : |b| ≤ X)
    (m r : ℕ) : SimR (R0 fl X) (dtwR (rndMax fl X) A B cb m r (fin b)) (dtwR (rnd fl) A' B cb' m r (fin b)) :=
  dtwRowsR_sim h hb hA hB hcb hbX m r m 0 _ (arrR_replicate (r0_big h hb) _) (arrR_replicate (r0_big h hb) _)

end

end

end Genex.Ucr
