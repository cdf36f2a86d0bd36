import Verif.Lemmas.DtwMore
import Verif.Lemmas.Rounded
import Verif.Lemmas.MetricLaws
import Verif.Spec.Similarity

/-! # Cosine and Sorensen -/

set_option linter.unusedSectionVars false

namespace Genex

open Dbl Spec

variable {K : Type} [Field K] [LinearOrder K] [IsStrictOrderedRing K]

theorem pwFold_sorensen (s t : K) (a b : List K) :
    pwFold (sorensen K) (fin s, fin t) (a.map fin) (b.map fin) =
      (fin (s + (List.zipWith (fun x y => |x - y|) a b).sum), fin (t + (List.zipWith (fun x y => |x + y|) a b).sum)) := by
  induction a generalizing s t b with
  | nil => simp [pwFold]; rfl
  | cons x xs ih =>
    cases b with
    | nil => simp [pwFold]; rfl
    | cons y ys =>
      simp only [List.map_cons, pwFold, List.zipWith_cons_cons, List.sum_cons]
      have : (sorensen K).reduce (fin s, fin t) (fin x) (fin y) = (fin (s + |x - y|), fin (t + |x + y|)) := by
        simp [sorensen, abs_fin]
      rw [this, ih, add_assoc, add_assoc]

theorem pwFold_cosine [HasSqrt K] (s t u : K) (a b : List K) (hl : a.length = b.length) :
    pwFold (cosine K) (fin s, fin t, fin u) (a.map fin) (b.map fin) = (fin (s + dot a a), fin (t + dot b b), fin (u + dot a b)) := by
  induction a generalizing s t u b with
  | nil =>
    cases b with
    | nil => simp [pwFold, dot]; rfl
    | cons y ys => simp at hl
  | cons x xs ih =>
    cases b with
    | nil => simp at hl
    | cons y ys =>
      simp only [List.map_cons, pwFold, dot, List.zipWith_cons_cons, List.sum_cons]
      have : (cosine K).reduce (fin s, fin t, fin u) (fin x) (fin y) = (fin (s + x * x), fin (t + y * y), fin (u + x * y)) := by
        simp [cosine]
      rw [this, ih _ _ _ _ (by simpa using hl), add_assoc, add_assoc, add_assoc]
      rfl

theorem pairwise_sorensen (a b : List K) (hl : a.length = b.length) :
    pairwiseDistance (sorensen K) (a.map fin) (b.map fin) .inf =
      .ok (fin (List.zipWith (fun x y => |x - y|) a b).sum / fin (List.zipWith (fun x y => |x + y|) a b).sum) := by
  rw [pairwise_unbounded _ _ _ hl]
  · have h1 : (sorensen K).init = (fin 0, fin 0) := rfl
    rw [h1, pwFold_sorensen, zero_add, zero_add]
    rfl
  · intro t; exact decide_eq_false (inf_lt _).1

theorem pairwise_cosine [HasSqrt K] (a b : List K) (hl : a.length = b.length) :
    pairwiseDistance (cosine K) (a.map fin) (b.map fin) .inf = .ok (fin (dot a b) / Dbl.sqrt (fin (dot a a) * fin (dot b b))) := by
  rw [pairwise_unbounded _ _ _ hl]
  · have h1 : (cosine K).init = (fin 0, fin 0, fin 0) := rfl
    rw [h1, pwFold_cosine _ _ _ _ _ hl, zero_add, zero_add, zero_add]
    rfl
  · intro t; exact decide_eq_false (inf_lt _).1

theorem dot_self_nonneg (a : List K) : 0 ≤ dot a a := by
  unfold dot
  induction a with
  | nil => simp
  | cons x xs ih => simp only [List.zipWith_cons_cons, List.sum_cons]; have := mul_self_nonneg x; linarith

theorem dot_self_pos {a : List K} (h : ∃ x ∈ a, x ≠ 0) : 0 < dot a a := by
  obtain ⟨x, hx, h0⟩ := h
  induction a with
  | nil => simp at hx
  | cons y ys ih =>
    have h1 := dot_self_nonneg ys
    have h2 := mul_self_nonneg y
    simp only [dot, List.zipWith_cons_cons, List.sum_cons] at h1 ⊢
    rcases List.mem_cons.1 hx with rfl | h
    · have := mul_self_pos.2 h0; linarith
    · have := ih h; unfold dot at this; linarith

theorem dot_comm (a b : List K) : dot a b = dot b a := by
  unfold dot
  rw [List.zipWith_comm]
  congr 2
  funext x y
  exact mul_comm _ _

theorem dot_zero {a : List K} (h : ∀ x ∈ a, x = 0) (b : List K) : dot a b = 0 := by
  unfold dot
  induction a generalizing b with
  | nil => simp
  | cons x xs ih =>
    cases b with
    | nil => simp
    | cons y ys =>
      have h0 := h x (by simp)
      simp only [List.zipWith_cons_cons, List.sum_cons]
      rw [ih (fun z hz => h z (by simp [hz])), h0, zero_mul, zero_add]

/-- Cauchy and Schwarz. -/
theorem dot_sq_le (a b : List K) (hl : a.length = b.length) : dot a b * dot a b ≤ dot a a * dot b b := by
  induction a generalizing b with
  | nil => simp [dot]
  | cons x xs ih =>
    cases b with
    | nil => simp at hl
    | cons y ys =>
      have h := ih ys (by simpa using hl)
      have s0 := dot_self_nonneg xs
      have t0 := dot_self_nonneg ys
      simp only [dot, List.zipWith_cons_cons, List.sum_cons] at h s0 t0 ⊢
      generalize (List.zipWith (fun x y => x * y) xs xs).sum = S at *
      generalize (List.zipWith (fun x y => x * y) ys ys).sum = T at *
      generalize (List.zipWith (fun x y => x * y) xs ys).sum = D at *
      have h1 : (2 * D * (x * y)) ^ 2 ≤ (S * (y * y) + T * (x * x)) ^ 2 := by
        have e1 : (2 * D * (x * y)) ^ 2 = 4 * (D * D) * ((x * x) * (y * y)) := by ring
        have e2 : 4 * (D * D) * ((x * x) * (y * y)) ≤ 4 * (S * T) * ((x * x) * (y * y)) :=
          mul_le_mul_of_nonneg_right (by linarith) (mul_nonneg (mul_self_nonneg _) (mul_self_nonneg _))
        have e3 := sq_nonneg (S * (y * y) - T * (x * x))
        nlinarith
      have h2 : 0 ≤ S * (y * y) + T * (x * x) := add_nonneg (mul_nonneg s0 (mul_self_nonneg _)) (mul_nonneg t0 (mul_self_nonneg _))
      have h3 := (abs_le_of_sq_le_sq h1 h2)
      nlinarith [(abs_le.1 h3).2]

section
variable [HasSqrt K] [LawfulSqrt K]

theorem sqrt_mul' {x y : K} (hx : 0 ≤ x) (hy : 0 ≤ y) : HasSqrt.sqrt (x * y) = HasSqrt.sqrt x * HasSqrt.sqrt y := by
  have h := LawfulSqrt.mul_self (mul_nonneg hx hy)
  have h1 := LawfulSqrt.mul_self hx
  have h2 := LawfulSqrt.mul_self hy
  refine (mul_self_inj (LawfulSqrt.sqrt_nonneg (mul_nonneg hx hy)) (mul_nonneg (LawfulSqrt.sqrt_nonneg hx) (LawfulSqrt.sqrt_nonneg hy))).1 ?_
  rw [h]
  calc x * y = (HasSqrt.sqrt x * HasSqrt.sqrt x) * (HasSqrt.sqrt y * HasSqrt.sqrt y) := by rw [h1, h2]
    _ = _ := by ring

theorem sqrt_pos' {x : K} (hx : 0 < x) : 0 < HasSqrt.sqrt x :=
  lt_of_le_of_ne (LawfulSqrt.sqrt_nonneg (le_of_lt hx)) (fun h => ne_of_gt hx ((sqrt_eq_zero_iff (le_of_lt hx)).1 h.symm))

theorem cosineOf_abs {a b : List K} (hl : a.length = b.length) (ha : 0 < dot a a) (hb : 0 < dot b b) : |cosineOf a b| ≤ 1 := by
  have h := dot_sq_le a b hl
  have pa := sqrt_pos' ha
  have pb := sqrt_pos' hb
  have p := mul_pos pa pb
  unfold cosineOf
  rw [abs_div, abs_of_pos p, div_le_one p]
  refine abs_le_of_sq_le_sq' ?_ (le_of_lt p) |> abs_le.2
  rw [sq, sq]
  refine le_trans h (le_of_eq ?_)
  have h1 := LawfulSqrt.mul_self (le_of_lt ha)
  have h2 := LawfulSqrt.mul_self (le_of_lt hb)
  calc dot a a * dot b b = (HasSqrt.sqrt (dot a a) * HasSqrt.sqrt (dot a a)) * (HasSqrt.sqrt (dot b b) * HasSqrt.sqrt (dot b b)) := by rw [h1, h2]
    _ = _ := by ring

theorem cosineOf_self {a : List K} (ha : 0 < dot a a) : cosineOf a a = 1 := by
  unfold cosineOf
  rw [LawfulSqrt.mul_self (le_of_lt ha), div_self (ne_of_gt ha)]

end

/-! ## Sorensen -/

theorem zipWith_add_sum {a b : List K} (hl : a.length = b.length) (ha : ∀ x ∈ a, 0 ≤ x) (hb : ∀ x ∈ b, 0 ≤ x) :
    (List.zipWith (fun x y => |x + y|) a b).sum = a.sum + b.sum := by
  induction a generalizing b with
  | nil => cases b with
    | nil => simp
    | cons y ys => simp at hl
  | cons x xs ih =>
    cases b with
    | nil => simp at hl
    | cons y ys =>
      simp only [List.zipWith_cons_cons, List.sum_cons]
      rw [ih (by simpa using hl) (fun z hz => ha z (by simp [hz])) (fun z hz => hb z (by simp [hz])),
        abs_of_nonneg (add_nonneg (ha x (by simp)) (hb y (by simp)))]
      ring

theorem zipWith_sub_le {a b : List K} (hl : a.length = b.length) (ha : ∀ x ∈ a, 0 ≤ x) (hb : ∀ x ∈ b, 0 ≤ x) :
    (List.zipWith (fun x y => |x - y|) a b).sum ≤ a.sum + b.sum := by
  induction a generalizing b with
  | nil => cases b with
    | nil => simp
    | cons y ys => simp at hl
  | cons x xs ih =>
    cases b with
    | nil => simp at hl
    | cons y ys =>
      simp only [List.zipWith_cons_cons, List.sum_cons]
      have h := ih (by simpa using hl) (fun z hz => ha z (by simp [hz])) (fun z hz => hb z (by simp [hz]))
      have h1 := ha x (by simp)
      have h2 := hb y (by simp)
      have : |x - y| ≤ x + y := abs_le.2 ⟨by linarith, by linarith⟩
      linarith

theorem zipWith_sub_nonneg (a b : List K) : 0 ≤ (List.zipWith (fun x y => |x - y|) a b).sum := by
  induction a generalizing b with
  | nil => simp
  | cons x xs ih =>
    cases b with
    | nil => simp
    | cons y ys => simp only [List.zipWith_cons_cons, List.sum_cons]; exact add_nonneg (abs_nonneg _) (ih ys)

theorem zipWith_sub_zero {a b : List K} (hl : a.length = b.length) : (List.zipWith (fun x y => |x - y|) a b).sum = 0 ↔ a = b := by
  induction a generalizing b with
  | nil => cases b with
    | nil => simp
    | cons y ys => simp at hl
  | cons x xs ih =>
    cases b with
    | nil => simp at hl
    | cons y ys =>
      simp only [List.zipWith_cons_cons, List.sum_cons, List.cons.injEq]
      rw [add_eq_zero_iff_of_nonneg (abs_nonneg _) (zipWith_sub_nonneg xs ys), ih (by simpa using hl), abs_eq_zero, sub_eq_zero]

theorem zipWith_sub_comm (a b : List K) : (List.zipWith (fun x y => |x - y|) a b).sum = (List.zipWith (fun x y => |x - y|) b a).sum := by
  rw [List.zipWith_comm]
  congr 2
  funext x y
  exact abs_sub_comm _ _

theorem getD_nonneg' {l : List K} (h : ∀ x ∈ l, 0 < x) (i : ℕ) : 0 ≤ l.getD i 0 := by
  rw [List.getD_eq_getElem?_getD]
  rcases e : l[i]? with _ | x
  · exact le_refl _
  · exact le_of_lt (h _ (List.mem_of_getElem? e))

theorem foldl_sorensen {a b : List K} (ha : ∀ x ∈ a, 0 < x) (hb : ∀ x ∈ b, 0 < x) (p : List (ℕ × ℕ)) (s t : K) :
    p.foldl (fun (st : Dbl K × Dbl K) (c : ℕ × ℕ) => (st.1 + Dbl.abs (fin (a.getD c.1 0) - fin (b.getD c.2 0)), st.2 + Dbl.abs (fin (a.getD c.1 0) + fin (b.getD c.2 0)))) (fin s, fin t) =
      (fin (s + (p.map fun c => |a.getD c.1 0 - b.getD c.2 0|).sum), fin (t + (p.map fun c => a.getD c.1 0 + b.getD c.2 0).sum)) := by
  induction p generalizing s t with
  | nil => simp
  | cons c p ih =>
    have := abs_of_nonneg (add_nonneg (getD_nonneg' ha c.1) (getD_nonneg' hb c.2))
    simp only [List.foldl_cons, fin_sub_fin, fin_add_fin, abs_fin, this] at ih ⊢
    rw [ih, List.map_cons, List.map_cons, List.sum_cons, List.sum_cons, add_assoc, add_assoc]

theorem pathAcc_sorensen {a b : List K} (ha : ∀ x ∈ a, 0 < x) (hb : ∀ x ∈ b, 0 < x) (p : List (ℕ × ℕ)) :
    pathAcc (sorensen K) a b p =
      (fin (p.map fun c => |a.getD c.1 0 - b.getD c.2 0|).sum, fin (p.map fun c => a.getD c.1 0 + b.getD c.2 0).sum) :=
  (foldl_sorensen ha hb p 0 0).trans (by rw [zero_add, zero_add])

theorem foldl_cosine [HasSqrt K] (a b : List K) (p : List (ℕ × ℕ)) (s t u : K) :
    p.foldl (fun (st : Dbl K × Dbl K × Dbl K) (c : ℕ × ℕ) => (st.1 + fin (a.getD c.1 0) * fin (a.getD c.1 0), st.2.1 + fin (b.getD c.2 0) * fin (b.getD c.2 0),
      st.2.2 + fin (a.getD c.1 0) * fin (b.getD c.2 0))) (fin s, fin t, fin u) =
      (fin (s + dot (p.map fun c => a.getD c.1 0) (p.map fun c => a.getD c.1 0)),
        fin (t + dot (p.map fun c => b.getD c.2 0) (p.map fun c => b.getD c.2 0)),
        fin (u + dot (p.map fun c => a.getD c.1 0) (p.map fun c => b.getD c.2 0))) := by
  induction p generalizing s t u with
  | nil => simp [dot]
  | cons c p ih =>
    simp only [List.foldl_cons, fin_mul_fin, fin_add_fin] at ih ⊢
    rw [ih]
    simp only [dot, List.map_cons, List.zipWith_cons_cons, List.sum_cons, add_assoc]

theorem pathAcc_cosine [HasSqrt K] (a b : List K) (p : List (ℕ × ℕ)) :
    pathAcc (cosine K) a b p =
      (fin (dot (p.map fun c => a.getD c.1 0) (p.map fun c => a.getD c.1 0)), fin (dot (p.map fun c => b.getD c.2 0) (p.map fun c => b.getD c.2 0)),
        fin (dot (p.map fun c => a.getD c.1 0) (p.map fun c => b.getD c.2 0))) :=
  (foldl_cosine a b p 0 0 0).trans (by rw [zero_add, zero_add, zero_add])

/-- The cells of the diagonal of a series with itself. -/
theorem sorensen_diag {a : List K} (ha : ∀ x ∈ a, 0 < x) {r : ℕ} {mt : Mat (sorensen K)}
    (h : Filled a a r safeSorensen a.length 0 mt) (i : ℕ) (hi : i < a.length) :
    ∃ s, mt.cost i i = some s ∧ s.1 = fin 0 := by
  have hal : ∀ i, Allowed a.length a.length r i i := fun i => Or.inl ⟨by omega, by omega⟩
  have nonneg : ∀ i j s, i < a.length → j < a.length → Allowed a.length a.length r i j → mt.cost i j = some s →
      ∃ x y : K, 0 ≤ x ∧ 0 < y ∧ s = (fin x, fin y) := by
    intro i j s hi hj hl e
    obtain ⟨p, h1, -, h3, -⟩ := attain h i j hi hj hl
    rw [e, Option.some.injEq] at h3
    obtain ⟨s', k1, ⟨x, y, hy, rfl⟩, -⟩ := h.cell i j hi hj hl (Or.inl hi)
    have k2 := Option.some.inj (e.symm.trans k1)
    subst k2
    refine ⟨x, y, ?_, hy, rfl⟩
    have h3' := h3.trans (pathAcc_sorensen ha ha p)
    have h4 := fin.inj (congrArg Prod.fst h3')
    rw [h4]
    apply List.sum_nonneg
    intro z hz
    simp only [List.mem_map] at hz
    obtain ⟨c, -, rfl⟩ := hz
    exact abs_nonneg _
  induction i with
  | zero =>
    obtain ⟨s, k1, k2, k3, k4⟩ := h.cell 0 0 hi hi (hal 0) (by omega)
    rcases k4 with ⟨-, -, rfl⟩ | ⟨pi, pj, sp, g1, -⟩
    · exact ⟨_, k1, by simp [sorensen, abs_fin, zero_def]⟩
    · rw [step_iff] at g1; omega
  | succ i ih =>
    obtain ⟨sd, e1, e2⟩ := ih (by omega)
    obtain ⟨s, k1, k2, k3, k4⟩ := h.cell (i + 1) (i + 1) hi hi (hal _) (Or.inl hi)
    rcases k4 with ⟨g1, -⟩ | ⟨pi, pj, sp, g1, g2, g3, g4, rfl, g5⟩
    · omega
    · have g1' := step_iff.1 g1
      obtain ⟨sq, q1, q2⟩ := g5 i i (step_iff.2 (by omega)) (hal i)
      rw [e1, Option.some.injEq] at q1
      subst q1
      obtain ⟨x, y, hx, hy, rfl⟩ := nonneg pi pj sp (by omega) (by omega) g2 g3
      have hx0 : x = 0 := by
        have e : (safeSorensen (K := K) (m := a.length) (n := a.length)).val sd = 0 := by
          change Dbl.toFin sd.1 / _ = 0
          rw [e2]; simp
        rw [e] at q2
        have q2' : x / y ≤ 0 := q2
        have : x ≤ 0 := by
          rw [div_le_iff₀ hy, zero_mul] at q2'
          exact q2'
        linarith
      exact ⟨_, k1, by simp [sorensen, abs_fin, hx0]⟩

end Genex
