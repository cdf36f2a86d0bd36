import Verif.Lemmas.Similarity
import Verif.Lemmas.RoundedError

/-! # Cosine and Sorensen with rounding -/

set_option linter.unusedSectionVars false

namespace Genex

open Dbl Spec

variable {K : Type} [Field K] [LinearOrder K] [IsStrictOrderedRing K] {rd : K → K} {u θ : K}

/-- The points that meet along a path. -/
def meet (a b : List K) (p : List (ℕ × ℕ)) : List (K × K) := p.map fun c => (a.getD c.1 0, b.getD c.2 0)

/-- A rounded sum. -/
def accL (rd : K → K) (δr : K → K → K) (s : K) (l : List (K × K)) : K := l.foldl (fun s c => rd (s + δr c.1 c.2)) s

theorem accL_fixed (hrd : Rounding rd) (δr : K → K → K) (l : List (K × K)) : rd (accL rd δr 0 l) = accL rd δr 0 l := by
  induction l using List.reverseRecOn with
  | nil => simp [accL, hrd.zero]
  | append_singleton l c ih => simp only [accL, List.foldl_append, List.foldl_cons, List.foldl_nil]; exact hrd.idem _

theorem accL_snoc (δr : K → K → K) (l : List (K × K)) (c : K × K) : accL rd δr 0 (l ++ [c]) = rd (accL rd δr 0 l + δr c.1 c.2) := by
  simp [accL]

theorem accL_nonneg (hrd : Rounding rd) {δr : K → K → K} (h : ∀ x y, 0 ≤ δr x y) (l : List (K × K)) : 0 ≤ accL rd δr 0 l := by
  induction l using List.reverseRecOn with
  | nil => simp [accL]
  | append_singleton l c ih => rw [accL_snoc]; exact hrd.nonneg (add_nonneg ih (h _ _))

theorem accL_mono (hrd : Rounding rd) {δr δs : K → K → K} (l : List (K × K)) (h : ∀ c ∈ l, δr c.1 c.2 ≤ δs c.1 c.2) :
    accL rd δr 0 l ≤ accL rd δs 0 l := by
  induction l using List.reverseRecOn with
  | nil => simp [accL]
  | append_singleton l c ih =>
    rw [accL_snoc, accL_snoc]
    exact hrd.mono _ _ (add_le_add (ih fun d hd => h d (by simp [hd])) (h c (by simp)))

/-- A rounded sum of terms that are not negative. -/
theorem accL_error (hp : FloatOps rd u θ) (hu1 : u < 1) {δ δr : K → K → K} (hδ : ∀ x y, 0 ≤ δ x y) (hr : ∀ x y, rd (δr x y) = δr x y)
    (l : List (K × K)) (h1 : ∀ c ∈ l, (1 - u) * δ c.1 c.2 ≤ δr c.1 c.2) (h2 : ∀ c ∈ l, δr c.1 c.2 ≤ (1 + u) * δ c.1 c.2) :
    (1 - u) ^ (l.length + 1) * (l.map fun c => δ c.1 c.2).sum ≤ accL rd δr 0 l ∧
      accL rd δr 0 l ≤ (1 + u) ^ (l.length + 1) * (l.map fun c => δ c.1 c.2).sum := by
  have hu := hp.u_nonneg
  have hm : 0 ≤ 1 - u := by linarith
  induction l using List.reverseRecOn with
  | nil => simp [accL]
  | append_singleton l c ih =>
    obtain ⟨i1, i2⟩ := ih (fun d hd => h1 d (by simp [hd])) (fun d hd => h2 d (by simp [hd]))
    have k1 := h1 c (by simp)
    have k2 := h2 c (by simp)
    have hd := hδ c.1 c.2
    have hs : 0 ≤ (l.map fun c => δ c.1 c.2).sum := by
      apply List.sum_nonneg
      intro x hx
      simp only [List.mem_map] at hx
      obtain ⟨c, -, rfl⟩ := hx
      exact hδ _ _
    have hf := accL_fixed hp.toRounding δr l
    have a0 : 0 ≤ accL rd δr 0 l := le_trans (mul_nonneg (pow_nonneg hm _) hs) i1
    have d0 : 0 ≤ δr c.1 c.2 := le_trans (mul_nonneg hm hd) k1
    have hz := abs_le.1 (hp.add _ _ hf (hr c.1 c.2))
    rw [abs_of_nonneg (add_nonneg a0 d0)] at hz
    rw [accL_snoc, List.map_append, List.map_singleton, List.sum_append, List.sum_singleton, List.length_append, List.length_singleton]
    have p1 : (1 - u) ^ (l.length + 1) ≤ 1 - u := by
      rw [pow_succ]
      exact mul_le_of_le_one_left hm (pow_le_one₀ hm (by linarith))
    have p2 : 1 + u ≤ (1 + u) ^ (l.length + 1) := by
      rw [pow_succ]
      exact le_mul_of_one_le_left (by linarith) (one_le_pow₀ (by linarith))
    constructor
    · rw [pow_succ]
      have q : (1 - u) ^ (l.length + 1) * δ c.1 c.2 ≤ δr c.1 c.2 := le_trans (mul_le_mul_of_nonneg_right p1 hd) k1
      calc (1 - u) ^ (l.length + 1) * (1 - u) * ((l.map fun c => δ c.1 c.2).sum + δ c.1 c.2)
          = (1 - u) * ((1 - u) ^ (l.length + 1) * (l.map fun c => δ c.1 c.2).sum + (1 - u) ^ (l.length + 1) * δ c.1 c.2) := by ring
        _ ≤ (1 - u) * (accL rd δr 0 l + δr c.1 c.2) := mul_le_mul_of_nonneg_left (add_le_add i1 q) hm
        _ ≤ _ := by linarith [hz.1]
    · rw [pow_succ]
      have q : δr c.1 c.2 ≤ (1 + u) ^ (l.length + 1) * δ c.1 c.2 := le_trans k2 (mul_le_mul_of_nonneg_right p2 hd)
      calc rd (accL rd δr 0 l + δr c.1 c.2) ≤ (1 + u) * (accL rd δr 0 l + δr c.1 c.2) := by linarith [hz.2]
        _ ≤ (1 + u) * ((1 + u) ^ (l.length + 1) * (l.map fun c => δ c.1 c.2).sum + (1 + u) ^ (l.length + 1) * δ c.1 c.2) :=
          mul_le_mul_of_nonneg_left (add_le_add i2 q) (by linarith)
        _ = _ := by ring

/-! ## Sorensen -/

/-- The numerator with rounding. -/
def numR (rd : K → K) (l : List (K × K)) : K := accL rd (fun x y => |rd (x - y)|) 0 l

/-- The denominator with rounding. -/
def denR (rd : K → K) (l : List (K × K)) : K := accL rd (fun x y => |rd (x + y)|) 0 l

theorem numR_le_denR (hrd : Rounding rd) {l : List (K × K)} (h : ∀ c ∈ l, 0 ≤ c.1 ∧ 0 ≤ c.2) : numR rd l ≤ denR rd l := by
  refine accL_mono hrd l fun c hc => ?_
  obtain ⟨h1, h2⟩ := h c hc
  rw [hrd.abs, hrd.abs]
  refine hrd.mono _ _ ?_
  rw [abs_of_nonneg (add_nonneg h1 h2)]
  exact abs_le.2 ⟨by linarith, by linarith⟩

theorem numR_nonneg (hrd : Rounding rd) (l : List (K × K)) : 0 ≤ numR rd l := accL_nonneg hrd (fun _ _ => abs_nonneg _) l

theorem numR_swap (hrd : Rounding rd) (l : List (K × K)) : numR rd (l.map Prod.swap) = numR rd l := by
  unfold numR accL
  rw [List.foldl_map]
  congr 1
  funext s c
  simp only [Prod.fst_swap, Prod.snd_swap]
  rw [hrd.abs, hrd.abs, abs_sub_comm]

theorem denR_swap (l : List (K × K)) : denR rd (l.map Prod.swap) = denR rd l := by
  unfold denR accL
  rw [List.foldl_map]
  congr 1
  funext s c
  simp only [Prod.fst_swap, Prod.snd_swap]
  rw [add_comm c.2]

theorem numR_same (hrd : Rounding rd) {l : List (K × K)} (h : ∀ c ∈ l, c.1 = c.2) : numR rd l = 0 := by
  unfold numR
  induction l using List.reverseRecOn with
  | nil => simp [accL]
  | append_singleton l c ih =>
    rw [accL_snoc, ih fun d hd => h d (by simp [hd]), h c (by simp), sub_self, hrd.zero, abs_zero, add_zero, hrd.zero]

/-- The quotient. -/
theorem quotR_error (hp : FloatOps rd u θ) (l : List (K × K)) (hF : ∀ c ∈ l, rd c.1 = c.1 ∧ rd c.2 = c.2)
    (h0 : 0 < (l.map fun c => |c.1 + c.2|).sum) (hw : 4 * (((l.length + 1 : ℕ) : K) * u) ≤ 1) :
    0 < denR rd l ∧ |rd (numR rd l / denR rd l) - (l.map fun c => |c.1 - c.2|).sum / (l.map fun c => |c.1 + c.2|).sum| ≤
      6 * (((l.length + 1 : ℕ) : K) * u) * ((l.map fun c => |c.1 - c.2|).sum / (l.map fun c => |c.1 + c.2|).sum) + θ ^ 2 := by
  have hrd := hp.toRounding
  have hu := hp.u_nonneg
  have hn1 : (1 : K) ≤ ((l.length + 1 : ℕ) : K) := by exact_mod_cast (by omega : 1 ≤ l.length + 1)
  have hnu : u ≤ ((l.length + 1 : ℕ) : K) * u := le_mul_of_one_le_left hu hn1
  have hu1 : u < 1 := by linarith
  have e1 : ∀ c ∈ l, (1 - u) * |c.1 - c.2| ≤ |rd (c.1 - c.2)| ∧ |rd (c.1 - c.2)| ≤ (1 + u) * |c.1 - c.2| := by
    intro c hc
    have h := hp.add c.1 (-c.2) (hF c hc).1 (by rw [hrd.neg, (hF c hc).2])
    rw [← sub_eq_add_neg] at h
    have h1 := abs_sub_abs_le_abs_sub (rd (c.1 - c.2)) (c.1 - c.2)
    have h2 := abs_sub_abs_le_abs_sub (c.1 - c.2) (rd (c.1 - c.2))
    rw [abs_sub_comm (c.1 - c.2) (rd _)] at h2
    constructor <;> linarith
  have e2 : ∀ c ∈ l, (1 - u) * |c.1 + c.2| ≤ |rd (c.1 + c.2)| ∧ |rd (c.1 + c.2)| ≤ (1 + u) * |c.1 + c.2| := by
    intro c hc
    have h := hp.add c.1 c.2 (hF c hc).1 (hF c hc).2
    have h1 := abs_sub_abs_le_abs_sub (rd (c.1 + c.2)) (c.1 + c.2)
    have h2 := abs_sub_abs_le_abs_sub (c.1 + c.2) (rd (c.1 + c.2))
    rw [abs_sub_comm (c.1 + c.2) (rd _)] at h2
    constructor <;> linarith
  obtain ⟨s1, s2⟩ := accL_error hp hu1 (δ := fun x y => |x - y|) (δr := fun x y => |rd (x - y)|) (fun _ _ => abs_nonneg _)
    (fun x y => by rw [hrd.abs, hrd.idem]) l (fun c hc => (e1 c hc).1) (fun c hc => (e1 c hc).2)
  obtain ⟨t1, t2⟩ := accL_error hp hu1 (δ := fun x y => |x + y|) (δr := fun x y => |rd (x + y)|) (fun _ _ => abs_nonneg _)
    (fun x y => by rw [hrd.abs, hrd.idem]) l (fun c hc => (e2 c hc).1) (fun c hc => (e2 c hc).2)
  have hs0 : 0 ≤ (l.map fun c => |c.1 - c.2|).sum := by
    apply List.sum_nonneg
    intro x hx
    simp only [List.mem_map] at hx
    obtain ⟨c, -, rfl⟩ := hx
    exact abs_nonneg _
  change _ ≤ numR rd l at s1
  change numR rd l ≤ _ at s2
  change _ ≤ denR rd l at t1
  change denR rd l ≤ _ at t2
  have n0 := numR_nonneg hrd l
  generalize numR rd l = S' at *
  generalize denR rd l = T' at *
  generalize (l.map fun c => |c.1 - c.2|).sum = S at *
  generalize (l.map fun c => |c.1 + c.2|).sum = T at *
  have hρ := rho_pow_le hu (l.length + 1) (by exact_mod_cast hw) (by omega)
  have hm : 0 < (1 - u) ^ (l.length + 1) := pow_pos (by linarith) _
  have hq : 0 < (1 + u) ^ (l.length + 1) := pow_pos (by linarith) _
  rw [div_pow, div_le_iff₀ hm] at hρ
  push_cast at hρ hw hnu hn1 ⊢
  generalize (1 - u) ^ (l.length + 1) = α at *
  generalize (1 + u) ^ (l.length + 1) = β at *
  generalize ((l.length : K) + 1) * u = w at *
  have hT' : 0 < T' := lt_of_lt_of_le (mul_pos hm h0) t1
  refine ⟨hT', ?_⟩
  have hD : 0 ≤ S / T := div_nonneg hs0 (le_of_lt h0)
  have hz : 0 ≤ S' / T' := div_nonneg n0 (le_of_lt hT')
  have up : S' / T' ≤ (1 + 4 * w) * (S / T) := by
    rw [div_le_iff₀ hT']
    have : (1 + 4 * w) * (S / T) * T' ≥ (1 + 4 * w) * (S / T) * (α * T) :=
      mul_le_mul_of_nonneg_left t1 (mul_nonneg (by linarith) hD)
    have e : (1 + 4 * w) * (S / T) * (α * T) = (1 + 4 * w) * α * S := by field_simp
    have := mul_le_mul_of_nonneg_right hρ hs0
    linarith
  have lo : S / T ≤ (1 + 4 * w) * (S' / T') := by
    have h1 : S / T ≤ (β / α) * (S' / T') := by
      rw [div_mul_div_comm, div_le_div_iff₀ h0 (mul_pos hm hT')]
      calc S * (α * T') = (α * S) * T' := by ring
        _ ≤ S' * (β * T) := mul_le_mul s1 t2 (le_of_lt hT') n0
        _ = β * S' * T := by ring
    have h2 : β / α ≤ 1 + 4 * w := by rw [div_le_iff₀ hm]; exact hρ
    exact le_trans h1 (mul_le_mul_of_nonneg_right h2 hz)
  have er := abs_le.1 (hp.err (S' / T'))
  rw [abs_of_nonneg hz] at er
  have hw0 : 0 ≤ w := le_trans hu hnu
  generalize S / T = D at *
  generalize S' / T' = z at *
  have l1 : D - z ≤ 4 * w * D := by
    have : (1 - 4 * w) * D ≤ (1 - 4 * w) * ((1 + 4 * w) * z) := mul_le_mul_of_nonneg_left lo (by linarith)
    have : (1 - 4 * w) * ((1 + 4 * w) * z) ≤ z := by nlinarith [mul_nonneg (mul_nonneg hw0 hw0) hz]
    linarith
  have l2 : u * z ≤ 2 * w * D := by
    have a1 : z ≤ 2 * D := by nlinarith
    have := mul_le_mul hnu a1 hz hw0
    linarith
  rw [abs_le]
  constructor <;> linarith [er.1, er.2]

theorem foldl_sorensenR (l : List (K × K)) (s t : K) :
    l.foldl (fun (st : Dbl K × Dbl K) (c : K × K) => (rnd rd (st.1 + Dbl.abs (rnd rd (fin c.1 - fin c.2))),
      rnd rd (st.2 + Dbl.abs (rnd rd (fin c.1 + fin c.2))))) (fin s, fin t) =
      (fin (accL rd (fun x y => |rd (x - y)|) s l), fin (accL rd (fun x y => |rd (x + y)|) t l)) := by
  induction l generalizing s t with
  | nil => rfl
  | cons c l ih =>
    simp only [List.foldl_cons, fin_sub_fin, fin_add_fin, rnd, abs_fin, accL] at ih ⊢
    exact ih _ _

theorem pwFold_sorensenR (s t : K) (a b : List K) :
    pwFold (sorensenR rd) (fin s, fin t) (a.map fin) (b.map fin) =
      (fin (accL rd (fun x y => |rd (x - y)|) s (a.zip b)), fin (accL rd (fun x y => |rd (x + y)|) t (a.zip b))) := by
  induction a generalizing s t b with
  | nil => simp [pwFold]; rfl
  | cons x xs ih =>
    cases b with
    | nil => simp [pwFold]; rfl
    | cons y ys =>
      simp only [List.map_cons, pwFold, List.zip_cons_cons]
      have : (sorensenR rd).reduce (fin s, fin t) (fin x) (fin y) = (fin (rd (s + |rd (x - y)|)), fin (rd (t + |rd (x + y)|))) := by
        simp [sorensenR, abs_fin, rnd]
      rw [this, ih]
      rfl

theorem pairwise_sorensenR (a b : List K) (hl : a.length = b.length) :
    pairwiseDistance (sorensenR rd) (a.map fin) (b.map fin) .inf = .ok (rnd rd (fin (numR rd (a.zip b)) / fin (denR rd (a.zip b)))) := by
  rw [pairwise_unbounded _ _ _ hl]
  · have h1 : (sorensenR rd).init = (fin 0, fin 0) := rfl
    rw [h1, pwFold_sorensenR]
    rfl
  · intro t; exact decide_eq_false (inf_lt _).1

theorem pathAcc_sorensenR (a b : List K) (p : List (ℕ × ℕ)) :
    pathAcc (sorensenR rd) a b p = (fin (numR rd (meet a b p)), fin (denR rd (meet a b p))) := by
  have h := foldl_sorensenR (rd := rd) (meet a b p) 0 0
  unfold meet at h ⊢
  rw [List.foldl_map] at h
  exact h

/-- `Sorensen` stays finite on positive numbers. -/
def safeSorensenR (hp : FloatOps rd u θ) (hu1 : u < 1) {m n : ℕ} : Safe (sorensenR rd) m n where
  dom := fun x y => (0 < x ∧ rd x = x) ∧ (0 < y ∧ rd y = y)
  ok := fun s => ∃ x y : K, 0 < y ∧ rd y = y ∧ s = (fin x, fin y)
  val := fun s => rd (Dbl.toFin s.1 / Dbl.toFin s.2)
  ok_first := by
    rintro x y ⟨⟨hx, ex⟩, hy, ey⟩
    refine ⟨rd (0 + |rd (x - y)|), rd (0 + |rd (x + y)|), ?_, hp.idem _, by simp [sorensenR, abs_fin, zero_def, rnd]⟩
    have h := abs_le.1 (hp.add x y ex ey)
    have h1 : 0 < x + y := add_pos hx hy
    rw [abs_of_pos h1] at h
    have h2 : 0 < rd (x + y) := by nlinarith [h.1, mul_pos (sub_pos.2 hu1) h1]
    rw [abs_of_pos h2, zero_add, hp.idem]
    exact h2
  ok_step := by
    rintro s x y ⟨⟨hx, ex⟩, hy, ey⟩ ⟨p, q, hq, eq, rfl⟩
    refine ⟨rd (p + |rd (x - y)|), rd (q + |rd (x + y)|), ?_, hp.idem _, by simp [sorensenR, abs_fin, rnd]⟩
    exact lt_of_lt_of_le hq (hp.toRounding.add_le eq (abs_nonneg _))
  norm_val := by
    rintro s ⟨p, q, hq, -, rfl⟩
    simp only [sorensenR, fin_div_fin (ne_of_gt hq), rnd, Dbl.toFin_fin]

end Genex
