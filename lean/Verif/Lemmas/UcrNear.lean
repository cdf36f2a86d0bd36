import Verif.Lemmas.UcrTrue
import Verif.Lemmas.UcrRoundedScan

/-! The costs of alignments of near series. -/

set_option linter.unusedSectionVars false

namespace Genex.Ucr

open Dbl Spec

variable {K : Type} [Field K] [LinearOrder K] [IsStrictOrderedRing K] {fl : K → K} {u θ : K}

theorem sum_abs_sq {α : Type} (l : List α) (g : α → K) : (l.map fun x => |g x|).sum ^ 2 ≤ l.length * (l.map fun x => g x ^ 2).sum := by
  induction l with
  | nil => simp
  | cons x l ih =>
    simp only [List.map_cons, List.sum_cons, List.length_cons]
    push_cast
    have hq : 0 ≤ (l.map fun x => g x ^ 2).sum := List.sum_nonneg (by
      intro y hy
      obtain ⟨x, -, rfl⟩ := List.mem_map.1 hy
      exact sq_nonneg _)
    generalize (l.map fun x => |g x|).sum = s at *
    generalize (l.map fun x => g x ^ 2).sum = q at *
    have h1 : |g x| ^ 2 = g x ^ 2 := sq_abs _
    have hL : (0 : K) ≤ l.length := Nat.cast_nonneg _
    generalize (l.length : K) = L at *
    generalize hy : |g x| = y at *
    rw [← h1]
    -- `2 y s ≤ L y² + q`
    have h2 : 2 * y * s ≤ L * y ^ 2 + q := by
      rcases hL.lt_or_eq with h3 | h3
      · have h4 : 0 ≤ (L * y - s) ^ 2 := sq_nonneg _
        have h5 : L * (2 * y * s) ≤ L * (L * y ^ 2 + q) := by nlinarith
        exact le_of_mul_le_mul_left h5 h3
      · rw [← h3] at ih ⊢
        have h4 : s = 0 := by
          have : s ^ 2 ≤ 0 := by linarith
          exact pow_eq_zero_iff (two_ne_zero) |>.1 (_root_.le_antisymm this (sq_nonneg _))
        rw [h4]
        linarith
    nlinarith

/-- The triangle inequality for sums of squares. -/
theorem sum_sq_near {α : Type} (l : List α) {f g : α → K} {c C s : K} (hc : ∀ x, |f x - g x| ≤ c) (hC : 0 ≤ C) (hcC : l.length * c ^ 2 ≤ C ^ 2) (hs : 0 ≤ s)
    (hg : (l.map fun x => g x ^ 2).sum ≤ s ^ 2) : (l.map fun x => f x ^ 2).sum ≤ (s + C) ^ 2 := by
  have h1 : (l.map fun x => f x ^ 2).sum ≤ (l.map fun x => g x ^ 2).sum + 2 * (c * (l.map fun x => |g x|).sum) + l.length * c ^ 2 := by
    clear hcC hg
    induction l with
    | nil => simp
    | cons x l ih =>
      simp only [List.map_cons, List.sum_cons, List.length_cons]
      push_cast
      have h2 : |f x| ≤ |g x| + c := by
        have := abs_sub_abs_le_abs_sub (f x) (g x)
        linarith [hc x]
      have h3 : f x ^ 2 ≤ (|g x| + c) ^ 2 := by
        rw [← sq_abs (f x)]
        exact pow_le_pow_left₀ (abs_nonneg _) h2 2
      have h4 : (|g x| + c) ^ 2 = g x ^ 2 + 2 * (c * |g x|) + c ^ 2 := by
        rw [← sq_abs (g x)]; ring
      linarith
  by_cases hne : l = []
  · subst hne
    simp only [List.map_nil, List.sum_nil]
    positivity
  have hc0 : 0 ≤ c := by
    obtain ⟨x, l', rfl⟩ := List.exists_cons_of_ne_nil hne
    exact (abs_nonneg _).trans (hc x)
  have h2 : c * (l.map fun x => |g x|).sum ≤ C * s := by
    refine abs_le_of_sq_le_sq' ?_ (mul_nonneg hC hs) |>.2
    have h3 := sum_abs_sq l g
    have hL : (0 : K) ≤ l.length := Nat.cast_nonneg _
    calc _ = c ^ 2 * (l.map fun x => |g x|).sum ^ 2 := by ring
      _ ≤ c ^ 2 * (l.length * (l.map fun x => g x ^ 2).sum) := mul_le_mul_of_nonneg_left h3 (sq_nonneg _)
      _ ≤ c ^ 2 * (l.length * s ^ 2) := mul_le_mul_of_nonneg_left (mul_le_mul_of_nonneg_left hg hL) (sq_nonneg _)
      _ = (l.length * c ^ 2) * s ^ 2 := by ring
      _ ≤ C ^ 2 * s ^ 2 := mul_le_mul_of_nonneg_right hcC (sq_nonneg _)
      _ = _ := by ring
  calc _ ≤ _ := h1
    _ ≤ s ^ 2 + 2 * (C * s) + C ^ 2 := by linarith
    _ = _ := by ring

theorem sqCost_map (a b : List K) (p : List (ℕ × ℕ)) : sqCost a b p = (p.map fun c => (a.getD c.1 0 - b.getD c.2 0) ^ 2).sum := by
  simp [sqCost, diffs, Function.comp_def]

theorem cells_upper (h : FloatOps fl u θ) (hu1 : u < 1) {a b : List K} (ha : Floats fl a) (hb : Floats fl b) (p : List (ℕ × ℕ)) :
    cells (cellBy fl a b) p ≤ (1 + u) ^ 3 * sqCost a b p + p.length * θ ^ 2 := by
  rw [sqCost_map]
  induction p with
  | nil => simp [cells]
  | cons c p ih =>
    have h1 := (sqR_error h.on h.u_nonneg hu1 (ha.getD h.toRounding c.1) (hb.getD h.toRounding c.2)).2
    have h2 : cellBy fl a b c.1 c.2 ≤ (1 + u) ^ 3 * (a.getD c.1 0 - b.getD c.2 0) ^ 2 + θ ^ 2 := h1
    simp only [cells, List.map_cons, List.sum_cons, List.length_cons] at ih ⊢
    push_cast
    linarith

theorem cells_lower (h : FloatOps fl u θ) (hu1 : u < 1) {a b : List K} (ha : Floats fl a) (hb : Floats fl b) (p : List (ℕ × ℕ)) :
    (1 - u) ^ 3 * sqCost a b p ≤ cells (cellBy fl a b) p + p.length * θ ^ 2 := by
  rw [sqCost_map]
  induction p with
  | nil => simp [cells]
  | cons c p ih =>
    have h1 := (sqR_error h.on h.u_nonneg hu1 (ha.getD h.toRounding c.1) (hb.getD h.toRounding c.2)).1
    have h2 : (1 - u) ^ 3 * (a.getD c.1 0 - b.getD c.2 0) ^ 2 - θ ^ 2 ≤ cellBy fl a b c.1 c.2 := h1
    simp only [cells, List.map_cons, List.sum_cons, List.length_cons] at ih ⊢
    push_cast
    linarith

theorem sqCost_nonneg' (a b : List K) (p : List (ℕ × ℕ)) : 0 ≤ sqCost a b p := by
  rw [sqCost_map]
  exact List.sum_nonneg (by
    intro y hy
    obtain ⟨x, -, rfl⟩ := List.mem_map.1 hy
    exact sq_nonneg _)

/-- The cost of an alignment in rounded arithmetic, from above. -/
theorem sqCostBy_le (h : FloatOps fl u θ) (hu1 : u < 1) {a b : List K} (ha : Floats fl a) (hb : Floats fl b) {m : ℕ} {p : List (ℕ × ℕ)}
    (hp : p.length ≤ 2 * m) : sqCostBy fl a b p ≤ (1 + u) ^ (2 * m + 3) * (sqCost a b p + 2 * m * θ ^ 2) := by
  have hu := h.u_nonneg
  have h1 := sqCostBy_upper h a b p
  have h2 := cells_upper h hu1 ha hb p
  have h3 := pow_add_mono hu hp
  have h4 := cells_nonneg (cellBy_nonneg h.toRounding a b) p
  have h5 : (p.length : K) ≤ 2 * m := by exact_mod_cast hp
  have h6 : 0 ≤ (1 + u) ^ (2 * m) := by positivity
  have h7 : (1 : K) ≤ (1 + u) ^ 3 := one_le_pow_add hu 3
  have h8 : (p.length : K) * θ ^ 2 ≤ (1 + u) ^ 3 * (2 * m * θ ^ 2) := by
    have h9 := mul_le_mul_of_nonneg_right h5 (sq_nonneg θ)
    have h10 : 0 ≤ 2 * (m : K) * θ ^ 2 := by positivity
    have := mul_le_mul_of_nonneg_right h7 h10
    linarith
  calc _ ≤ _ := h1
    _ ≤ (1 + u) ^ (2 * m) * cells (cellBy fl a b) p := mul_le_mul_of_nonneg_right h3 h4
    _ ≤ (1 + u) ^ (2 * m) * ((1 + u) ^ 3 * sqCost a b p + (1 + u) ^ 3 * (2 * m * θ ^ 2)) := mul_le_mul_of_nonneg_left (by linarith) h6
    _ = _ := by rw [pow_add]; ring

/-- The cost of an alignment in rounded arithmetic, from below. -/
theorem sqCostBy_ge (h : FloatOps fl u θ) (hu1 : u < 1) {a b : List K} (ha : Floats fl a) (hb : Floats fl b) {m : ℕ} {p : List (ℕ × ℕ)}
    (hp : p.length ≤ 2 * m) : (1 - u) ^ (2 * m + 3) * sqCost a b p ≤ sqCostBy fl a b p + 2 * m * θ ^ 2 := by
  have hu := h.u_nonneg
  have h1 := sqCostBy_lower h hu1.le a b p
  have h2 := cells_lower h hu1 ha hb p
  have h3 := pow_sub_anti hu hu1.le hp
  have h4 := cells_nonneg (cellBy_nonneg h.toRounding a b) p
  have h5 : (p.length : K) ≤ 2 * m := by exact_mod_cast hp
  have h6 : 0 ≤ (1 - u) ^ (2 * m) := pow_nonneg (by linarith) _
  have h7 : (1 - u) ^ (2 * m) ≤ 1 := pow_le_one₀ (by linarith) (by linarith)
  have h8 : (1 - u) ^ (2 * m) * (p.length * θ ^ 2) ≤ 2 * m * θ ^ 2 := by
    have h9 := mul_le_mul_of_nonneg_right h5 (sq_nonneg θ)
    have h10 : 0 ≤ (p.length : K) * θ ^ 2 := by positivity
    have := mul_le_mul_of_nonneg_right h7 h10
    linarith
  calc _ = (1 - u) ^ (2 * m) * ((1 - u) ^ 3 * sqCost a b p) := by rw [pow_add]; ring
    _ ≤ (1 - u) ^ (2 * m) * (cells (cellBy fl a b) p + p.length * θ ^ 2) := mul_le_mul_of_nonneg_left h2 h6
    _ = (1 - u) ^ (2 * m) * cells (cellBy fl a b) p + (1 - u) ^ (2 * m) * (p.length * θ ^ 2) := by ring
    _ ≤ _ := by
      have := mul_le_mul_of_nonneg_right h3 h4
      linarith

/-! The arithmetic of the bounds. -/

section
variable {τ m s t c e p : K} (hτ : 0 ≤ τ) (hτ4 : τ ≤ 1 / 4) (hm : 1 ≤ m)
include hτ hτ4 hm

theorem near_up (hs : 0 ≤ s) (hs2 : s ≤ 2 * m) (ht : 0 ≤ t) (hc0 : 0 ≤ c) (hc : c ≤ (s + 12 * τ * m) ^ 2) (he0 : 0 ≤ e) (he : e ≤ (τ * m / 8) ^ 2)
    (hp0 : 0 ≤ p) (hp : p ^ 2 ≤ 1 + τ / 2) (h : t * t ≤ p * (c + e)) : t ≤ s + 13 * τ * m := by
  have hτm : 0 ≤ τ * m := mul_nonneg hτ (by linarith)
  have hup : p ≤ (1 + τ / 8) ^ 2 := by
    have h1 : p ^ 2 ≤ ((1 + τ / 8) ^ 2) ^ 2 := by
      refine hp.trans ?_
      have e : ((1 + τ / 8) ^ 2) ^ 2 = 1 + τ / 2 + (6 * (τ / 8) ^ 2 + 4 * (τ / 8) ^ 3 + (τ / 8) ^ 4) := by ring
      rw [e]
      have : 0 ≤ 6 * (τ / 8) ^ 2 + 4 * (τ / 8) ^ 3 + (τ / 8) ^ 4 := by positivity
      linarith
    exact (abs_le_of_sq_le_sq' h1 (by positivity)).2
  have h4 : c + e ≤ (s + 12 * τ * m + τ * m / 8) ^ 2 := by
    have h5 : 0 ≤ (s + 12 * (τ * m)) * (τ * m / 8) := by positivity
    have e : (s + 12 * τ * m + τ * m / 8) ^ 2 = (s + 12 * τ * m) ^ 2 + (τ * m / 8) ^ 2 + 2 * ((s + 12 * (τ * m)) * (τ * m / 8)) := by ring
    rw [e]
    linarith
  have h0 : 0 ≤ (1 + τ / 8) * (s + 12 * τ * m + τ * m / 8) := by
    have : 0 ≤ s + 12 * τ * m + τ * m / 8 := by linarith
    positivity
  have h6 : t ≤ (1 + τ / 8) * (s + 12 * τ * m + τ * m / 8) := by
    refine (mul_self_le_mul_self_iff ht h0).2 ?_
    have h7 := mul_le_mul hup h4 (add_nonneg hc0 he0) (by positivity)
    rw [← mul_pow] at h7
    rw [← pow_two ((1 + τ / 8) * _)]
    linarith
  have h7 : τ / 8 * s ≤ τ / 8 * (2 * m) := mul_le_mul_of_nonneg_left hs2 (by linarith)
  have h8 : τ * (τ * m) ≤ 1 / 4 * (τ * m) := mul_le_mul_of_nonneg_right hτ4 hτm
  calc t ≤ _ := h6
    _ = s + τ / 8 * s + 97 / 8 * (τ * m) + 97 / 64 * (τ * (τ * m)) := by ring
    _ ≤ _ := by linarith

theorem near_down (ht0 : 0 ≤ t) (hc0 : 0 ≤ c) (he : e ≤ (τ * m / 8) ^ 2) (hp : 1 - τ / 4 ≤ p) (h : p * c ≤ t * t + e) :
    c ≤ ((1 + τ / 6) * (t + τ * m / 8)) ^ 2 := by
  have hτm : 0 ≤ τ * m := mul_nonneg hτ (by linarith)
  have h2 : (1 - τ / 4) * c ≤ (t + τ * m / 8) ^ 2 := by
    have h3 := mul_le_mul_of_nonneg_right hp hc0
    have h4 : 0 ≤ t * (τ * m / 8) := by positivity
    have e : (t + τ * m / 8) ^ 2 = t * t + (τ * m / 8) ^ 2 + 2 * (t * (τ * m / 8)) := by ring
    rw [e]
    linarith
  have h4 : 1 ≤ (1 - τ / 4) * (1 + τ / 6) ^ 2 := by
    have h5 : τ * τ ≤ 1 / 4 * τ := mul_le_mul_of_nonneg_right hτ4 hτ
    have h6 : τ * (τ * τ) ≤ 1 / 4 * (τ * τ) := mul_le_mul_of_nonneg_right hτ4 (mul_self_nonneg τ)
    have e : (1 - τ / 4) * (1 + τ / 6) ^ 2 = 1 + τ / 12 - τ * τ / 18 - τ * (τ * τ) / 144 := by ring
    rw [e]
    linarith
  have h5 := mul_le_mul_of_nonneg_right h4 hc0
  have h6 := mul_le_mul_of_nonneg_right h2 (sq_nonneg (1 + τ / 6))
  rw [mul_pow]
  linarith

theorem near_down' (ht : t ≤ 21 / 4 * m) : (1 + τ / 6) * (t + τ * m / 8) + 12 * τ * m ≤ t + 14 * τ * m := by
  have hτm : 0 ≤ τ * m := mul_nonneg hτ (by linarith)
  have h7 : τ * t ≤ τ * (21 / 4 * m) := mul_le_mul_of_nonneg_left ht hτ
  have h8 : τ * (τ * m) ≤ 1 / 4 * (τ * m) := mul_le_mul_of_nonneg_right hτ4 hτm
  calc _ = t + τ * t / 6 + τ * m / 8 + τ * (τ * m) / 48 + 12 * (τ * m) := by ring
    _ ≤ _ := by linarith

theorem under_le {θ : K} (hθ : 0 ≤ θ) (h1 : θ ≤ τ / 12) : 2 * m * θ ^ 2 ≤ (τ * m / 8) ^ 2 := by
  have h2 : θ ^ 2 ≤ (τ / 12) ^ 2 := pow_le_pow_left₀ hθ h1 2
  have h3 : m ≤ m ^ 2 := by nlinarith
  have h4 : 2 * m * θ ^ 2 ≤ 2 * m * (τ / 12) ^ 2 := mul_le_mul_of_nonneg_left h2 (by linarith)
  have h5 : m * τ ^ 2 ≤ m ^ 2 * τ ^ 2 := mul_le_mul_of_nonneg_right h3 (sq_nonneg _)
  have h6 : 0 ≤ m ^ 2 * τ ^ 2 := by positivity
  calc _ ≤ _ := h4
    _ = m * τ ^ 2 / 72 := by ring
    _ ≤ m ^ 2 * τ ^ 2 / 64 := by linarith
    _ = _ := by ring

end

variable [HasSqrt K] [LawfulSqrt K]

/-- The least cost of the near series in rounded arithmetic. -/
theorem apart_near (h : FloatOps fl u θ) {a b a₀ b₀ : List K} {m r : ℕ} {τ : K} (hm : 1 ≤ m) (ha : Floats fl a) (hb : Floats fl b) (hla : a.length = m)
    (hlb : b.length = m) (hla₀ : a₀.length = m) (hlb₀ : b₀.length = m) (hτ : 0 ≤ τ) (hτ4 : τ ≤ 1 / 4) (hlen : (4 * m + 6) * u ≤ τ / 2)
    (hpow : (1 + u) ^ (4 * m + 6) ≤ 1 + τ / 2) (hθu : θ ≤ u) (hu12 : 12 * u ≤ τ)
    (hna : ∀ k, |a.getD k 0 - a₀.getD k 0| ≤ 4 * τ * HasSqrt.sqrt (m : K)) (hnb : ∀ k, |b.getD k 0 - b₀.getD k 0| ≤ 4 * τ * HasSqrt.sqrt (m : K))
    {D₀ D : K} (hD₀ : Apart r a₀ b₀ D₀) (hle : D₀ ≤ 4 * m) (hD : ApartBy fl r a b D) :
    HasSqrt.sqrt D ≤ HasSqrt.sqrt D₀ + 13 * τ * m ∧ HasSqrt.sqrt D₀ ≤ HasSqrt.sqrt D + 14 * τ * m ∧ HasSqrt.sqrt D ≤ 21 / 4 * m ∧ 0 ≤ D := by
  have hu := h.u_nonneg
  have hθ := h.θ_nonneg
  have hu1 : u < 1 := by linarith
  have hm1 : (1 : K) ≤ m := by exact_mod_cast hm
  have hR := LawfulSqrt.mul_self (show (0 : K) ≤ m by linarith)
  have hτm : 0 ≤ τ * m := mul_nonneg hτ (by linarith)
  have hc : (8 * τ * HasSqrt.sqrt (m : K)) ^ 2 = 64 * τ ^ 2 * m := by
    rw [mul_pow, pow_two (HasSqrt.sqrt (m : K)), hR]; ring
  have hdiff : ∀ c : ℕ × ℕ, |(a.getD c.1 0 - b.getD c.2 0) - (a₀.getD c.1 0 - b₀.getD c.2 0)| ≤ 8 * τ * HasSqrt.sqrt (m : K) := by
    intro c
    have e : (a.getD c.1 0 - b.getD c.2 0) - (a₀.getD c.1 0 - b₀.getD c.2 0) = (a.getD c.1 0 - a₀.getD c.1 0) - (b.getD c.2 0 - b₀.getD c.2 0) := by ring
    rw [e]
    have := abs_sub (a.getD c.1 0 - a₀.getD c.1 0) (b.getD c.2 0 - b₀.getD c.2 0)
    linarith [hna c.1, hnb c.2]
  have hL : ∀ p : List (ℕ × ℕ), p.length ≤ 2 * m → (p.length : K) * (8 * τ * HasSqrt.sqrt (m : K)) ^ 2 ≤ (12 * τ * m) ^ 2 := by
    intro p hp
    have h1 : (p.length : K) ≤ 2 * m := by exact_mod_cast hp
    rw [hc]
    have h2 : 0 ≤ 64 * τ ^ 2 * m := by positivity
    have h3 := mul_le_mul_of_nonneg_right h1 h2
    have h4 : 0 ≤ (τ * m) ^ 2 := sq_nonneg _
    nlinarith
  have hC : 0 ≤ 12 * τ * m := by linarith
  have hθm : 2 * m * θ ^ 2 ≤ (τ * m / 8) ^ 2 := under_le hτ hτ4 hm1 hθ (by linarith)
  have hp2' : ((1 + u) ^ (2 * m + 3)) ^ 2 ≤ 1 + τ / 2 := by
    rw [← pow_mul, show (2 * m + 3) * 2 = 4 * m + 6 by ring]
    exact hpow
  have hdown : 1 - τ / 4 ≤ (1 - u) ^ (2 * m + 3) := by
    have := pow_ge_linear hu hu1 (2 * m + 3)
    push_cast at this
    nlinarith
  obtain ⟨⟨p, hp1, hp2, hp3⟩, hp4⟩ := hD₀
  obtain ⟨⟨q, hq1, hq2, hq3⟩, hq4⟩ := hD
  rw [hla₀, hlb₀] at hp1
  rw [hla, hlb] at hq1
  have hpl := path_len hm (alignment_iff.1 hp1)
  have hql := path_len hm (alignment_iff.1 hq1)
  have hD₀0 : 0 ≤ D₀ := by rw [← hp3]; exact sqCost_nonneg' _ _ _
  have hD0 : 0 ≤ D := by rw [← hq3]; exact sqCostBy_nonneg h.toRounding _ _ _
  have s0 := LawfulSqrt.sqrt_nonneg hD₀0
  have ss := LawfulSqrt.mul_self hD₀0
  have t0 := LawfulSqrt.sqrt_nonneg hD0
  have tt := LawfulSqrt.mul_self hD0
  set s := HasSqrt.sqrt D₀ with hsdef
  set t := HasSqrt.sqrt D with htdef
  have hs2 : s ≤ 2 * m := by
    refine (mul_self_le_mul_self_iff s0 (by linarith)).2 ?_
    rw [ss]; nlinarith
  -- from above
  have hA : t ≤ s + 13 * τ * m := by
    have h1 : sqCost a b p ≤ (s + 12 * τ * m) ^ 2 := by
      rw [sqCost_map]
      refine sum_sq_near p (g := fun c => a₀.getD c.1 0 - b₀.getD c.2 0) hdiff hC (hL p hpl) s0 ?_
      rw [← sqCost_map, hp3, pow_two, ss]
    have h2 := sqCostBy_le h hu1 ha hb hpl
    have h3 : D ≤ sqCostBy fl a b p := hq4 ⟨p, by rw [hla, hlb]; exact hp1, hp2, rfl⟩
    refine near_up hτ hτ4 hm1 s0 hs2 t0 (sqCost_nonneg' a b p) h1 (by positivity) hθm (by positivity) hp2' ?_
    rw [tt]
    exact h3.trans h2
  have hτm4 : τ * m ≤ 1 / 4 * m := mul_le_mul_of_nonneg_right hτ4 (by linarith)
  have ht : t ≤ 21 / 4 * m := by linarith
  refine ⟨hA, ?_, ht, hD0⟩
  -- from below
  have h1 := sqCostBy_ge h hu1 ha hb hql
  rw [hq3] at h1
  have hc0 := sqCost_nonneg' a b q
  have h3 := near_down hτ hτ4 hm1 t0 hc0 hθm hdown (by rw [tt]; exact h1)
  have h4 : sqCost a₀ b₀ q ≤ ((1 + τ / 6) * (t + τ * m / 8) + 12 * τ * m) ^ 2 := by
    rw [sqCost_map]
    refine sum_sq_near q (g := fun c => a.getD c.1 0 - b.getD c.2 0) (fun c => ?_) hC (hL q hql) (by positivity) ?_
    · rw [abs_sub_comm]; exact hdiff c
    · rw [← sqCost_map]; exact h3
  have h5 : D₀ ≤ sqCost a₀ b₀ q := hp4 ⟨q, by rw [hla₀, hlb₀]; exact hq1, hq2, rfl⟩
  refine _root_.le_trans ?_ (near_down' hτ hτ4 hm1 ht)
  refine (mul_self_le_mul_self_iff s0 (by positivity)).2 ?_
  rw [ss, ← pow_two]
  exact h5.trans h4

end Genex.Ucr
