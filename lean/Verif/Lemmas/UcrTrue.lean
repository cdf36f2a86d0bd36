import Verif.Lemmas.UcrSums

/-! The normalised windows of genex/lib/trillionDTW.cpp in rounded arithmetic, and the exact ones. -/

set_option linter.unusedSectionVars false

namespace Genex.Ucr

open Dbl Spec

variable {K : Type} [Field K] [LinearOrder K] [IsStrictOrderedRing K] {fl : K → K} {u θ : K}

/-- The variance `V` of `m` numbers up to `M` is large enough for sums with `N` roundings. -/
structure Enough (u θ : K) (N m : ℕ) (M τ V : K) : Prop where
  θM : θ ≤ M
  len : 2 * m ≤ N
  le : V ≤ M ^ 2
  pos : 0 < V
  τ_le : τ ≤ 1 / 4
  enough : 2 * M ^ 2 * ((1 + u) ^ (2 * N + 6) - 1) + 6 * θ ^ 2 ≤ τ * V

section
variable {N m : ℕ} {M τ V : K} (h : FloatOps fl u θ) (E : Enough u θ N m M τ V)
include h E

theorem Enough.M_pos : 0 < M := by
  have h0 := h.θ_nonneg
  have h1 := E.θM
  have h2 := E.pos.trans_le E.le
  rcases (h0.trans h1).lt_or_eq with h3 | h3
  · exact h3
  · rw [← h3] at h2; simp at h2

theorem Enough.bernoulli : (2 * N + 6) * u ≤ (1 + u) ^ (2 * N + 6) - 1 := by
  have := one_add_mul_le_pow (a := u) (by linarith [h.u_nonneg]) (2 * N + 6)
  push_cast at this
  linarith

theorem Enough.eps_nonneg : 0 ≤ (1 + u) ^ (2 * N + 6) - 1 := by
  have := one_le_pow_add h.u_nonneg (2 * N + 6)
  linarith

theorem Enough.τ_nonneg : 0 ≤ τ := by
  have h1 := E.eps_nonneg h
  have h2 : 0 ≤ 2 * M ^ 2 * ((1 + u) ^ (2 * N + 6) - 1) + 6 * θ ^ 2 := by positivity
  have h3 := h2.trans E.enough
  exact nonneg_of_mul_nonneg_left h3 E.pos

theorem Enough.eps_le : 2 * ((1 + u) ^ (2 * N + 6) - 1) ≤ τ := by
  have hM := E.M_pos h
  have h1 : τ * V ≤ τ * M ^ 2 := mul_le_mul_of_nonneg_left E.le (E.τ_nonneg h)
  have h2 := E.enough
  have h3 : 0 ≤ 6 * θ ^ 2 := by positivity
  have h4 : 2 * ((1 + u) ^ (2 * N + 6) - 1) * M ^ 2 ≤ τ * M ^ 2 := by linarith
  exact le_of_mul_le_mul_right h4 (by positivity)

theorem Enough.u_len : (4 * m + 6) * u ≤ τ / 2 := by
  have h1 := E.bernoulli h
  have h2 := E.eps_le h
  have h3 : (2 * m : K) ≤ N := by exact_mod_cast E.len
  have h4 : (4 * m + 6) * u ≤ (2 * N + 6) * u := mul_le_mul_of_nonneg_right (by linarith) h.u_nonneg
  linarith

theorem Enough.u_le : 12 * u ≤ τ := by
  have h1 := E.u_len h
  have h2 : 0 ≤ (m : K) * u := mul_nonneg (Nat.cast_nonneg _) h.u_nonneg
  nlinarith

theorem Enough.u_le_one : u ≤ 1 := by
  have := E.u_le h
  have := E.τ_le
  linarith

theorem Enough.pow_le : (1 + u) ^ (4 * m + 6) ≤ 1 + τ / 2 := by
  have h1 := pow_add_mono h.u_nonneg (show 4 * m + 6 ≤ 2 * N + 6 by have := E.len; omega)
  have h2 := E.eps_le h
  linarith

theorem Enough.two : (1 + u) ^ (N + 2) ≤ 2 := by
  have h1 := pow_add_mono h.u_nonneg (show N + 2 ≤ 2 * N + 6 by omega)
  have h2 := E.eps_le h
  have := E.τ_le
  linarith

theorem Enough.θ_le : θ ≤ u := h.θ_le.trans (by rw [pow_two]; exact mul_le_of_le_one_left h.u_nonneg (E.u_le_one h))

variable [HasSqrt K] [LawfulSqrt K]

theorem Enough.σ_pos : 0 < HasSqrt.sqrt V := by
  have h1 := LawfulSqrt.sqrt_nonneg E.pos.le
  have h2 := LawfulSqrt.mul_self E.pos.le
  rcases h1.lt_or_eq with h3 | h3
  · exact h3
  · rw [← h3] at h2
    have := E.pos
    simp at h2
    linarith

theorem Enough.θσ : 48 * θ ^ 2 ≤ τ * HasSqrt.sqrt V := by
  have hσ := E.σ_pos h
  have hs := LawfulSqrt.mul_self E.pos.le
  have h1 : 6 * θ ^ 2 ≤ τ * V := by
    have h1 := E.eps_nonneg h
    have h2 : 0 ≤ 2 * M ^ 2 * ((1 + u) ^ (2 * N + 6) - 1) := by positivity
    linarith [E.enough]
  have h2 : τ * V ≤ 1 / 4 * V := mul_le_mul_of_nonneg_right E.τ_le E.pos.le
  have h0 := h.θ_nonneg
  have h3 : 4 * θ ≤ HasSqrt.sqrt V := by
    refine (mul_self_le_mul_self_iff (by linarith) hσ.le).2 ?_
    rw [hs]
    nlinarith
  have h4 : 12 * θ ≤ τ := (mul_le_mul_of_nonneg_left (E.θ_le h) (by norm_num)).trans (E.u_le h)
  calc 48 * θ ^ 2 = 12 * θ * (4 * θ) := by ring
    _ ≤ _ := mul_le_mul h4 h3 (by linarith) (E.τ_nonneg h)

/-- The computed deviation. -/
theorem Enough.dev {v : K} (hv : |v - V| ≤ τ * V) : 0 < v ∧ |fl (HasSqrt.sqrt v) - HasSqrt.sqrt V| ≤ 5 / 4 * τ * HasSqrt.sqrt V := by
  have hσ := E.σ_pos h
  have hs := LawfulSqrt.mul_self E.pos.le
  have hτ := E.τ_nonneg h
  have hτ4 := E.τ_le
  have hV := E.pos
  have h1 := abs_le.1 hv
  have hτV : τ * V ≤ 1 / 4 * V := mul_le_mul_of_nonneg_right hτ4 hV.le
  have hv0 : 0 < v := by linarith [h1.1]
  refine ⟨hv0, ?_⟩
  have hs' := LawfulSqrt.mul_self hv0.le
  have hσ' := LawfulSqrt.sqrt_nonneg hv0.le
  have hθ := E.θσ h
  have hu := E.u_le h
  have hu0 := h.u_nonneg
  generalize HasSqrt.sqrt V = σ at *
  have he := h.err (HasSqrt.sqrt v)
  rw [abs_of_nonneg hσ'] at he
  generalize HasSqrt.sqrt v = s at *
  have h2 : |s - σ| ≤ τ * σ := by
    have h3 : |s - σ| * (s + σ) ≤ τ * σ * σ := by
      rw [← abs_of_nonneg (add_nonneg hσ' hσ.le), ← abs_mul]
      have : (s - σ) * (s + σ) = v - V := by rw [← hs, ← hs']; ring
      rw [this, mul_assoc, hs]
      exact hv
    have h4 : |s - σ| * σ ≤ |s - σ| * (s + σ) := mul_le_mul_of_nonneg_left (by linarith) (abs_nonneg _)
    exact le_of_mul_le_mul_right (h4.trans h3) hσ
  have h5 : s ≤ 5 / 4 * σ := by
    have := (abs_le.1 h2).2
    nlinarith
  have h6 : u * s ≤ 5 / 48 * (τ * σ) := by
    calc u * s ≤ τ / 12 * (5 / 4 * σ) := mul_le_mul (by linarith) h5 hσ' (by linarith)
      _ = _ := by ring
  have := abs_sub_trans he h2
  have h7 : 0 ≤ τ * σ := mul_nonneg hτ hσ.le
  linarith

/-- The error of the mean. -/
theorem Enough.mean {A μ : K} (hA : |A - μ| ≤ M * ((1 + u) ^ (N + 2) - 1)) : (1 + u) * |A - μ| ≤ τ / 4 * HasSqrt.sqrt V := by
  have hσ := E.σ_pos h
  have hs := LawfulSqrt.mul_self E.pos.le
  have hτ := E.τ_nonneg h
  have hM := E.M_pos h
  have hu := h.u_nonneg
  have hε := E.eps_le h
  have hε0 := E.eps_nonneg h
  have hg := one_le_pow_add hu (N + 3)
  have e6 : (1 + u) ^ (2 * N + 6) = (1 + u) ^ (N + 3) * (1 + u) ^ (N + 3) := by rw [← pow_add]; congr 1; omega
  have e3 : (1 + u) ^ (N + 3) = (1 + u) * (1 + u) ^ (N + 2) := by rw [pow_succ']
  have hen : 2 * M ^ 2 * ((1 + u) ^ (2 * N + 6) - 1) ≤ τ * V := by
    have : 0 ≤ 6 * θ ^ 2 := by positivity
    linarith [E.enough]
  generalize hεe : (1 + u) ^ (2 * N + 6) - 1 = ε at *
  have h1 : (1 + u) * ((1 + u) ^ (N + 2) - 1) ≤ ε / 2 := by
    have : (1 + u) * ((1 + u) ^ (N + 2) - 1) = (1 + u) ^ (N + 3) - 1 - u := by rw [e3]; ring
    rw [this]
    rw [e6] at hεe
    nlinarith
  have h2 : M * ε ≤ τ * HasSqrt.sqrt V / 2 := by
    refine (mul_self_le_mul_self_iff (mul_nonneg hM.le hε0) (by positivity)).2 ?_
    calc M * ε * (M * ε) = ε / 2 * (2 * M ^ 2 * ε) := by ring
      _ ≤ τ / 4 * (τ * V) := mul_le_mul (by linarith) hen (by positivity) (by linarith)
      _ = τ * τ / 4 * (HasSqrt.sqrt V * HasSqrt.sqrt V) := by rw [hs]; ring
      _ = _ := by ring
  calc _ ≤ (1 + u) * (M * ((1 + u) ^ (N + 2) - 1)) := mul_le_mul_of_nonneg_left hA (by linarith)
    _ = M * ((1 + u) * ((1 + u) ^ (N + 2) - 1)) := by ring
    _ ≤ M * (ε / 2) := mul_le_mul_of_nonneg_left h1 hM.le
    _ ≤ _ := by linarith

/-- A normalised point. -/
theorem Enough.point {A μ s x : K} (hx : fl x = x) (hAf : fl A = A) (hA : |A - μ| ≤ M * ((1 + u) ^ (N + 2) - 1))
    (hs : |s - HasSqrt.sqrt V| ≤ 5 / 4 * τ * HasSqrt.sqrt V) :
    |fl (fl (x - A) / s) - (x - μ) / HasSqrt.sqrt V| ≤ τ * (1 + 3 * |(x - μ) / HasSqrt.sqrt V|) := by
  have hσ := E.σ_pos h
  have hτ := E.τ_nonneg h
  have hτ4 := E.τ_le
  have hmean := E.mean h hA
  have hu := E.u_le h
  have hu0 := h.u_nonneg
  have hu1 := E.u_le_one h
  have hθ := E.θ_le h
  have hθ0 := h.θ_nonneg
  generalize HasSqrt.sqrt V = σ at *
  have e1 := sub_err h hx hAf
  obtain ⟨z, hz⟩ : ∃ z, x - μ = z * σ := ⟨(x - μ) / σ, by field_simp⟩
  have hzσ : |x - μ| = |z| * σ := by rw [hz, abs_mul, abs_of_pos hσ]
  rw [hz, mul_div_cancel_right₀ _ hσ.ne']
  have hz0 := abs_nonneg z
  have hn : |fl (x - A) - z * σ| ≤ τ * σ * (|z| / 12 + 1 / 4) := by
    have h1 : |x - A| ≤ |x - μ| + |A - μ| := by
      have := abs_sub_le x μ A
      rwa [abs_sub_comm μ A] at this
    have h2 : |x - A - z * σ| ≤ |A - μ| := by
      rw [← hz, show x - A - (x - μ) = -(A - μ) by ring, abs_neg]
    have h3 := abs_sub_trans e1 h2
    have h4 : u * |x - A| ≤ u * (|z| * σ) + u * |A - μ| := by
      rw [← hzσ, ← mul_add]
      exact mul_le_mul_of_nonneg_left h1 hu0
    have h5 : u * (|z| * σ) ≤ τ / 12 * (|z| * σ) := mul_le_mul_of_nonneg_right (by linarith) (mul_nonneg hz0 hσ.le)
    have h6 : (1 + u) * |A - μ| = |A - μ| + u * |A - μ| := by ring
    linarith
  have hs1 : 11 / 16 * σ ≤ s := by
    have h1 := (abs_le.1 hs).1
    have : τ * σ ≤ 1 / 4 * σ := mul_le_mul_of_nonneg_right hτ4 hσ.le
    nlinarith
  have hs0 : 0 < s := lt_of_lt_of_le (by positivity) hs1
  have hτz : 0 ≤ τ * |z| := mul_nonneg hτ hz0
  have hq : |fl (x - A) / s - z| ≤ τ * (1 / 2 + 2 * |z|) := by
    have : fl (x - A) / s - z = (fl (x - A) - z * s) / s := by field_simp
    rw [this, abs_div, abs_of_pos hs0, div_le_iff₀ hs0]
    have h1 : |fl (x - A) - z * s| ≤ τ * σ * (|z| / 12 + 1 / 4) + |z| * (5 / 4 * τ * σ) := by
      refine abs_sub_trans hn ?_
      rw [← mul_sub, abs_mul, abs_sub_comm σ s]
      exact mul_le_mul_of_nonneg_left hs hz0
    have h2 : τ * (1 / 2 + 2 * |z|) * (11 / 16 * σ) ≤ τ * (1 / 2 + 2 * |z|) * s := mul_le_mul_of_nonneg_left hs1 (by positivity)
    have h3 : 0 ≤ τ * σ := mul_nonneg hτ hσ.le
    have h4 : 0 ≤ τ * |z| * σ := mul_nonneg hτz hσ.le
    nlinarith
  have he := h.err (fl (x - A) / s)
  have hb : |fl (x - A) / s| ≤ |z| + τ * (1 / 2 + 2 * |z|) := abs_le_of_sub hq le_rfl
  have h1 : u * |fl (x - A) / s| ≤ τ / 12 * (|z| + 1 / 4 * (1 / 2 + 2 * |z|)) := by
    refine mul_le_mul (by linarith) (hb.trans ?_) (abs_nonneg _) (by linarith)
    have : τ * (1 / 2 + 2 * |z|) ≤ 1 / 4 * (1 / 2 + 2 * |z|) := mul_le_mul_of_nonneg_right hτ4 (by linarith)
    linarith
  have h2 : θ ^ 2 ≤ τ / 12 := by
    have : θ ^ 2 ≤ 1 * u := by rw [pow_two]; exact mul_le_mul (by linarith) hθ hθ0 (by norm_num)
    linarith
  have := abs_sub_trans he hq
  nlinarith

end

/-! ## Windows -/

theorem getD_over (l : List K) {k : ℕ} (hk : l.length ≤ k) : l.getD k 0 = 0 := by
  simp [List.getD, hk]

theorem abs_sum_le {w : List K} {B : K} (hB : ∀ x ∈ w, |x| ≤ B) : |w.sum| ≤ w.length * B := by
  induction w with
  | nil => simp
  | cons x w ih =>
    have h1 := ih (fun y hy => hB y (by simp [hy]))
    have h2 := hB x (by simp)
    have h3 := abs_add_le x w.sum
    simp only [List.sum_cons, List.length_cons]
    push_cast
    linarith

theorem sum_map_sub {w : List K} {f g : K → K} {B : K} (hB : ∀ x ∈ w, |f x - g x| ≤ B) : |(w.map f).sum - (w.map g).sum| ≤ w.length * B := by
  have : (w.map f).sum - (w.map g).sum = (w.map fun x => f x - g x).sum := by
    induction w with
    | nil => simp
    | cons x w ih =>
      simp only [List.map_cons, List.sum_cons]
      rw [← ih (fun y hy => hB y (by simp [hy]))]
      ring
  rw [this]
  have := abs_sum_le (w := w.map fun x => f x - g x) (B := B) (by
    intro y hy
    obtain ⟨x, hx, rfl⟩ := List.mem_map.1 hy
    exact hB x hx)
  rwa [List.length_map] at this

theorem moments_le {w : List K} {M : K} (hl : 1 ≤ w.length) (hM : 0 ≤ M) (hw : ∀ x ∈ w, |x| ≤ M) :
    |mean w| ≤ M ∧ (w.map fun x => x ^ 2).sum / w.length ≤ M ^ 2 ∧ mean w ^ 2 ≤ (w.map fun x => x ^ 2).sum / w.length ∧
      variance w = (w.map fun x => x ^ 2).sum / w.length - mean w ^ 2 := by
  have hm : (0 : K) < w.length := by exact_mod_cast hl
  have hv : variance w = (w.map fun x => x ^ 2).sum / w.length - mean w ^ 2 := by
    rw [variance_eq hl, pow_two (mean w)]
    rfl
  refine ⟨?_, ?_, ?_, hv⟩
  · unfold mean
    rw [abs_div, abs_of_pos hm, div_le_iff₀ hm, mul_comm]
    exact abs_sum_le hw
  · rw [div_le_iff₀ hm, mul_comm]
    refine (le_abs_self _).trans ?_
    have := abs_sum_le (w := w.map fun x => x ^ 2) (B := M ^ 2) (by
      intro y hy
      obtain ⟨x, hx, rfl⟩ := List.mem_map.1 hy
      rw [abs_pow]
      exact pow_le_pow_left₀ (abs_nonneg _) (hw x hx) 2)
    rwa [List.length_map] at this
  · have := variance_nonneg w
    rw [hv] at this
    linarith

theorem variance_le {w : List K} {M : K} (hl : 1 ≤ w.length) (hM : 0 ≤ M) (hw : ∀ x ∈ w, |x| ≤ M) : variance w ≤ M ^ 2 := by
  obtain ⟨-, h2, -, h4⟩ := moments_le hl hM hw
  rw [h4]
  have := sq_nonneg (mean w)
  linarith

variable [HasSqrt K] [LawfulSqrt K]

/-- What is computed from approximations of the sums. -/
theorem devOf_near (h : FloatOps fl u θ) {w : List K} {N : ℕ} {M τ S S2 : K} (hl : 1 ≤ w.length) (hw : ∀ x ∈ w, |x| ≤ M)
    (E : Enough u θ N w.length M τ (variance w)) (hS : |S - w.sum| ≤ w.length * M * ((1 + u) ^ N - 1))
    (hS2 : |S2 - (w.map fun x => fl (x * x)).sum| ≤ w.length * (M ^ 2 * (1 + u) + θ ^ 2) * ((1 + u) ^ N - 1)) :
    |meanOf fl w.length S - mean w| ≤ M * ((1 + u) ^ (N + 2) - 1) ∧ 0 < devOf fl w.length S S2 ∧
      |devOf fl w.length S S2 - HasSqrt.sqrt (variance w)| ≤ 5 / 4 * τ * HasSqrt.sqrt (variance w) := by
  have hu := h.u_nonneg
  have hM := E.M_pos h
  have hm : (0 : K) < w.length := by exact_mod_cast hl
  obtain ⟨h1, h2, h3, h4⟩ := moments_le hl hM.le hw
  have ha : |S / w.length - mean w| ≤ M * ((1 + u) ^ N - 1) := by
    unfold mean
    rw [← sub_div, abs_div, abs_of_pos hm, div_le_iff₀ hm]
    refine hS.trans (le_of_eq ?_)
    ring
  have hb : |S2 / w.length - (w.map fun x => x ^ 2).sum / w.length| ≤ M ^ 2 * ((1 + u) ^ (N + 1) - 1) + θ ^ 2 * (1 + u) ^ N := by
    rw [← sub_div, abs_div, abs_of_pos hm, div_le_iff₀ hm]
    have h5 : |(w.map fun x => fl (x * x)).sum - (w.map fun x => x ^ 2).sum| ≤ w.length * (u * M ^ 2 + θ ^ 2) := by
      apply sum_map_sub
      intro x hx
      have := h.err (x * x)
      rw [← pow_two] at this
      rw [← pow_two]
      refine this.trans (add_le_add_left (mul_le_mul_of_nonneg_left ?_ hu) _)
      rw [abs_pow]
      exact pow_le_pow_left₀ (abs_nonneg _) (hw x hx) 2
    refine (abs_sub_trans hS2 h5).trans (le_of_eq ?_)
    rw [pow_succ]
    ring
  obtain ⟨h5, h6⟩ := variance_err h (E.u_le_one h) E.θM h1 h2 h3 ha hb (E.two h)
  rw [← h4] at h6
  obtain ⟨h7, h8⟩ := E.dev h (h6.trans E.enough)
  have e : devOf fl w.length S S2 = fl (HasSqrt.sqrt (fl (fl (S2 / w.length) - fl (fl (S / w.length) * fl (S / w.length))))) := by
    unfold devOf meanOf
    rw [if_neg (_root_.not_lt.2 h7.le)]
  rw [e]
  refine ⟨h5, ?_, h8⟩
  have hσ := E.σ_pos h
  have hτ4 := E.τ_le
  have := (abs_le.1 h8).1
  have h9 : τ * HasSqrt.sqrt (variance w) ≤ 1 / 4 * HasSqrt.sqrt (variance w) := mul_le_mul_of_nonneg_right hτ4 hσ.le
  linarith

/-- The normalised points are near the exact ones. -/
theorem scaled_near (h : FloatOps fl u θ) {w : List K} {N : ℕ} {M τ A s : K} (hl : 1 ≤ w.length) (hf : ∀ x ∈ w, fl x = x)
    (E : Enough u θ N w.length M τ (variance w)) (hAf : fl A = A) (hA : |A - mean w| ≤ M * ((1 + u) ^ (N + 2) - 1))
    (hs : |s - HasSqrt.sqrt (variance w)| ≤ 5 / 4 * τ * HasSqrt.sqrt (variance w)) (k : ℕ) :
    |(scaledBy fl A s w).getD k 0 - (standardised w).getD k 0| ≤ 4 * τ * HasSqrt.sqrt (w.length : K) := by
  have hm : (1 : K) ≤ w.length := by exact_mod_cast hl
  have hτ := E.τ_nonneg h
  have hR0 := LawfulSqrt.sqrt_nonneg (show (0 : K) ≤ w.length by linarith)
  have hR := LawfulSqrt.mul_self (show (0 : K) ≤ w.length by linarith)
  by_cases hk : k < w.length
  · have hx : w.getD k 0 ∈ w := by
      simp [List.getD, hk]
    rw [scaledBy_getD hk]
    have e : (standardised w).getD k 0 = (w.getD k 0 - mean w) / HasSqrt.sqrt (variance w) := by
      simp [standardised, List.getD, hk]
    have hnf : ¬ Flat w := fun hf => by
      have := (variance_zero hl).2 hf
      have := E.pos
      linarith
    have hz : (standardised w).getD k 0 ∈ standardised w := by
      have : k < (standardised w).length := by rw [standardised_length]; exact hk
      simp [List.getD, this]
    have hz2 := standardised_le hl hnf _ hz
    rw [e] at hz2 ⊢
    have hp := E.point h (hf _ hx) hAf hA hs
    generalize (w.getD k 0 - mean w) / HasSqrt.sqrt (variance w) = z at *
    have hzR : |z| ≤ HasSqrt.sqrt (w.length : K) := by
      refine (mul_self_le_mul_self_iff (abs_nonneg _) hR0).2 ?_
      rw [hR, abs_mul_abs_self, ← pow_two]
      exact hz2
    have h1R : 1 ≤ HasSqrt.sqrt (w.length : K) := by
      refine (mul_self_le_mul_self_iff (by norm_num) hR0).2 ?_
      rw [hR]; linarith
    refine hp.trans ?_
    calc _ ≤ τ * (HasSqrt.sqrt (w.length : K) + 3 * HasSqrt.sqrt (w.length : K)) := mul_le_mul_of_nonneg_left (by linarith) hτ
      _ = _ := by ring
  · have e1 : (scaledBy fl A s w).getD k 0 = 0 := by
      apply getD_over
      rw [scaledBy_length]; omega
    have e2 : (standardised w).getD k 0 = 0 := by
      apply getD_over
      rw [standardised_length]; omega
    rw [e1, e2, sub_zero, abs_zero]
    positivity

theorem part_sum_range (data : List K) {m p : ℕ} (hp : p + m ≤ data.length) (f : K → K) :
    ∑ k ∈ Finset.range m, f (data.getD (p + k) 0) = ((part data m p).map f).sum := by
  rw [part_eq hp, List.map_map]
  have : ∀ (g : ℕ → K) (n : ℕ), ∑ k ∈ Finset.range n, g k = ((List.range n).map g).sum := by
    intro g n
    induction n with
    | zero => simp
    | succ n ih => rw [Finset.sum_range_succ, List.range_succ, List.map_append, List.sum_append, ih]; simp
  rw [this]
  rfl

/-- A window of the data. -/
theorem part_near (h : FloatOps fl u θ) {data : List K} {m n p N : ℕ} {M τ : K} (hm : 1 ≤ m) (hp : p + m ≤ data.length) (hf : Floats fl data)
    (hM : ∀ x ∈ data, |x| ≤ M) (hN : 2 * (p % n + m) ≤ N) (E : Enough u θ N m M τ (variance (part data m p))) :
    0 < partDev fl m n data p ∧
      ∀ k, |(partBy fl m n data p).getD k 0 - (standardised (part data m p)).getD k 0| ≤ 4 * τ * HasSqrt.sqrt (m : K) := by
  have hl : (part data m p).length = m := part_length hp
  have hu := h.u_nonneg
  have hM0 := E.M_pos h
  have hmem : ∀ x ∈ part data m p, x ∈ data := fun x hx => List.mem_of_mem_drop (List.mem_of_mem_take hx)
  have hff : ∀ k, fl (data.getD k 0) = data.getD k 0 := fun k => hf.getD h.toRounding k
  have hMM : ∀ k, |data.getD k 0| ≤ M := by
    intro k
    by_cases hk : k < data.length
    · have : data.getD k 0 = data[k] := by simp [List.getD, hk]
      rw [this]
      exact hM _ (List.getElem_mem _)
    · rw [getD_over _ (by omega), abs_zero]; exact hM0.le
  have hpow : (1 + u) ^ (2 * (p % n + m)) ≤ (1 + u) ^ N := pow_add_mono hu hN
  have hS := sumFrom_err h hm (n := n) hff hMM p
  have hS2 := sumFrom_err h hm (n := n) (x := fun k => fl (data.getD k 0 * data.getD k 0)) (B := M ^ 2 * (1 + u) + θ ^ 2) (fun k => h.idem _)
    (fun k => by
      have h1 := h.err (data.getD k 0 * data.getD k 0)
      have h2 : |data.getD k 0 * data.getD k 0| ≤ M ^ 2 := by
        rw [abs_mul, pow_two]
        exact mul_le_mul (hMM k) (hMM k) (abs_nonneg _) hM0.le
      have h3 := abs_le_of_sub h1 h2
      have h4 : u * |data.getD k 0 * data.getD k 0| ≤ u * M ^ 2 := mul_le_mul_of_nonneg_left h2 hu
      linarith) p
  have e1 := part_sum_range data hp (fun x => x)
  have e2 := part_sum_range data hp (fun x => fl (x * x))
  simp only [List.map_id'] at e1
  rw [e1] at hS
  rw [e2] at hS2
  have hmK : (0 : K) ≤ m := Nat.cast_nonneg _
  have hB : 0 ≤ M ^ 2 * (1 + u) + θ ^ 2 := by positivity
  obtain ⟨a, b, c⟩ := devOf_near h (w := part data m p) (N := N) (M := M) (τ := τ) (by omega) (fun x hx => hM x (hmem x hx)) (by rw [hl]; exact E)
    (hS.trans (by rw [hl]; exact mul_le_mul_of_nonneg_left (by linarith) (mul_nonneg hmK hM0.le)))
    (hS2.trans (by rw [hl]; exact mul_le_mul_of_nonneg_left (by linarith) (mul_nonneg hmK hB)))
  rw [hl] at a b c
  refine ⟨b, fun k => ?_⟩
  have := scaled_near h (w := part data m p) (N := N) (M := M) (τ := τ) (A := partMean fl m n data p) (s := partDev fl m n data p) (by omega)
    (fun x hx => hf x (hmem x hx)) (by rw [hl]; exact E) (h.idem _) a c k
  rw [hl] at this
  exact this

/-- The query. -/
theorem query_near (h : FloatOps fl u θ) {w : List K} {N : ℕ} {M τ : K} (hm : 1 ≤ w.length) (hf : Floats fl w) (hM : ∀ x ∈ w, |x| ≤ M)
    (hN : w.length ≤ N) (E : Enough u θ N w.length M τ (variance w)) :
    0 < queryDev fl w ∧ ∀ k, |(queryBy fl w).getD k 0 - (standardised w).getD k 0| ≤ 4 * τ * HasSqrt.sqrt (w.length : K) := by
  have hu := h.u_nonneg
  have hM0 := E.M_pos h
  have hpow : (1 + u) ^ w.length ≤ (1 + u) ^ N := pow_add_mono hu hN
  have hS := totalBy_err h hM0.le hf hM
  have hB : 0 ≤ M ^ 2 * (1 + u) + θ ^ 2 := by positivity
  have hS2 := totalBy_err h (w := w.map fun x => fl (x * x)) (B := M ^ 2 * (1 + u) + θ ^ 2) hB
    (by intro y hy; obtain ⟨x, -, rfl⟩ := List.mem_map.1 hy; exact h.idem _)
    (by
      intro y hy
      obtain ⟨x, hx, rfl⟩ := List.mem_map.1 hy
      have h1 := h.err (x * x)
      have h2 : |x * x| ≤ M ^ 2 := by
        rw [abs_mul, pow_two]
        exact mul_le_mul (hM x hx) (hM x hx) (abs_nonneg _) hM0.le
      have h3 := abs_le_of_sub h1 h2
      have h4 : u * |x * x| ≤ u * M ^ 2 := mul_le_mul_of_nonneg_left h2 hu
      linarith)
  rw [List.length_map] at hS2
  have hmK : (0 : K) ≤ w.length := Nat.cast_nonneg _
  obtain ⟨a, b, c⟩ := devOf_near h (w := w) (N := N) (M := M) (τ := τ) hm hM E
    (hS.1.trans (mul_le_mul_of_nonneg_left (by linarith) (mul_nonneg hmK hM0.le)))
    (hS2.1.trans (mul_le_mul_of_nonneg_left (by linarith) (mul_nonneg hmK hB)))
  exact ⟨b, fun k => scaled_near h hm hf E (h.idem _) a c k⟩

end Genex.Ucr
