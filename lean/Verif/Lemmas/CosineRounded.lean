import Verif.Lemmas.SimilarityRounded

/-! # Cosine with rounding -/

set_option linter.unusedSectionVars false

namespace Genex

open Dbl Spec

variable {K : Type} [Field K] [LinearOrder K] [IsStrictOrderedRing K] {rd : K → K} {u θ : K}

/-- A rounded sum of rounded products. -/
def dotR (rd : K → K) (g h : K × K → K) (l : List (K × K)) : K := l.foldl (fun s c => rd (s + rd (g c * h c))) 0

theorem dotR_snoc (g h : K × K → K) (l : List (K × K)) (c : K × K) : dotR rd g h (l ++ [c]) = rd (dotR rd g h l + rd (g c * h c)) := by
  simp [dotR]

theorem dotR_fixed (hrd : Rounding rd) (g h : K × K → K) (l : List (K × K)) : rd (dotR rd g h l) = dotR rd g h l := by
  induction l using List.reverseRecOn with
  | nil => simp [dotR, hrd.zero]
  | append_singleton l c ih => rw [dotR_snoc, hrd.idem]

theorem dotR_error (hp : FloatOps rd u θ) (g h : K × K → K) (l : List (K × K)) :
    |dotR rd g h l - (l.map fun c => g c * h c).sum| ≤
      ((1 + u) ^ (l.length + 1) - 1) * (l.map fun c => |g c * h c|).sum + l.length * (1 + u) ^ l.length * θ ^ 2 := by
  have hu := hp.u_nonneg
  induction l using List.reverseRecOn with
  | nil => simp [dotR]
  | append_singleton l c ih =>
    have hf := dotR_fixed hp.toRounding g h l
    rw [dotR_snoc, List.map_append, List.map_singleton, List.sum_append, List.sum_singleton, List.map_append, List.map_singleton,
      List.sum_append, List.sum_singleton, List.length_append, List.length_singleton]
    have k1 := hp.add _ _ hf (hp.idem (g c * h c))
    have k2 := hp.err (g c * h c)
    have hS : |(l.map fun c => g c * h c).sum| ≤ (l.map fun c => |g c * h c|).sum := by
      clear ih hf k1 k2
      induction l with
      | nil => simp
      | cons d l ih => simp only [List.map_cons, List.sum_cons]; exact le_trans (abs_add_le _ _) (by linarith)
    have p1 : (1 : K) ≤ (1 + u) ^ l.length := one_le_pow₀ (by linarith)
    generalize (l.map fun c => |g c * h c|).sum = A at *
    generalize (l.map fun c => g c * h c).sum = S at *
    generalize dotR rd g h l = d at *
    generalize rd (g c * h c) = t' at *
    generalize g c * h c = t at *
    have ht := abs_nonneg t
    have hA : 0 ≤ A := le_trans (abs_nonneg _) hS
    have e1 : |d + t'| ≤ |d - S| + |t' - t| + (A + |t|) := by
      have : d + t' = (d - S) + (t' - t) + (S + t) := by ring
      rw [this]
      exact le_trans (abs_add_le _ _) (add_le_add (abs_add_le _ _) (le_trans (abs_add_le _ _) (by linarith)))
    have e2 : |rd (d + t') - (S + t)| ≤ |rd (d + t') - (d + t')| + (|d - S| + |t' - t|) := by
      have : rd (d + t') - (S + t) = (rd (d + t') - (d + t')) + ((d - S) + (t' - t)) := by ring
      rw [this]
      exact le_trans (abs_add_le _ _) (add_le_add (le_refl _) (abs_add_le _ _))
    have e3 := mul_le_mul_of_nonneg_left e1 hu
    have e4 : (1 + u) * (|d - S| + |t' - t|) ≤ (1 + u) * ((((1 + u) ^ (l.length + 1) - 1) * A + l.length * (1 + u) ^ l.length * θ ^ 2) + (u * |t| + θ ^ 2)) :=
      mul_le_mul_of_nonneg_left (add_le_add ih k2) (by linarith)
    have e5 : (0 : K) ≤ ((1 + u) ^ l.length - 1) * (1 + u) ^ 2 * |t| :=
      mul_nonneg (mul_nonneg (by linarith) (by positivity)) ht
    have e6 : (0 : K) ≤ ((1 + u) ^ l.length - 1) * (1 + u) * θ ^ 2 :=
      mul_nonneg (mul_nonneg (by linarith) (by linarith)) (sq_nonneg _)
    push_cast
    simp only [pow_succ (1 + u)] at *
    generalize (1 + u) ^ l.length = β at *
    nlinarith

/-- With few terms, and without much underflow. -/
theorem dotR_near (hp : FloatOps rd u θ) (g h : K × K → K) (l : List (K × K)) {w N : K} (hw : ((l.length + 1 : ℕ) : K) * u ≤ w) (hw2 : 2 * w ≤ 1)
    (hN : (l.map fun c => |g c * h c|).sum ≤ N) (hθ : θ ≤ u * N) : |dotR rd g h l - (l.map fun c => g c * h c).sum| ≤ 4 * w * N := by
  have hu := hp.u_nonneg
  have h0 := hp.θ_nonneg
  have e := dotR_error hp g h l
  have hA : 0 ≤ (l.map fun c => |g c * h c|).sum := by
    apply List.sum_nonneg
    intro x hx
    simp only [List.mem_map] at hx
    obtain ⟨c, -, rfl⟩ := hx
    exact abs_nonneg _
  have q1 := one_add_pow_le hu (l.length + 1) (by linarith)
  have q0 : (1 + u) ^ l.length ≤ (1 + u) ^ (l.length + 1) := by
    rw [pow_succ]; exact le_mul_of_one_le_right (by positivity) (by linarith)
  have q2 : (1 + u) ^ l.length ≤ 2 := by linarith
  have hn : (0 : K) ≤ l.length := by positivity
  have hn1 : (1 : K) ≤ ((l.length + 1 : ℕ) : K) := by exact_mod_cast (by omega : 1 ≤ l.length + 1)
  have hnu : u ≤ ((l.length + 1 : ℕ) : K) * u := le_mul_of_one_le_left hu hn1
  have hu1 : u ≤ 1 := by linarith
  have hθ1 : θ ≤ 1 := le_trans hp.θ_le (pow_le_one₀ hu hu1)
  have hN0 : 0 ≤ N := le_trans hA hN
  have r1 : ((1 + u) ^ (l.length + 1) - 1) * (l.map fun c => |g c * h c|).sum ≤ 2 * w * N := mul_le_mul (by linarith) hN hA (by linarith)
  have r2 : (l.length : K) * (1 + u) ^ l.length * θ ^ 2 ≤ 2 * w * N := by
    have a1 : θ ^ 2 ≤ u * N := by nlinarith
    have a2 : (l.length : K) * (1 + u) ^ l.length * θ ^ 2 ≤ (l.length : K) * 2 * (u * N) :=
      mul_le_mul (mul_le_mul_of_nonneg_left q2 hn) a1 (sq_nonneg _) (by positivity)
    have a3 : (l.length : K) * u ≤ w := by push_cast at hw; nlinarith
    nlinarith [mul_le_mul_of_nonneg_right a3 hN0]
  linarith

theorem dot_pairs (g h : K × K → K) (l : List (K × K)) : dot (l.map g) (l.map h) = (l.map fun c => g c * h c).sum := by
  unfold dot
  induction l with
  | nil => simp
  | cons c l ih => simp only [List.map_cons, List.zipWith_cons_cons, List.sum_cons, ih]

section
variable [HasSqrt K] [LawfulSqrt K]

/-- The product of the two sums of squares. -/
theorem cos_prod (hp : FloatOps rd u θ) {w P Q P' Q' : K} (hw : 60 * w ≤ 1) (huw : u ≤ w) (hP : 0 < P) (hQ : 0 < Q)
    (h1 : |P' - P| ≤ 4 * w * P) (h2 : |Q' - Q| ≤ 4 * w * Q) (hθ : θ ^ 2 ≤ w * w * (P * Q)) :
    (1 - 10 * w) * (P * Q) ≤ rd (P' * Q') ∧ rd (P' * Q') ≤ (1 + 10 * w) * (P * Q) := by
  have hu := hp.u_nonneg
  have hw0 : 0 ≤ w := le_trans hu huw
  have hPQ := mul_pos hP hQ
  rw [abs_le] at h1 h2
  have p1 : (1 - 4 * w) * P ≤ P' := by linarith
  have p2 : P' ≤ (1 + 4 * w) * P := by linarith
  have q1 : (1 - 4 * w) * Q ≤ Q' := by linarith
  have q2 : Q' ≤ (1 + 4 * w) * Q := by linarith
  have c0 : 0 < 1 - 4 * w := by linarith
  have P0 : 0 < P' := lt_of_lt_of_le (mul_pos c0 hP) p1
  have Q0 : 0 < Q' := lt_of_lt_of_le (mul_pos c0 hQ) q1
  have z1 : (1 - 4 * w) * P * ((1 - 4 * w) * Q) ≤ P' * Q' := mul_le_mul p1 q1 (le_of_lt (mul_pos c0 hQ)) (le_of_lt P0)
  have z2 : P' * Q' ≤ (1 + 4 * w) * P * ((1 + 4 * w) * Q) :=
    mul_le_mul p2 q2 (le_of_lt Q0) (mul_nonneg (by linarith) (le_of_lt hP))
  rw [show (1 - 4 * w) * P * ((1 - 4 * w) * Q) = (1 - 4 * w) * (1 - 4 * w) * (P * Q) by ring] at z1
  rw [show (1 + 4 * w) * P * ((1 + 4 * w) * Q) = (1 + 4 * w) * (1 + 4 * w) * (P * Q) by ring] at z2
  have z0 := mul_pos P0 Q0
  have er := abs_le.1 (hp.err (P' * Q'))
  rw [abs_of_pos z0] at er
  have uz := mul_le_mul_of_nonneg_right huw (le_of_lt z0)
  generalize P' * Q' = Z at *
  generalize P * Q = X at *
  clear p1 p2 q1 q2 h1 h2 P0 Q0
  have ww : 60 * (w * w) ≤ w := by nlinarith
  have ww0 := mul_self_nonneg w
  have www : 60 * (w * w * w) ≤ w * w := by nlinarith
  constructor
  · have a : (1 - w) * ((1 - 4 * w) * (1 - 4 * w) * X) ≤ (1 - w) * Z := mul_le_mul_of_nonneg_left z1 (by linarith)
    have b : 0 ≤ ((1 - w) * ((1 - 4 * w) * (1 - 4 * w)) - w * w - (1 - 10 * w)) * X := by
      refine mul_nonneg ?_ (le_of_lt hPQ)
      rw [show (1 - w) * ((1 - 4 * w) * (1 - 4 * w)) - w * w - (1 - 10 * w) = w + 23 * (w * w) - 16 * (w * w * w) by ring]
      linarith
    rw [show ((1 - w) * ((1 - 4 * w) * (1 - 4 * w)) - w * w - (1 - 10 * w)) * X =
      (1 - w) * ((1 - 4 * w) * (1 - 4 * w) * X) - w * w * X - (1 - 10 * w) * X by ring] at b
    linarith [er.1]
  · have a : (1 + w) * Z ≤ (1 + w) * ((1 + 4 * w) * (1 + 4 * w) * X) := mul_le_mul_of_nonneg_left z2 (by linarith)
    have b : 0 ≤ ((1 + 10 * w) - (1 + w) * ((1 + 4 * w) * (1 + 4 * w)) - w * w) * X := by
      refine mul_nonneg ?_ (le_of_lt hPQ)
      rw [show (1 + 10 * w) - (1 + w) * ((1 + 4 * w) * (1 + 4 * w)) - w * w = w - 25 * (w * w) - 16 * (w * w * w) by ring]
      linarith
    rw [show ((1 + 10 * w) - (1 + w) * ((1 + 4 * w) * (1 + 4 * w)) - w * w) * X =
      (1 + 10 * w) * X - (1 + w) * ((1 + 4 * w) * (1 + 4 * w) * X) - w * w * X by ring] at b
    linarith [er.2]

/-- Its root. -/
theorem cos_root (hp : FloatOps rd u θ) {w N R : K} (hw : 60 * w ≤ 1) (huw : u ≤ w) (hN : 0 < N) (h1 : (1 - 10 * w) * (N * N) ≤ R)
    (h2 : R ≤ (1 + 10 * w) * (N * N)) (hθ : θ ≤ u * N) (hθw : θ ≤ w) : 0 < R ∧ |rd (HasSqrt.sqrt R) - N| ≤ 12 * w * N := by
  have hu := hp.u_nonneg
  have h0 := hp.θ_nonneg
  have hw0 : 0 ≤ w := le_trans hu huw
  have hNN := mul_pos hN hN
  have R0 : 0 < R := lt_of_lt_of_le (mul_pos (by linarith) hNN) h1
  refine ⟨R0, ?_⟩
  have s0 := LawfulSqrt.sqrt_nonneg (le_of_lt R0)
  have ss := LawfulSqrt.mul_self (le_of_lt R0)
  generalize HasSqrt.sqrt R = s at *
  have ww : 60 * (w * w) ≤ w := by nlinarith
  have s1 : (1 - 10 * w) * N ≤ s := by
    refine nonneg_le_nonneg_of_sq_le_sq s0 ?_
    have : (1 - 10 * w) * (1 - 10 * w) * (N * N) ≤ (1 - 10 * w) * (N * N) :=
      mul_le_mul_of_nonneg_right (mul_le_of_le_one_right (by linarith) (by linarith)) (le_of_lt hNN)
    rw [ss]
    linarith
  have s2 : s ≤ (1 + 10 * w) * N := by
    refine nonneg_le_nonneg_of_sq_le_sq (mul_nonneg (by linarith) (le_of_lt hN)) ?_
    have : (1 + 10 * w) * (N * N) ≤ (1 + 10 * w) * (1 + 10 * w) * (N * N) :=
      mul_le_mul_of_nonneg_right (le_mul_of_one_le_right (by linarith) (by linarith)) (le_of_lt hNN)
    rw [ss]
    linarith
  have es := abs_le.1 (hp.err s)
  rw [abs_of_nonneg s0] at es
  have a : u * s ≤ w * ((1 + 10 * w) * N) := mul_le_mul huw s2 s0 hw0
  have b : θ * θ ≤ w * (w * N) := mul_le_mul hθw (le_trans hθ (mul_le_mul_of_nonneg_right huw (le_of_lt hN))) h0 hw0
  have c : 0 ≤ (w - 11 * (w * w)) * N := mul_nonneg (by linarith) (le_of_lt hN)
  rw [sq] at es
  exact abs_le.2 ⟨by linarith [es.1], by linarith [es.2]⟩

/-- The numbers in the quotient: from the errors of the three sums to that of the value. -/
theorem cos_arith (hp : FloatOps rd u θ) {w P Q D P' Q' D' N : K} (hw : 60 * w ≤ 1) (huw : u ≤ w) (hP : 0 < P) (hQ : 0 < Q) (hN : 0 < N)
    (hNN : N * N = P * Q) (hD : |D| ≤ N) (h1 : |P' - P| ≤ 4 * w * P) (h2 : |Q' - Q| ≤ 4 * w * Q) (h3 : |D' - D| ≤ 4 * w * N) (hθ : θ ≤ u * N) :
    0 < rd (P' * Q') ∧ 0 < rd (HasSqrt.sqrt (rd (P' * Q'))) ∧ |rd (D' / rd (HasSqrt.sqrt (rd (P' * Q')))) - D / N| ≤ 22 * w := by
  have hu := hp.u_nonneg
  have h0 := hp.θ_nonneg
  have hw0 : 0 ≤ w := le_trans hu huw
  have hθw : θ ≤ w := le_trans hp.θ_le (le_trans (by rw [sq]; exact mul_le_of_le_one_right hu (by linarith)) huw)
  have hwN : θ ≤ w * N := le_trans hθ (mul_le_mul_of_nonneg_right huw (le_of_lt hN))
  obtain ⟨r1, r2⟩ := cos_prod hp hw huw hP hQ h1 h2 (by
    have := mul_self_le_mul_self h0 hwN
    rw [← hNN, sq]
    linarith)
  rw [← hNN] at r1 r2
  obtain ⟨R0, hV⟩ := cos_root hp hw huw hN r1 r2 hθ hθw
  refine ⟨R0, ?_⟩
  generalize rd (HasSqrt.sqrt (rd (P' * Q'))) = V at *
  clear h1 h2 r1 r2 R0 hNN
  have hV' := abs_le.1 hV
  have u1 : (1 - 12 * w) * N ≤ V := by linarith
  have V0 : 0 < V := lt_of_lt_of_le (mul_pos (by linarith) hN) u1
  refine ⟨V0, ?_⟩
  have ww : 60 * (w * w) ≤ w := by nlinarith
  have hq : |D' / V - D / N| ≤ 20 * w := by
    rw [div_sub_div _ _ (ne_of_gt V0) (ne_of_gt hN), abs_div, abs_of_pos (mul_pos V0 hN), div_le_iff₀ (mul_pos V0 hN)]
    have e : D' * N - V * D = (D' - D) * N + D * (N - V) := by ring
    rw [e]
    have a1 : |(D' - D) * N| ≤ 4 * w * N * N := by
      rw [abs_mul, abs_of_pos hN]; exact mul_le_mul_of_nonneg_right h3 (le_of_lt hN)
    have a2 : |D * (N - V)| ≤ N * (12 * w * N) := by
      rw [abs_mul]; exact mul_le_mul hD (by rwa [abs_sub_comm]) (abs_nonneg _) (le_of_lt hN)
    have a3 : 20 * w * ((1 - 12 * w) * N * N) ≤ 20 * w * (V * N) :=
      mul_le_mul_of_nonneg_left (mul_le_mul_of_nonneg_right u1 (le_of_lt hN)) (by linarith)
    have a4 : 0 ≤ (4 * w - 240 * (w * w)) * (N * N) := mul_nonneg (by linarith) (le_of_lt (mul_pos hN hN))
    have := abs_add_le ((D' - D) * N) (D * (N - V))
    linarith
  have hc : |D / N| ≤ 1 := by rw [abs_div, abs_of_pos hN, div_le_one hN]; exact hD
  have hz := hp.err (D' / V)
  generalize D' / V = q at *
  generalize D / N = c at *
  have hq1 : |q| ≤ 1 + 20 * w := by
    have := abs_sub_abs_le_abs_sub q c
    linarith
  have f1 : u * |q| ≤ w * (1 + 20 * w) := mul_le_mul huw hq1 (abs_nonneg _) hw0
  have f2 := mul_self_le_mul_self h0 hθw
  rw [sq] at hz
  have := abs_sub_le (rd q) q c
  linarith

/-- The value of cosine with rounding. -/
def cosR (rd : K → K) (l : List (K × K)) : K :=
  rd (dotR rd Prod.fst Prod.snd l / rd (HasSqrt.sqrt (rd (dotR rd Prod.fst Prod.fst l * dotR rd Prod.snd Prod.snd l))))

theorem cosR_error (hp : FloatOps rd u θ) (l : List (K × K)) {w : K} (hlw : ((l.length + 1 : ℕ) : K) * u ≤ w) (hw : 60 * w ≤ 1)
    (hP : 0 < dot (l.map Prod.fst) (l.map Prod.fst)) (hQ : 0 < dot (l.map Prod.snd) (l.map Prod.snd))
    (tP : θ ≤ u * dot (l.map Prod.fst) (l.map Prod.fst)) (tQ : θ ≤ u * dot (l.map Prod.snd) (l.map Prod.snd)) :
    0 < rd (dotR rd Prod.fst Prod.fst l * dotR rd Prod.snd Prod.snd l) ∧
      0 < rd (HasSqrt.sqrt (rd (dotR rd Prod.fst Prod.fst l * dotR rd Prod.snd Prod.snd l))) ∧
      |cosR rd l - cosineOf (l.map Prod.fst) (l.map Prod.snd)| ≤ 22 * w := by
  have hu := hp.u_nonneg
  have h0 := hp.θ_nonneg
  have hn1 : (1 : K) ≤ ((l.length + 1 : ℕ) : K) := by exact_mod_cast (by omega : 1 ≤ l.length + 1)
  have huw : u ≤ w := le_trans (le_mul_of_one_le_left hu hn1) hlw
  have nP := sqrt_pos' hP
  have nQ := sqrt_pos' hQ
  have mP := LawfulSqrt.mul_self (le_of_lt hP)
  have mQ := LawfulSqrt.mul_self (le_of_lt hQ)
  have hA : (l.map fun c => |c.1 * c.2|).sum ≤
      HasSqrt.sqrt (dot (l.map Prod.fst) (l.map Prod.fst)) * HasSqrt.sqrt (dot (l.map Prod.snd) (l.map Prod.snd)) := by
    have h := dot_sq_le (l.map fun c => |c.1|) (l.map fun c => |c.2|) (by simp)
    rw [dot_pairs, dot_pairs, dot_pairs] at h
    simp only [abs_mul_abs_self] at h
    rw [dot_pairs] at mP mQ nP nQ
    rw [dot_pairs, dot_pairs]
    simp only [← abs_mul] at h
    refine nonneg_le_nonneg_of_sq_le_sq (le_of_lt (mul_pos nP nQ)) (le_trans h (le_of_eq ?_))
    generalize HasSqrt.sqrt (l.map fun c => c.1 * c.1).sum = x at *
    generalize HasSqrt.sqrt (l.map fun c => c.2 * c.2).sum = y at *
    rw [← mP, ← mQ]
    ring
  have hD : |dot (l.map Prod.fst) (l.map Prod.snd)| ≤
      HasSqrt.sqrt (dot (l.map Prod.fst) (l.map Prod.fst)) * HasSqrt.sqrt (dot (l.map Prod.snd) (l.map Prod.snd)) := by
    have := cosineOf_abs (a := l.map Prod.fst) (b := l.map Prod.snd) (by simp) hP hQ
    unfold cosineOf at this
    rwa [abs_div, abs_of_pos (mul_pos nP nQ), div_le_one (mul_pos nP nQ)] at this
  have hθ : θ ≤ u * (HasSqrt.sqrt (dot (l.map Prod.fst) (l.map Prod.fst)) * HasSqrt.sqrt (dot (l.map Prod.snd) (l.map Prod.snd))) := by
    refine nonneg_le_nonneg_of_sq_le_sq (mul_nonneg hu (le_of_lt (mul_pos nP nQ))) ?_
    calc θ * θ ≤ (u * dot (l.map Prod.fst) (l.map Prod.fst)) * (u * dot (l.map Prod.snd) (l.map Prod.snd)) :=
          mul_le_mul tP tQ h0 (le_trans h0 tP)
      _ = u * u * ((HasSqrt.sqrt (dot (l.map Prod.fst) (l.map Prod.fst)) * HasSqrt.sqrt (dot (l.map Prod.fst) (l.map Prod.fst))) *
          (HasSqrt.sqrt (dot (l.map Prod.snd) (l.map Prod.snd)) * HasSqrt.sqrt (dot (l.map Prod.snd) (l.map Prod.snd)))) := by
        rw [mP, mQ]; ring
      _ = _ := by ring
  have sq : ∀ g : K × K → K, (l.map fun c => |g c * g c|).sum = (l.map fun c => g c * g c).sum := fun g => by simp only [abs_mul_self]
  have e1 := dotR_near hp Prod.fst Prod.fst l hlw (by linarith) (le_of_eq ((sq _).trans (dot_pairs _ _ _).symm)) tP
  have e2 := dotR_near hp Prod.snd Prod.snd l hlw (by linarith) (le_of_eq ((sq _).trans (dot_pairs _ _ _).symm)) tQ
  have e3 := dotR_near hp Prod.fst Prod.snd l hlw (by linarith) hA hθ
  rw [← dot_pairs] at e1 e2 e3
  exact cos_arith hp hw huw hP hQ (mul_pos nP nQ) (by
    calc _ = (HasSqrt.sqrt (dot (l.map Prod.fst) (l.map Prod.fst)) * HasSqrt.sqrt (dot (l.map Prod.fst) (l.map Prod.fst))) *
          (HasSqrt.sqrt (dot (l.map Prod.snd) (l.map Prod.snd)) * HasSqrt.sqrt (dot (l.map Prod.snd) (l.map Prod.snd))) := by ring
      _ = _ := by rw [mP, mQ]) hD e1 e2 e3 hθ

theorem pwFold_cosineR (l : List (K × K)) (s t v : K) :
    pwFold (cosineR rd) (fin s, fin t, fin v) ((l.map Prod.fst).map fin) ((l.map Prod.snd).map fin) =
      (fin (l.foldl (fun s c => rd (s + rd (c.1 * c.1))) s), fin (l.foldl (fun s c => rd (s + rd (c.2 * c.2))) t),
        fin (l.foldl (fun s c => rd (s + rd (c.1 * c.2))) v)) := by
  induction l generalizing s t v with
  | nil => simp [pwFold]; rfl
  | cons c l ih =>
    simp only [List.map_cons, pwFold, List.foldl_cons]
    have : (cosineR rd).reduce (fin s, fin t, fin v) (fin c.1) (fin c.2) =
        (fin (rd (s + rd (c.1 * c.1))), fin (rd (t + rd (c.2 * c.2))), fin (rd (v + rd (c.1 * c.2)))) := by
      simp [cosineR, rnd]
    rw [this, ih]

theorem pairwise_cosineR (l : List (K × K)) :
    pairwiseDistance (cosineR rd) ((l.map Prod.fst).map fin) ((l.map Prod.snd).map fin) .inf = .ok (rnd rd (fin (dotR rd Prod.fst Prod.snd l) /
      rnd rd (Dbl.sqrt (rnd rd (fin (dotR rd Prod.fst Prod.fst l) * fin (dotR rd Prod.snd Prod.snd l)))))) := by
  rw [pairwise_unbounded _ _ _ (by simp)]
  · have h1 : (cosineR rd).init = (fin 0, fin 0, fin 0) := rfl
    rw [h1, pwFold_cosineR]
    rfl
  · intro t; exact decide_eq_false (inf_lt _).1

theorem foldl_cosineR (l : List (K × K)) (s t v : K) :
    l.foldl (fun (p : Dbl K × Dbl K × Dbl K) (c : K × K) => (rnd rd (p.1 + rnd rd (fin c.1 * fin c.1)), rnd rd (p.2.1 + rnd rd (fin c.2 * fin c.2)),
      rnd rd (p.2.2 + rnd rd (fin c.1 * fin c.2)))) (fin s, fin t, fin v) =
      (fin (l.foldl (fun s c => rd (s + rd (c.1 * c.1))) s), fin (l.foldl (fun s c => rd (s + rd (c.2 * c.2))) t),
        fin (l.foldl (fun s c => rd (s + rd (c.1 * c.2))) v)) := by
  induction l generalizing s t v with
  | nil => rfl
  | cons c l ih =>
    simp only [List.foldl_cons, fin_mul_fin, fin_add_fin, rnd] at ih ⊢
    exact ih _ _ _

theorem pathAcc_cosineR (a b : List K) (p : List (ℕ × ℕ)) :
    pathAcc (cosineR rd) a b p = (fin (dotR rd Prod.fst Prod.fst (meet a b p)), fin (dotR rd Prod.snd Prod.snd (meet a b p)),
      fin (dotR rd Prod.fst Prod.snd (meet a b p))) := by
  have h := foldl_cosineR (rd := rd) (meet a b p) 0 0 0
  unfold meet at h ⊢
  rw [List.foldl_map] at h
  exact h

/-- A square that does not underflow. -/
theorem sq_ok (hp : FloatOps rd u θ) (hu4 : 4 * u ≤ 1) {x : K} (hx : x ≠ 0) (h : θ ≤ u * (x * x)) :
    0 < rd (x * x) ∧ θ ≤ 2 * u * rd (x * x) := by
  have hu := hp.u_nonneg
  have h0 := hp.θ_nonneg
  have e := abs_le.1 (hp.err (x * x))
  have hxx := mul_self_pos.2 hx
  rw [abs_of_pos hxx] at e
  have hu1 : θ ≤ 1 := le_trans hp.θ_le (pow_le_one₀ hu (by linarith))
  have k : θ ^ 2 ≤ u * (x * x) := by nlinarith
  generalize x * x = z at *
  have k2 : (1 - 2 * u) * z ≤ rd z := by linarith [e.1]
  have k3 : z ≤ 2 * rd z := by nlinarith
  exact ⟨by linarith, by nlinarith⟩

/-- `Cosine` stays finite on numbers whose squares do not underflow. -/
noncomputable def safeCosineR (hp : FloatOps rd u θ) (hu : 8 * u ≤ 1) {m n : ℕ} : Safe (cosineR rd) m n where
  dom := fun x y => (x ≠ 0 ∧ θ ≤ u * (x * x)) ∧ (y ≠ 0 ∧ θ ≤ u * (y * y))
  ok := fun s => ∃ x y z : K, (rd x = x ∧ 0 < x ∧ θ ≤ 2 * u * x) ∧ (rd y = y ∧ 0 < y ∧ θ ≤ 2 * u * y) ∧ s = (fin x, fin y, fin z)
  val := fun s => rd (Dbl.toFin s.2.2 / rd (HasSqrt.sqrt (rd (Dbl.toFin s.1 * Dbl.toFin s.2.1))))
  ok_first := by
    rintro x y ⟨⟨hx, ex⟩, hy, ey⟩
    have a := sq_ok hp (by linarith [hp.u_nonneg]) hx ex
    have b := sq_ok hp (by linarith [hp.u_nonneg]) hy ey
    exact ⟨rd (x * x), rd (y * y), rd (x * y), ⟨hp.idem _, a⟩, ⟨hp.idem _, b⟩, by simp [cosineR, zero_def, rnd, hp.idem]⟩
  ok_step := by
    rintro s x y ⟨⟨hx, ex⟩, hy, ey⟩ ⟨p, q, z, ⟨fp, p0, tp⟩, ⟨fq, q0, tq⟩, rfl⟩
    have u0 := hp.u_nonneg
    have a := hp.toRounding.add_le fp (hp.toRounding.nonneg (mul_self_nonneg x))
    have b := hp.toRounding.add_le fq (hp.toRounding.nonneg (mul_self_nonneg y))
    refine ⟨rd (p + rd (x * x)), rd (q + rd (y * y)), rd (z + rd (x * y)), ⟨hp.idem _, lt_of_lt_of_le p0 a, ?_⟩,
      ⟨hp.idem _, lt_of_lt_of_le q0 b, ?_⟩, by simp [cosineR, rnd]⟩
    · exact le_trans tp (mul_le_mul_of_nonneg_left a (by linarith))
    · exact le_trans tq (mul_le_mul_of_nonneg_left b (by linarith))
  norm_val := by
    rintro s ⟨p, q, z, ⟨-, p0, tp⟩, ⟨-, q0, tq⟩, rfl⟩
    have u0 := hp.u_nonneg
    have t0 := hp.θ_nonneg
    have h := mul_pos p0 q0
    have e := abs_le.1 (hp.err (p * q))
    rw [abs_of_pos h] at e
    have k : θ ^ 2 ≤ 4 * (u * u) * (p * q) := by
      have := mul_le_mul tp tq t0 (le_trans t0 tp)
      nlinarith
    have uu : 8 * (u * u) ≤ u := by nlinarith
    have k1 : 8 * (u * u) * (p * q) ≤ u * (p * q) := mul_le_mul_of_nonneg_right uu (le_of_lt h)
    have k2 : 8 * u * (p * q) ≤ 1 * (p * q) := mul_le_mul_of_nonneg_right hu (le_of_lt h)
    have R0 : p * q ≤ 4 * rd (p * q) := by nlinarith [e.1]
    have R1 : 0 < rd (p * q) := by linarith
    have s0 := sqrt_pos' R1
    have ss := LawfulSqrt.mul_self (le_of_lt R1)
    have ts : θ ≤ 4 * u * HasSqrt.sqrt (rd (p * q)) := by
      refine nonneg_le_nonneg_of_sq_le_sq (by positivity) ?_
      have : 16 * (u * u) * (HasSqrt.sqrt (rd (p * q)) * HasSqrt.sqrt (rd (p * q))) ≥ θ * θ := by
        rw [ss]
        nlinarith [mul_le_mul_of_nonneg_left R0 (mul_nonneg u0 u0)]
      nlinarith
    have es := abs_le.1 (hp.err (HasSqrt.sqrt (rd (p * q))))
    rw [abs_of_pos s0] at es
    have V0 : 0 < rd (HasSqrt.sqrt (rd (p * q))) := by
      have t1 : θ ≤ 1 := le_trans hp.θ_le (pow_le_one₀ u0 (by linarith))
      have : θ ^ 2 ≤ 4 * u * HasSqrt.sqrt (rd (p * q)) := by nlinarith
      nlinarith [es.1]
    simp only [cosineR, fin_mul_fin, rnd, sqrt_fin (le_of_lt R1), fin_div_fin (ne_of_gt V0), Dbl.toFin_fin]

end

end Genex
