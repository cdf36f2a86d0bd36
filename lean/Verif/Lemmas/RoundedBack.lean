import Verif.Lemmas.RoundedError

/-! The alignment returned by the trace-back, with rounding. -/

set_option linter.unusedSectionVars false

namespace Genex

open Dbl Spec

variable {K : Type} [Field K] [LinearOrder K] [IsStrictOrderedRing K] {rd : K → K} {u : K} {P : K → Prop} {η : K}

/-- With every cell filled, the traced path costs at most a factor more than the cell. -/
theorem back_near {M : DM K} {a b : List K} {r : ℕ} {L : Safe M a.length b.length} (raw : M.S → K) {δ : K → K → K} {Θ κ : K}
    (hδ : ∀ x y, 0 ≤ δ x y) (hΘ : 1 ≤ Θ) (hκ : 0 ≤ κ) (ha : ∀ i, P (a.getD i 0)) (hb : ∀ i, P (b.getD i 0))
    (h0 : ∀ x y, P x → P y → δ x y ≤ Θ * (raw (M.reduce M.init (fin x) (fin y)) + κ))
    (h1 : ∀ s t x y, P x → P y → L.ok s → L.ok t → L.val s ≤ L.val t → raw s + δ x y ≤ Θ * (raw (M.reduce t (fin x) (fin y)) + κ))
    {mt : Mat M} (h : Filled a b r L a.length 0 mt)
    (hall : ∀ i j, i < a.length → j < b.length → Allowed a.length b.length r i j) (fuel : ℕ) (c : ℕ × ℕ)
    (hf : c.1 + c.2 ≤ fuel) (hc1 : c.1 < a.length) (hc2 : c.2 < b.length) :
    ∃ s, mt.cost c.1 c.2 = some s ∧ L.ok s ∧
      pathCost δ a b (backPath mt.ncost fuel c).reverse ≤ Θ ^ (backPath mt.ncost fuel c).length * (raw s + (backPath mt.ncost fuel c).length * κ) := by
  have base : ∀ (h1 : 0 < a.length) (h2 : 0 < b.length), ∃ s, mt.cost 0 0 = some s ∧ L.ok s ∧
      pathCost δ a b [(0, 0)] ≤ Θ ^ 1 * (raw s + (1 : ℕ) * κ) := by
    intro h1 h2
    obtain ⟨s, k1, k2, k3, k4⟩ := h.cell 0 0 h1 h2 (hall _ _ h1 h2) (by omega)
    rcases k4 with ⟨-, -, rfl⟩ | ⟨pi, pj, sp, g1, -⟩
    · refine ⟨_, k1, k2, ?_⟩
      simpa [pathCost] using h0 _ _ (ha 0) (hb 0)
    · rw [step_iff] at g1; omega
  induction fuel generalizing c with
  | zero =>
    have : c = (0, 0) := by ext <;> simp <;> omega
    subst this
    exact base hc1 hc2
  | succ fuel ih =>
    unfold backPath
    by_cases hc : c = (0, 0)
    · subst hc
      exact base hc1 hc2
    · have hs := backStep_step h.nonan hc
      have hlt := step_sum hs
      have hmin := fun p => backStep_min h.nonan hc (p := p)
      set d := backStep mt.ncost c with hd
      have hs' : Step (d.1, d.2) (c.1, c.2) := hs
      have hs'' := step_iff.1 hs'
      obtain ⟨sd, e1, e0, e2⟩ := ih d (by omega) (by omega) (by omega)
      obtain ⟨s, k1, k2, k3, k4⟩ := h.cell c.1 c.2 hc1 hc2 (hall _ _ hc1 hc2) (Or.inl hc1)
      refine ⟨s, k1, k2, ?_⟩
      rw [if_neg hc, List.reverse_cons, pathCost_snoc, List.length_cons]
      rcases k4 with ⟨g1, g2, rfl⟩ | ⟨pi, pj, sp, g1, g2, g3, g4, rfl, g5⟩
      · exact absurd (Prod.ext g1 g2) hc
      · have g1' := step_iff.1 g1
        obtain ⟨sd', f1, f2, f3, -⟩ := h.cell d.1 d.2 (by omega) (by omega) (hall _ _ (by omega) (by omega)) (by omega)
        rw [e1, Option.some.injEq] at f1
        subst f1
        obtain ⟨sp', u1, u2, u3, -⟩ := h.cell pi pj (by omega) (by omega) g2 (by omega)
        rw [g3, Option.some.injEq] at u1
        subst u1
        have hle := hmin _ g1
        rw [f3, u3, fin_le_fin] at hle
        have hstep := h1 _ _ _ _ (ha c.1) (hb c.2) e0 g4 hle
        have hdn := hδ (a.getD c.1 0) (b.getD c.2 0)
        generalize (backPath mt.ncost fuel d).length = l at e2 ⊢
        generalize raw (M.reduce sp (fin (a.getD c.1 0)) (fin (b.getD c.2 0))) = R at hstep ⊢
        have hpw : 1 ≤ Θ ^ l := one_le_pow₀ hΘ
        have hlκ : 0 ≤ (l : K) * κ := mul_nonneg (Nat.cast_nonneg _) hκ
        calc _ ≤ Θ ^ l * (raw sd + l * κ) + Θ ^ l * δ (a.getD c.1 0) (b.getD c.2 0) :=
              add_le_add e2 (le_mul_of_one_le_left hdn hpw)
          _ = Θ ^ l * (raw sd + δ (a.getD c.1 0) (b.getD c.2 0) + l * κ) := by ring
          _ ≤ Θ ^ l * (Θ * (R + κ) + Θ * (l * κ)) :=
              mul_le_mul_of_nonneg_left (add_le_add hstep (le_mul_of_one_le_left hlκ hΘ)) (by linarith)
          _ = Θ ^ (l + 1) * (R + ((l + 1 : ℕ) : K) * κ) := by push_cast; ring

/-- The whole run: the alignment returned, and its cost. -/
theorem warped_back {M : DM K} {a b : List K} {r : ℕ} [BandOps] {ratio : ℚ} (L : Grow M a.length b.length) (raw : M.S → K) {δ : K → K → K}
    {Θ κ : K} (hδ : ∀ x y, 0 ≤ δ x y) (hΘ : 1 ≤ Θ) (hκ : 0 ≤ κ) (hPa : ∀ i, P (a.getD i 0)) (hPb : ∀ i, P (b.getD i 0))
    (h0 : ∀ x y, P x → P y → δ x y ≤ Θ * (raw (M.reduce M.init (fin x) (fin y)) + κ))
    (h1 : ∀ s t x y, P x → P y → L.ok s → L.ok t → L.val s ≤ L.val t → raw s + δ x y ≤ Θ * (raw (M.reduce t (fin x) (fin y)) + κ))
    (hr : band ratio (max a.length b.length : ℕ) = (r : Int))
    (hall : ∀ i j, i < a.length → j < b.length → Allowed a.length b.length r i j) (hm : 1 ≤ a.length) (hn : 1 ≤ b.length)
    (hmn : ¬ (a.length = 1 ∧ b.length = 1)) (hraw : ∀ s, L.ok s → 0 ≤ raw s) :
    ∃ s p, PathTo (a.length - 1, b.length - 1) p ∧ L.ok s ∧
      warpedDistance M ratio (a.map fin) (b.map fin) .inf [] = .ok (fin (L.val s), p) ∧
      pathCost δ a b p ≤ Θ ^ (a.length + b.length - 1) * (raw s + ((a.length + b.length : ℕ) : K) * κ) := by
  obtain ⟨mtF, f1, f2, -⟩ := warped_run L.toSafe (fun _ _ _ _ => L.all _ _) hr hm hn hmn
  have hp := backPath_path f1.nonan (a.length - 1 + (b.length - 1)) (a.length - 1, b.length - 1) (le_refl _)
  obtain ⟨s, g1, g2, g3⟩ := back_near (L := L.toSafe) raw hδ hΘ hκ hPa hPb h0 h1 f1 hall (a.length - 1 + (b.length - 1))
    (a.length - 1, b.length - 1) (le_refl _) (by simp only; omega) (by simp only; omega)
  obtain ⟨s'', c1, c2, c3, -⟩ := f1.cell (a.length - 1) (b.length - 1) (by omega) (by omega)
    (hall _ _ (by omega) (by omega)) (by omega)
  rw [g1, Option.some.injEq] at c1
  subst c1
  refine ⟨s, _, hp, g2, by rw [f2, c3]; simp, le_trans g3 ?_⟩
  have hlen := hp.length_le
  rw [List.length_reverse] at hlen
  simp only at hlen
  generalize (backPath mtF.ncost (a.length - 1 + (b.length - 1)) (a.length - 1, b.length - 1)).length = l at hlen
  have hlw : (l : K) ≤ ((a.length + b.length : ℕ) : K) := by exact_mod_cast (by omega)
  refine mul_le_mul (pow_le_pow_right₀ hΘ (by omega)) (add_le_add_right (mul_le_mul_of_nonneg_right hlw hκ) _)
    (add_nonneg (hraw _ g2) (mul_nonneg (Nat.cast_nonneg _) hκ)) (pow_nonneg (by linarith) _)

theorem allowed_full [BandOps] {ratio : ℚ} (hr : 1 ≤ ratio) {m n : ℕ} (hmn : 1 ≤ max m n) :
    ∀ i j, i < m → j < n → Allowed m n (bandWidth ratio (max m n)) i j := by
  intro i j hi hj
  have hfull : bandWidth ratio (max m n) = max m n - 1 := by
    unfold bandWidth
    have := Nat.le_floor (BandOps.full ratio (max m n) hr)
    omega
  rw [hfull]
  unfold Allowed inB
  omega

section
variable (hrd : Rounding rd) (hp : ErrOn P rd u η) (hu : 0 ≤ u) (hu1 : u < 1)
include hrd hp hu hu1
variable (hη : 0 ≤ η) {a b : List K} (hPa : ∀ i, P (a.getD i 0)) (hPb : ∀ i, P (b.getD i 0))
include hη hPa hPb

/-- The Manhattan cost of the returned alignment. -/
theorem manhattanR_back [BandOps] {ratio : ℚ} (hr : 1 ≤ ratio) (ha : 1 ≤ a.length) (hb : 1 ≤ b.length)
    (hmn : ¬ (a.length = 1 ∧ b.length = 1)) (hu3 : 3 * u ≤ 1) :
    ∃ x p, PathTo (a.length - 1, b.length - 1) p ∧ warpedDistance (manhattanR rd) ratio (a.map fin) (b.map fin) .inf [] = .ok (fin x, p) ∧
      0 ≤ x ∧ absCost a b p / ((2 * max a.length b.length : ℕ) : K) ≤
        ((1 + u) / (1 - u)) ^ (2 * (a.length + b.length)) * (x + 4 * ((a.length + b.length : ℕ) * η)) := by
  have hbw := band_eq_bandWidth (le_trans zero_le_one hr) (len := max a.length b.length) (by omega)
  have hN := maxlen_pos (K := K) (m := a.length) (n := b.length) (by omega)
  have hw1 : (1 : K) ≤ ((a.length + b.length : ℕ) : K) := by exact_mod_cast (by omega : 1 ≤ a.length + b.length)
  set N : K := ((2 * max a.length b.length : ℕ) : K)
  set ρ := (1 + u) / (1 - u) with hρ
  have hρ1 : 1 ≤ ρ := rho_one hu hu1
  have hm : 0 < 1 - u := by linarith
  have h2 : ρ * (1 - u) = 1 + u := by rw [hρ]; field_simp
  -- dividing by `1 - u`
  have over : ∀ x y : K, 0 ≤ y → (1 - u) * x ≤ y → x ≤ ρ * y := by
    intro x y hy h
    have h1 : (1 - u) * x ≤ (1 - u) * (ρ * y) := by
      calc _ ≤ y := h
        _ ≤ (1 + u) * y := le_mul_of_one_le_left hy (by linarith)
        _ = _ := by rw [← h2]; ring
    exact le_of_mul_le_mul_left h1 hm
  have hκ : 0 ≤ 3 * (N * η) := by have := mul_nonneg (le_of_lt hN) hη; linarith
  have sel : ∀ s t : K, 0 ≤ s → 0 ≤ t → rd (s / N) ≤ rd (t / N) → s ≤ ρ * t + 3 * (N * η) := by
    intro s t hs ht h
    have h1 := select hp hu hu1 hN hs ht h
    have h3 : 2 * N * η ≤ (1 - u) * (3 * (N * η)) := by nlinarith [mul_nonneg (le_of_lt hN) hη]
    have h4 : (1 - u) * s ≤ (1 - u) * (ρ * t + 3 * (N * η)) := by
      calc _ ≤ (ρ * (1 - u)) * t + (1 - u) * (3 * (N * η)) := by rw [h2]; linarith
        _ = _ := by ring
    exact le_of_mul_le_mul_left h4 hm
  have step : ∀ s t x y : K, P x → P y → 0 ≤ t → rd t = t → s ≤ ρ * t + 3 * (N * η) →
      s + |x - y| ≤ ρ ^ 2 * (rd (t + |rd (x - y)|) + 3 * (N * η)) := by
    intro s t x y hx hy ht hf h
    have h1 := (absR hp hu hu1 hx hy).1
    rw [pow_one] at h1
    have h3 : |x - y| ≤ ρ * |rd (x - y)| := over _ _ (abs_nonneg _) h1
    have hR := le_rd_add hp ht (abs_nonneg (rd (x - y))) hf (by rw [hrd.abs, hrd.idem])
    have hR0 : 0 ≤ rd (t + |rd (x - y)|) := hrd.nonneg (add_nonneg ht (abs_nonneg _))
    have h4 := over _ _ hR0 hR
    calc s + |x - y| ≤ ρ * (t + |rd (x - y)|) + 3 * (N * η) := by linarith
      _ ≤ ρ * (ρ * rd (t + |rd (x - y)|)) + ρ ^ 2 * (3 * (N * η)) :=
          add_le_add (mul_le_mul_of_nonneg_left h4 (by linarith)) (le_mul_of_one_le_left hκ (one_le_pow₀ hρ1))
      _ = _ := by ring
  obtain ⟨s, p, p1, p2, p3, p4⟩ := warped_back (growManhattanR hrd (by omega)) Dbl.toFin (δ := fun x y => |x - y|) (Θ := ρ ^ 2)
    (κ := 3 * (N * η)) (fun _ _ => abs_nonneg _) (one_le_pow₀ hρ1) hκ hPa hPb (fun x y hx hy => by
      have := step 0 0 x y hx hy (le_refl _) hrd.zero (by simpa using hκ)
      simp only [manhattanR, fin_sub_fin, rnd_fin, abs_fin, zero_def, fin_add_fin, Dbl.toFin_fin]
      simpa using this)
    (by
      rintro s t x y hx hy ⟨s', hs, hf, rfl⟩ ⟨t', ht, hf', rfl⟩ hle
      simp only [manhattanR, fin_sub_fin, rnd_fin, abs_fin, fin_add_fin, Dbl.toFin_fin]
      exact step _ _ _ _ hx hy ht hf' (sel _ _ hs ht hle)) hbw (allowed_full hr (by omega)) ha hb hmn
    (by rintro s ⟨s', hs, -, rfl⟩; exact hs)
  obtain ⟨s', hs, -, rfl⟩ := p2
  refine ⟨_, p, p1, p3, hrd.nonneg (div_nonneg hs (le_of_lt hN)), ?_⟩
  change _ ≤ _ * (rd (s' / N) + _)
  rw [absCost_eq]
  rw [Dbl.toFin_fin] at p4
  have hq := le_rd hp (div_nonneg hs (le_of_lt hN))
  have hq0 : 0 ≤ rd (s' / N) := hrd.nonneg (div_nonneg hs (le_of_lt hN))
  have h5 : s' / N ≤ ρ * (rd (s' / N) + η) := over _ _ (by linarith) (by linarith)
  generalize rd (s' / N) = x at h5 hq0 ⊢
  generalize a.length + b.length = w at p4 hw1 ⊢
  have hw : 1 ≤ w := by exact_mod_cast hw1
  rw [div_le_iff₀ hN]
  have e : ρ ^ (2 * w) = ρ * (ρ * (ρ ^ 2) ^ (w - 1)) := by
    rw [← pow_mul, ← pow_succ', ← pow_succ']
    congr 1
    omega
  have hpw : 0 ≤ (ρ ^ 2) ^ (w - 1) := pow_nonneg (by positivity) _
  have hwη : η ≤ (w : K) * η := le_mul_of_one_le_left hη hw1
  refine le_trans p4 ?_
  calc (ρ ^ 2) ^ (w - 1) * (s' + w * (3 * (N * η))) = (ρ ^ 2) ^ (w - 1) * ((s' / N + 3 * (w * η)) * N) := by field_simp
    _ ≤ (ρ ^ 2) ^ (w - 1) * ((ρ * (x + η) + ρ * (3 * (w * η))) * N) := by
        refine mul_le_mul_of_nonneg_left (mul_le_mul_of_nonneg_right (add_le_add h5 ?_) (le_of_lt hN)) hpw
        exact le_mul_of_one_le_left (by linarith) hρ1
    _ = ρ * (ρ ^ 2) ^ (w - 1) * ((x + η + 3 * (w * η)) * N) := by ring
    _ ≤ ρ * (ρ * (ρ ^ 2) ^ (w - 1)) * ((x + 4 * (w * η)) * N) := by
        have g0 : 0 ≤ ρ * (ρ ^ 2) ^ (w - 1) := mul_nonneg (by linarith) hpw
        refine mul_le_mul (le_mul_of_one_le_left g0 hρ1) (mul_le_mul_of_nonneg_right (by linarith) (le_of_lt hN))
          (mul_nonneg (by linarith) (le_of_lt hN)) (mul_nonneg (by linarith) g0)
    _ = _ := by rw [e]; ring

/-- The Euclidean cost of the returned alignment. -/
theorem euclideanR_back [HasSqrt K] [LawfulSqrt K] [BandOps] {ratio : ℚ} (hr : 1 ≤ ratio) (ha : 1 ≤ a.length) (hb : 1 ≤ b.length)
    (hmn : ¬ (a.length = 1 ∧ b.length = 1)) {θ : K} (hθ0 : 0 ≤ θ) (hθ : η ≤ θ * θ) (hηu : η ≤ u ^ 3)
    (hw12 : 12 * ((a.length + b.length : ℕ) * u) ≤ 1) :
    ∃ x p, PathTo (a.length - 1, b.length - 1) p ∧ warpedDistance (euclideanR rd) ratio (a.map fin) (b.map fin) .inf [] = .ok (fin x, p) ∧
      0 ≤ x ∧ HasSqrt.sqrt (sqCost a b p) / ((2 * max a.length b.length : ℕ) : K) ≤
        ((1 + u) / (1 - u)) ^ (3 * (a.length + b.length)) * (x + 2 * η + θ) := by
  have hbw := band_eq_bandWidth (le_trans zero_le_one hr) (len := max a.length b.length) (by omega)
  have hN := maxlen_pos (K := K) (m := a.length) (n := b.length) (by omega)
  have hN2 : (2 : K) ≤ ((2 * max a.length b.length : ℕ) : K) := by exact_mod_cast (by omega : 2 ≤ 2 * max a.length b.length)
  have hwN : ((a.length + b.length : ℕ) : K) ≤ ((2 * max a.length b.length : ℕ) : K) := by
    exact_mod_cast (by omega : a.length + b.length ≤ 2 * max a.length b.length)
  have hNw : ((2 * max a.length b.length : ℕ) : K) ≤ 2 * ((a.length + b.length : ℕ) : K) := by
    exact_mod_cast (by omega : 2 * max a.length b.length ≤ 2 * (a.length + b.length))
  have hw2 : (2 : K) ≤ ((a.length + b.length : ℕ) : K) := by exact_mod_cast (by omega : 2 ≤ a.length + b.length)
  set N : K := ((2 * max a.length b.length : ℕ) : K)
  set ρ := (1 + u) / (1 - u) with hρ
  have hu24 : 24 * u ≤ 1 := by have := mul_le_mul_of_nonneg_right hw2 hu; linarith
  have hρ1 : 1 ≤ ρ := rho_one hu hu1
  have hρ0 : 0 ≤ ρ := by linarith
  have hm : 0 < 1 - u := by linarith
  have hNu : 6 * (N * u) ≤ 1 := by have := mul_le_mul_of_nonneg_right hNw hu; linarith
  have h2 : ρ * (1 - u) = 1 + u := by rw [hρ]; field_simp
  have over : ∀ x y : K, 0 ≤ y → (1 - u) * x ≤ y → x ≤ ρ * y := by
    intro x y hy h
    have h1 : (1 - u) * x ≤ (1 - u) * (ρ * y) := by
      calc _ ≤ y := h
        _ ≤ (1 + u) * y := le_mul_of_one_le_left hy (by linarith)
        _ = _ := by rw [← h2]; ring
    exact le_of_mul_le_mul_left h1 hm
  have sel : ∀ s t : K, 0 ≤ s → 0 ≤ t → rd (rd (HasSqrt.sqrt s) / N) ≤ rd (rd (HasSqrt.sqrt t) / N) → s ≤ ρ ^ 5 * t + η :=
    fun s t hs ht h => selectE hrd hp hu hu24 hη hηu hN2 hNu hs ht h
  have hκ : 0 ≤ 2 * η := by linarith
  have step : ∀ s t x y : K, P x → P y → 0 ≤ t → rd t = t → s ≤ ρ ^ 5 * t + η →
      s + (x - y) ^ 2 ≤ ρ ^ 6 * (rd (t + sqR rd x y) + 2 * η) := by
    intro s t x y hx hy ht hf h
    have h1 := (sqR_error hp hu hu1 hx hy).1
    have hq0 := sqR_nonneg hrd x y
    have hqη : 0 ≤ sqR rd x y + η := by linarith
    have h3 : (x - y) ^ 2 ≤ ρ ^ 3 * (sqR rd x y + η) := by
      have e1 : (1 - u) * ((1 - u) * ((1 - u) * (x - y) ^ 2)) ≤ sqR rd x y + η := by
        calc _ = (1 - u) ^ 3 * (x - y) ^ 2 := by ring
          _ ≤ _ := by linarith
      have e2 := over _ _ hqη e1
      have e3 := over _ _ (mul_nonneg hρ0 hqη) e2
      have e4 := over _ _ (mul_nonneg hρ0 (mul_nonneg hρ0 hqη)) e3
      calc _ ≤ _ := e4
        _ = _ := by ring
    have h3' : ρ ^ 3 * (sqR rd x y + η) ≤ ρ ^ 5 * (sqR rd x y + η) :=
      mul_le_mul_of_nonneg_right (pow_le_pow_right₀ hρ1 (by omega)) hqη
    have hR := le_rd_add hp ht hq0 hf (hrd.idem _)
    have hR0 : 0 ≤ rd (t + sqR rd x y) := hrd.nonneg (add_nonneg ht hq0)
    have h4 := over _ _ hR0 hR
    have h5 : η ≤ ρ ^ 6 * η := le_mul_of_one_le_left hη (one_le_pow₀ hρ1)
    have h6 : ρ ^ 5 * η ≤ ρ ^ 6 * η := mul_le_mul_of_nonneg_right (pow_le_pow_right₀ hρ1 (by omega)) hη
    calc s + (x - y) ^ 2 ≤ ρ ^ 5 * (t + sqR rd x y) + ρ ^ 5 * η + η := by linarith
      _ ≤ ρ ^ 5 * (ρ * rd (t + sqR rd x y)) + ρ ^ 6 * η + ρ ^ 6 * η :=
          add_le_add (add_le_add (mul_le_mul_of_nonneg_left h4 (by positivity)) h6) h5
      _ = _ := by ring
  obtain ⟨s, p, p1, p2, p3, p4⟩ := warped_back (growEuclideanR hrd (by omega)) Dbl.toFin (δ := fun x y => (x - y) ^ 2) (Θ := ρ ^ 6)
    (κ := 2 * η) (fun _ _ => sq_nonneg _) (one_le_pow₀ hρ1) hκ hPa hPb (fun x y hx hy => by
      have := step 0 0 x y hx hy (le_refl _) hrd.zero (by simpa using hη)
      simp only [euclideanR, eucDistR_fin, rnd_fin, zero_def, fin_add_fin, Dbl.toFin_fin]
      simpa using this)
    (by
      rintro s t x y hx hy ⟨s', hs, hf, rfl⟩ ⟨t', ht, hf', rfl⟩ hle
      simp only [euclideanR, eucDistR_fin, rnd_fin, fin_add_fin, Dbl.toFin_fin]
      exact step _ _ _ _ hx hy ht hf' (sel _ _ hs ht hle)) hbw (allowed_full hr (by omega)) ha hb hmn
    (by rintro s ⟨s', hs, -, rfl⟩; exact hs)
  obtain ⟨s', hs, -, rfl⟩ := p2
  have hsq := LawfulSqrt.sqrt_nonneg hs
  have hx0 : 0 ≤ rd (rd (HasSqrt.sqrt s') / N) := hrd.nonneg (div_nonneg (hrd.nonneg hsq) (le_of_lt hN))
  refine ⟨_, p, p1, p3, hx0, ?_⟩
  change _ ≤ _ * (rd (rd (HasSqrt.sqrt s') / N) + _ + _)
  rw [sqCost_eq]
  rw [Dbl.toFin_fin] at p4
  -- the value of the cell
  have hN1 : η / N ≤ η := by rw [div_le_iff₀ hN]; nlinarith
  have hv : HasSqrt.sqrt s' / N ≤ ρ ^ 2 * (rd (rd (HasSqrt.sqrt s') / N) + 2 * η) := by
    have g1 := le_rd hp (div_nonneg (hrd.nonneg hsq) (le_of_lt hN))
    have g2 := div_le_div_of_nonneg_right (le_rd hp hsq) (le_of_lt hN)
    have g3 := mul_le_mul_of_nonneg_left g2 (le_of_lt hm)
    have g4 : (1 - u) * ((1 - u) * (HasSqrt.sqrt s' / N)) ≤ rd (rd (HasSqrt.sqrt s') / N) + 2 * η := by
      have e1 : (1 - u) * (((1 - u) * HasSqrt.sqrt s' - η) / N) = (1 - u) * ((1 - u) * (HasSqrt.sqrt s' / N)) - (1 - u) * (η / N) := by
        field_simp
      have e2 : (1 - u) * (η / N) ≤ η :=
        le_trans (mul_le_of_le_one_left (div_nonneg hη (le_of_lt hN)) (by linarith)) hN1
      linarith
    have g5 := over _ _ (by linarith) g4
    have g6 := over _ _ (mul_nonneg hρ0 (by linarith)) g5
    calc _ ≤ _ := g6
      _ = _ := by ring
  generalize rd (rd (HasSqrt.sqrt s') / N) = x at hv hx0 ⊢
  generalize a.length + b.length = w at p4 hw2 hwN ⊢
  have hw : 2 ≤ w := by exact_mod_cast hw2
  have habs : (w : K) * (2 * η) ≤ N * θ * (N * θ) := by
    have h2 : (w : K) * 2 ≤ N * N := by nlinarith
    calc (w : K) * (2 * η) = ((w : K) * 2) * η := by ring
      _ ≤ (N * N) * (θ * θ) := mul_le_mul h2 hθ hη (mul_nonneg (le_of_lt hN) (le_of_lt hN))
      _ = _ := by ring
  have hNθ : 0 ≤ N * θ := mul_nonneg (le_of_lt hN) hθ0
  have hwη : 0 ≤ (w : K) * (2 * η) := mul_nonneg (by linarith) hκ
  have hpw : 0 ≤ ρ ^ (3 * (w - 1)) := pow_nonneg hρ0 _
  have hcp := pathCost_nonneg (fun x y : K => sq_nonneg (x - y)) a b p
  have k1 : HasSqrt.sqrt (pathCost (fun x y => (x - y) ^ 2) a b p) ≤ ρ ^ (3 * (w - 1)) * (HasSqrt.sqrt s' + N * θ) := by
    have e : (ρ ^ 6) ^ (w - 1) = ρ ^ (3 * (w - 1)) * ρ ^ (3 * (w - 1)) := by rw [← pow_mul, ← pow_add]; congr 1; omega
    rw [e] at p4
    refine le_trans (sqrt_mono hcp p4) ?_
    rw [sqrt_mul_sq hpw (by linarith)]
    exact mul_le_mul_of_nonneg_left (sqrt_le_add (by linarith) hs hNθ (by linarith)) hpw
  rw [div_le_iff₀ hN]
  refine le_trans k1 ?_
  have e : ρ ^ (3 * w) = ρ * (ρ ^ 2 * ρ ^ (3 * (w - 1))) := by
    rw [← pow_add, ← pow_succ']
    congr 1
    omega
  have hρ2 : 1 ≤ ρ ^ 2 := one_le_pow₀ hρ1
  calc ρ ^ (3 * (w - 1)) * (HasSqrt.sqrt s' + N * θ) = ρ ^ (3 * (w - 1)) * ((HasSqrt.sqrt s' / N + θ) * N) := by field_simp
    _ ≤ ρ ^ (3 * (w - 1)) * ((ρ ^ 2 * (x + 2 * η) + ρ ^ 2 * θ) * N) := by
        refine mul_le_mul_of_nonneg_left (mul_le_mul_of_nonneg_right (add_le_add hv ?_) (le_of_lt hN)) hpw
        exact le_mul_of_one_le_left hθ0 hρ2
    _ = ρ ^ 2 * ρ ^ (3 * (w - 1)) * ((x + 2 * η + θ) * N) := by ring
    _ ≤ ρ * (ρ ^ 2 * ρ ^ (3 * (w - 1))) * ((x + 2 * η + θ) * N) := by
        refine mul_le_mul_of_nonneg_right (le_mul_of_one_le_left (mul_nonneg (by linarith) hpw) hρ1) ?_
        exact mul_nonneg (by linarith) (le_of_lt hN)
    _ = _ := by rw [e]; ring

end

/-- The Chebyshev cost of the returned alignment, rounded, is the value returned. -/
theorem chebyshevR_back (hrd : Rounding rd) {a b : List K} [BandOps] {ratio : ℚ} (hr : 1 ≤ ratio) (ha : 1 ≤ a.length) (hb : 1 ≤ b.length)
    (hmn : ¬ (a.length = 1 ∧ b.length = 1)) :
    ∃ p, PathTo (a.length - 1, b.length - 1) p ∧
      warpedDistance (chebyshevR rd) ratio (a.map fin) (b.map fin) .inf [] = .ok (fin (rd (maxCost a b p)), p) := by
  have hbw := band_eq_bandWidth (le_trans zero_le_one hr) (len := max a.length b.length) (by omega)
  have hall := allowed_full hr (m := a.length) (n := b.length) (by omega)
  set L : Mono (chebyshevR rd) a.length b.length := monoChebyshevR with hL
  obtain ⟨mtF, f1, f2, -⟩ := warped_run L.toSafe (fun _ _ _ _ => L.all _ _) hbw (by omega) (by omega) (by omega)
  have hp := backPath_path f1.nonan (a.length - 1 + (b.length - 1)) (a.length - 1, b.length - 1) (le_refl _)
  obtain ⟨s, g1, g2⟩ := backPath_attains (L := L) f1 hall _ (a.length - 1, b.length - 1) (le_refl _)
    (by simp only; omega) (by simp only; omega)
  have hin : ∀ x ∈ (backPath mtF.ncost (a.length - 1 + (b.length - 1)) (a.length - 1, b.length - 1)).reverse,
      x.1 < a.length ∧ x.2 < b.length ∧
        Allowed a.length b.length (bandWidth ratio (max a.length b.length)) x.1 x.2 := by
    intro x hx
    have := hp.bound x hx
    simp only at this
    exact ⟨by omega, by omega, hall _ _ (by omega) (by omega)⟩
  obtain ⟨s', k1, k2, k3⟩ := lower (L := L) f1 hp hin
  rw [g1, Option.some.injEq] at k1
  subst k1
  obtain ⟨s'', c1, c2, c3, -⟩ := f1.cell (a.length - 1) (b.length - 1) (by omega) (by omega)
    (hall _ _ (by omega) (by omega)) (by omega)
  rw [g1, Option.some.injEq] at c1
  subst c1
  refine ⟨_, hp, ?_⟩
  rw [f2]
  simp only [List.reverse_nil, List.append_nil]
  rw [c3, ← valCR hrd a b (m := a.length) (n := b.length) _ _ hp, ← hL, le_antisymm k3 g2]

end Genex
