import Verif.Lemmas.Rounded
import Verif.Lemmas.Exact

/-! Rounding errors of the distances. -/

set_option linter.unusedSectionVars false

namespace Genex

open Dbl Spec

variable {K : Type} [Field K] [LinearOrder K] [IsStrictOrderedRing K] {rd : K → K} {u : K}

/-- Errors on operands with `P`. -/
structure ErrOn (P : K → Prop) (rd : K → K) (u η : K) : Prop where
  err : ∀ x, |rd x - x| ≤ u * |x| + η
  sub : ∀ x y, P x → P y → |rd (x - y) - (x - y)| ≤ u * |x - y|
  add : ∀ x y, rd x = x → rd y = y → |rd (x + y) - (x + y)| ≤ u * |x + y|

theorem Spec.FloatOps.on {θ : K} (h : FloatOps rd u θ) : ErrOn (fun x => rd x = x) rd u (θ ^ 2) :=
  ⟨h.err, fun x y hx hy => by
    have := h.add x (-y) hx (by rw [h.neg, hy])
    rwa [← sub_eq_add_neg] at this, h.add⟩

theorem Spec.Floats.getD {a : List K} (h : Floats rd a) (hrd : Rounding rd) (i : ℕ) : rd (a.getD i 0) = a.getD i 0 := by
  rw [List.getD_eq_getElem?_getD]
  rcases e : a[i]? with _ | x
  · exact hrd.zero
  · exact h _ (List.mem_of_getElem? e)

variable {P : K → Prop} {η : K}

section
variable (hp : ErrOn P rd u η)
include hp

theorem rd_le {x : K} (hx : 0 ≤ x) : rd x ≤ (1 + u) * x + η := by
  have := abs_le.1 (hp.err x)
  rw [abs_of_nonneg hx] at this
  linarith [this.2]

theorem le_rd {x : K} (hx : 0 ≤ x) : (1 - u) * x - η ≤ rd x := by
  have := abs_le.1 (hp.err x)
  rw [abs_of_nonneg hx] at this
  linarith [this.1]

theorem rd_add_le {x y : K} (hx : 0 ≤ x) (hy : 0 ≤ y) (ex : rd x = x) (ey : rd y = y) : rd (x + y) ≤ (1 + u) * (x + y) := by
  have := abs_le.1 (hp.add x y ex ey)
  rw [abs_of_nonneg (add_nonneg hx hy)] at this
  linarith [this.2]

theorem le_rd_add {x y : K} (hx : 0 ≤ x) (hy : 0 ≤ y) (ex : rd x = x) (ey : rd y = y) : (1 - u) * (x + y) ≤ rd (x + y) := by
  have := abs_le.1 (hp.add x y ex ey)
  rw [abs_of_nonneg (add_nonneg hx hy)] at this
  linarith [this.1]

end

/-- Cost of a path. -/
def pathCost (δ : K → K → K) (a b : List K) (p : List (ℕ × ℕ)) : K :=
  (p.map fun c => δ (a.getD c.1 0) (b.getD c.2 0)).sum

theorem pathCost_snoc (δ : K → K → K) (a b : List K) (p : List (ℕ × ℕ)) (c : ℕ × ℕ) :
    pathCost δ a b (p ++ [c]) = pathCost δ a b p + δ (a.getD c.1 0) (b.getD c.2 0) := by
  simp [pathCost]

theorem pathCost_nonneg {δ : K → K → K} (hδ : ∀ x y, 0 ≤ δ x y) (a b : List K) (p : List (ℕ × ℕ)) : 0 ≤ pathCost δ a b p := by
  apply List.sum_nonneg
  intro x hx
  simp only [List.mem_map] at hx
  obtain ⟨c, -, rfl⟩ := hx
  exact hδ _ _

theorem absCost_eq (a b : List K) (p : List (ℕ × ℕ)) : absCost a b p = pathCost (fun x y => |x - y|) a b p := by
  simp [absCost, diffs, pathCost, Function.comp_def]

theorem sqCost_eq (a b : List K) (p : List (ℕ × ℕ)) : sqCost a b p = pathCost (fun x y => (x - y) ^ 2) a b p := by
  simp [sqCost, diffs, pathCost, Function.comp_def]

/-- Rounded sum of rounded terms along a path. -/
def accG (rd : K → K) (δr : K → K → K) (a b : List K) (p : List (ℕ × ℕ)) : K :=
  p.foldl (fun s c => rd (s + δr (a.getD c.1 0) (b.getD c.2 0))) 0

theorem accG_snoc (δr : K → K → K) (a b : List K) (p : List (ℕ × ℕ)) (c : ℕ × ℕ) :
    accG rd δr a b (p ++ [c]) = rd (accG rd δr a b p + δr (a.getD c.1 0) (b.getD c.2 0)) := by
  simp [accG]

theorem pathCost_mono {δ δ' : K → K → K} (h : ∀ x y, δ x y ≤ δ' x y) (a b : List K) (p : List (ℕ × ℕ)) :
    pathCost δ a b p ≤ pathCost δ' a b p := by
  apply List.sum_le_sum
  intro c _
  exact h _ _

theorem pathCost_add (δ : K → K → K) (κ : K) (a b : List K) (p : List (ℕ × ℕ)) :
    pathCost (fun x y => δ x y + κ) a b p = pathCost δ a b p + p.length * κ := by
  simp [pathCost, List.sum_map_add]

theorem accG_fixed (hrd : Rounding rd) (δr : K → K → K) (a b : List K) (p : List (ℕ × ℕ)) :
    rd (accG rd δr a b p) = accG rd δr a b p := by
  induction p using List.reverseRecOn with
  | nil => simp [accG, hrd.zero]
  | append_singleton p c ih => rw [accG_snoc]; exact hrd.idem _

/-- Error of a rounded sum of terms with relative error `k` roundings each. -/
theorem accG_error (hrd : Rounding rd) (hp : ErrOn P rd u η) (hu : 0 ≤ u) (hu1 : u < 1) {δ δr : K → K → K} {k : ℕ} (hδ : ∀ x y, 0 ≤ δ x y)
    (hr : ∀ x y, rd (δr x y) = δr x y) (h1 : ∀ x y, P x → P y → (1 - u) ^ k * δ x y ≤ δr x y) (a b : List K) (p : List (ℕ × ℕ))
    (ha : ∀ i, P (a.getD i 0)) (hb : ∀ i, P (b.getD i 0)) :
    (1 - u) ^ (p.length + k) * pathCost δ a b p ≤ accG rd δr a b p := by
  have hm : 0 ≤ 1 - u := by linarith
  induction p using List.reverseRecOn with
  | nil => simp [pathCost, accG]
  | append_singleton p c ih =>
    have hf := accG_fixed hrd δr a b p
    rw [accG_snoc, pathCost_snoc, List.length_append, List.length_singleton]
    have h1 := h1 _ _ (ha c.1) (hb c.2)
    set x := a.getD c.1 0
    set y := b.getD c.2 0
    have hc := pathCost_nonneg hδ a b p
    have hd := hδ x y
    have hr0 : 0 ≤ δr x y := le_trans (mul_nonneg (pow_nonneg hm _) hd) h1
    have ha0 : 0 ≤ accG rd δr a b p := le_trans (mul_nonneg (pow_nonneg hm _) hc) ih
    have e1 : p.length + 1 + k = (p.length + k) + 1 := by omega
    refine le_trans ?_ (le_rd_add hp ha0 hr0 hf (hr x y))
    rw [e1, pow_succ, mul_comm ((1 - u) ^ (p.length + k)), mul_assoc]
    refine mul_le_mul_of_nonneg_left ?_ hm
    rw [mul_add]
    refine add_le_add ih (le_trans ?_ h1)
    exact mul_le_mul_of_nonneg_right (pow_le_pow_of_le_one hm (by linarith) (by omega)) hd

theorem PathTo.length_le {c : ℕ × ℕ} {p : List (ℕ × ℕ)} (h : PathTo c p) : p.length ≤ c.1 + c.2 + 1 := by
  induction h using PathTo.rec' with
  | base => simp
  | step c d p hp hs ih =>
    have := step_sum hs
    simp only [List.length_append, List.length_singleton]
    omega

/-- The cell is at most a factor above any path to it, if every step is. -/
theorem upper {M : DM K} {a b : List K} {r : ℕ} (L : Grow M a.length b.length) (raw : M.S → K) {δ : K → K → K} {Θ : K}
    (hδ : ∀ x y, 0 ≤ δ x y) (hΘ : 1 ≤ Θ) (ha : ∀ i, P (a.getD i 0)) (hb : ∀ i, P (b.getD i 0)) (h0 : ∀ x y, P x → P y → raw (M.reduce M.init (fin x) (fin y)) ≤ Θ * δ x y)
    (h1 : ∀ s t x y, P x → P y → L.ok s → L.ok t → L.val s ≤ L.val t → raw (M.reduce s (fin x) (fin y)) ≤ Θ * (raw t + δ x y))
    {mt : Mat M} (h : Filled a b r L.toSafe a.length 0 mt) {c : ℕ × ℕ} {p : List (ℕ × ℕ)}
    (hp : PathTo c p) : (∀ x ∈ p, x.1 < a.length ∧ x.2 < b.length ∧ Allowed a.length b.length r x.1 x.2) →
    ∃ s, mt.cost c.1 c.2 = some s ∧ L.ok s ∧ raw s ≤ Θ ^ p.length * pathCost δ a b p := by
  induction hp using PathTo.rec' with
  | base =>
    intro hx
    obtain ⟨k1, k2, k3⟩ := hx (0, 0) (by simp)
    obtain ⟨s, g1, g2, g3, g4⟩ := h.cell 0 0 k1 k2 k3 (by omega)
    rcases g4 with ⟨-, -, rfl⟩ | ⟨pi, pj, sp, f1, -⟩
    · refine ⟨_, g1, g2, ?_⟩
      simpa [pathCost] using h0 (a.getD 0 0) (b.getD 0 0) (ha 0) (hb 0)
    · rw [step_iff] at f1; omega
  | step c d p hp hs ih =>
    intro hx
    obtain ⟨k1, k2, k3⟩ := hx d (by simp)
    obtain ⟨s, e1, e2, e3⟩ := ih (fun x hxm => hx x (by simp [hxm]))
    obtain ⟨s', g1, g2, g3, g4⟩ := h.cell d.1 d.2 k1 k2 k3 (Or.inl k1)
    refine ⟨s', g1, g2, ?_⟩
    rcases g4 with ⟨f1, f2, rfl⟩ | ⟨pi, pj, sp, f1, f2, f3, f4, rfl, f5⟩
    · have : Step (c.1, c.2) (d.1, d.2) := hs
      rw [step_iff] at this; omega
    · obtain ⟨hc1, hc2, hc3⟩ := hx c (by
        have := hp.last
        simp [List.mem_of_getLast? this])
      obtain ⟨sq, q1, q2⟩ := f5 c.1 c.2 hs hc3
      rw [e1, Option.some.injEq] at q1
      subst q1
      refine le_trans (h1 _ _ _ _ (ha _) (hb _) f4 e2 q2) ?_
      rw [pathCost_snoc, List.length_append, List.length_singleton, pow_succ, mul_comm (Θ ^ p.length), mul_assoc]
      refine mul_le_mul_of_nonneg_left ?_ (by linarith)
      rw [mul_add]
      refine add_le_add e3 ?_
      exact le_mul_of_one_le_left (hδ _ _) (one_le_pow₀ hΘ)

/-- The result: some path attains it, and no path is below it by more than a factor. -/
theorem warped_near {M : DM K} {a b : List K} {r : ℕ} [BandOps] {ratio : ℚ} (L : Grow M a.length b.length) (raw : M.S → K) {δ : K → K → K} {Θ : K}
    (hδ : ∀ x y, 0 ≤ δ x y) (hΘ : 1 ≤ Θ) (hPa : ∀ i, P (a.getD i 0)) (hPb : ∀ i, P (b.getD i 0)) (h0 : ∀ x y, P x → P y → raw (M.reduce M.init (fin x) (fin y)) ≤ Θ * δ x y)
    (h1 : ∀ s t x y, P x → P y → L.ok s → L.ok t → L.val s ≤ L.val t → raw (M.reduce s (fin x) (fin y)) ≤ Θ * (raw t + δ x y))
    (hr : band ratio (max a.length b.length : ℕ) = (r : Int)) (hm : 1 ≤ a.length) (hn : 1 ≤ b.length)
    {q : List (ℕ × ℕ)} (hq : PathTo (a.length - 1, b.length - 1) q) (hal : ∀ c ∈ q, Allowed a.length b.length r c.1 c.2) :
    ∃ p, PathTo (a.length - 1, b.length - 1) p ∧ (∀ c ∈ p, Allowed a.length b.length r c.1 c.2) ∧
      warpedValue M ratio (a.map fin) (b.map fin) .inf = .ok (fin (L.val (pathAcc M a b p))) ∧
      raw (pathAcc M a b p) ≤ Θ ^ (a.length + b.length - 1) * pathCost δ a b q := by
  by_cases hmn : a.length = 1 ∧ b.length = 1
  · have ha : at' (a.map fin) 0 = fin (a.getD 0 0) := at'_map a 0 (by omega)
    have hb : at' (b.map fin) 0 = fin (b.getD 0 0) := at'_map b 0 (by omega)
    have h11 : (a.length - 1, b.length - 1) = (0, 0) := by rw [hmn.1, hmn.2]
    have hq1 : q = [(0, 0)] := by
      rw [h11] at hq
      rcases hq.cases with ⟨-, e⟩ | ⟨q', d, -, -, hs⟩
      · exact e
      · have : Step (d.1, d.2) (0, 0) := hs
        rw [step_iff] at this; omega
    refine ⟨[(0, 0)], by rw [h11]; exact PathTo.single, by simp [Allowed, inB], ?_, ?_⟩
    · unfold warpedValue warpedDistance
      simp only [List.length_map, if_pos hmn, ha, hb]
      rw [L.norm_val _ (L.ok_first _ _ (L.all _ _))]
      rfl
    · rw [hmn.1, hmn.2, hq1]
      simpa [pathCost, pathAcc] using h0 (a.getD 0 0) (b.getD 0 0) (hPa 0) (hPb 0)
  · obtain ⟨mtF, f1, f2, -⟩ := warped_run L.toSafe (fun _ _ _ _ => L.all _ _) hr hm hn hmn
    have e1 : warpedValue M ratio (a.map fin) (b.map fin) .inf = .ok (mtF.ncost (a.length - 1) (b.length - 1)) := by
      unfold warpedValue; rw [f2]; rfl
    have hal' := hal _ (List.mem_of_getLast? hq.last)
    obtain ⟨p, g1, g2, g3, g4⟩ := attain f1 (a.length - 1) (b.length - 1) (by omega) (by omega) hal'
    refine ⟨p, g1, g2, by rw [e1, g4], ?_⟩
    obtain ⟨s, k1, k2, k3⟩ := upper L raw hδ hΘ hPa hPb h0 h1 f1 hq (fun x hx => by
      have := hq.bound x hx
      exact ⟨by simp at this; omega, by simp at this; omega, hal x hx⟩)
    rw [g3, Option.some.injEq] at k1
    subst k1
    refine le_trans k3 (mul_le_mul_of_nonneg_right (pow_le_pow_right₀ hΘ ?_) (pathCost_nonneg hδ a b q))
    have := hq.length_le
    simp only at this
    omega

/-! ## Manhattan -/

theorem pathAcc_manhattanR (a b : List K) (p : List (ℕ × ℕ)) :
    pathAcc (manhattanR rd) a b p = fin (accG rd (fun x y => |rd (x - y)|) a b p) := by
  induction p using List.reverseRecOn with
  | nil => rfl
  | append_singleton p c ih =>
    rw [pathAcc_snoc, ih, accG_snoc]
    simp [manhattanR, abs_fin]

/-! ## Linear bounds -/

theorem pow_ge_linear (hu : 0 ≤ u) (hu1 : u < 1) (k : ℕ) : 1 - k * u ≤ (1 - u) ^ k := by
  have := one_add_mul_le_pow (a := -u) (by linarith) k
  calc 1 - k * u = 1 + (k : K) * -u := by ring
    _ ≤ (1 + -u) ^ k := this
    _ = _ := by ring

theorem rho_pow_le (hu : 0 ≤ u) (k : ℕ) (hk : 4 * (k * u) ≤ 1) (hk1 : 1 ≤ k) : ((1 + u) / (1 - u)) ^ k ≤ 1 + 4 * (k * u) := by
  have hku : u ≤ k * u := le_mul_of_one_le_left hu (by exact_mod_cast hk1)
  have h1 : (1 + u) / (1 - u) ≤ 1 / (1 - 2 * u) := by
    rw [div_le_div_iff₀ (by linarith) (by linarith)]
    nlinarith
  have h2 : 1 - k * (2 * u) ≤ (1 - 2 * u) ^ k := pow_ge_linear (by linarith) (by linarith) k
  have h3 : 0 < 1 - k * (2 * u) := by nlinarith
  calc ((1 + u) / (1 - u)) ^ k ≤ (1 / (1 - 2 * u)) ^ k := pow_le_pow_left₀ (div_nonneg (by linarith) (by linarith)) h1 k
    _ = 1 / (1 - 2 * u) ^ k := by rw [div_pow, one_pow]
    _ ≤ 1 / (1 - k * (2 * u)) := one_div_le_one_div_of_le h3 h2
    _ ≤ 1 + 4 * (k * u) := by
      rw [div_le_iff₀ h3]
      have : 0 ≤ k * u := by positivity
      nlinarith

theorem one_add_pow_le (hu : 0 ≤ u) (k : ℕ) (hk : 2 * (k * u) ≤ 1) : (1 + u) ^ k ≤ 1 + 2 * (k * u) := by
  rcases Nat.eq_zero_or_pos k with rfl | hk1
  · simp
  have hku : u ≤ k * u := le_mul_of_one_le_left hu (by exact_mod_cast hk1)
  have h1 : 1 + u ≤ 1 / (1 - u) := by
    rw [le_div_iff₀ (by linarith)]
    nlinarith
  have h2 : 1 - k * u ≤ (1 - u) ^ k := pow_ge_linear hu (by linarith) k
  have h3 : 0 < 1 - k * u := by linarith
  calc (1 + u) ^ k ≤ (1 / (1 - u)) ^ k := pow_le_pow_left₀ (by linarith) h1 k
    _ = 1 / (1 - u) ^ k := by rw [div_pow, one_pow]
    _ ≤ 1 / (1 - k * u) := one_div_le_one_div_of_le h3 h2
    _ ≤ 1 + 2 * (k * u) := by
      rw [div_le_iff₀ h3]
      have : 0 ≤ k * u := by positivity
      nlinarith

/-! ## Roots -/

section
variable [HasSqrt K] [LawfulSqrt K]

theorem sqrt_mul_sq {k x : K} (hk : 0 ≤ k) (hx : 0 ≤ x) : HasSqrt.sqrt (k * k * x) = k * HasSqrt.sqrt x := by
  have h1 : 0 ≤ k * k * x := mul_nonneg (mul_nonneg hk hk) hx
  have h2 := LawfulSqrt.mul_self h1
  have h3 := LawfulSqrt.mul_self hx
  have h4 := LawfulSqrt.sqrt_nonneg h1
  have h5 := mul_nonneg hk (LawfulSqrt.sqrt_nonneg hx)
  exact (mul_self_inj h4 h5).1 (by rw [h2]; calc _ = k * k * (HasSqrt.sqrt x * HasSqrt.sqrt x) := by rw [h3]
                                        _ = _ := by ring)

theorem sqrt_mono {x y : K} (hx : 0 ≤ x) (h : x ≤ y) : HasSqrt.sqrt x ≤ HasSqrt.sqrt y :=
  (sqrt_le_sqrt_iff hx (le_trans hx h)).2 h

theorem sqrt_le_add {x y k : K} (hx : 0 ≤ x) (hy : 0 ≤ y) (hk : 0 ≤ k) (h : x ≤ y + k * k) : HasSqrt.sqrt x ≤ HasSqrt.sqrt y + k := by
  have h1 := LawfulSqrt.sqrt_nonneg hy
  refine (mul_self_le_mul_self_iff (LawfulSqrt.sqrt_nonneg hx) (add_nonneg h1 hk)).2 ?_
  rw [LawfulSqrt.mul_self hx]
  have h2 := LawfulSqrt.mul_self hy
  have h3 := mul_nonneg h1 hk
  nlinarith

end

section
variable (hrd : Rounding rd) (hp : ErrOn P rd u η) (hu : 0 ≤ u) (hu1 : u < 1)
include hu hu1

theorem rho_one : 1 ≤ (1 + u) / (1 - u) := by
  rw [le_div_iff₀ (by linarith)]; linarith

theorem rho_ge : 1 + u ≤ (1 + u) / (1 - u) := by
  rw [le_div_iff₀ (by linarith)]; nlinarith

include hp

theorem absR {x y : K} (hx : P x) (hy : P y) : (1 - u) ^ 1 * |x - y| ≤ |rd (x - y)| ∧ |rd (x - y)| ≤ (1 + u) ^ 1 * |x - y| := by
  have h1 := le_trans (abs_abs_sub_abs_le (rd (x - y)) (x - y)) (hp.sub x y hx hy)
  rw [abs_le] at h1
  rw [pow_one, pow_one]
  constructor <;> linarith

theorem sqR_error {x y : K} (hx : P x) (hy : P y) :
    (1 - u) ^ 3 * (x - y) ^ 2 - η ≤ sqR rd x y ∧ sqR rd x y ≤ (1 + u) ^ 3 * (x - y) ^ 2 + η := by
  have hm : 0 ≤ 1 - u := by linarith
  have h1 := absR hp hu hu1 hx hy
  rw [pow_one, pow_one] at h1
  have h0 := abs_nonneg (x - y)
  have e : (x - y) ^ 2 = |x - y| * |x - y| := by rw [abs_mul_abs_self, sq]
  have e' : rd (x - y) * rd (x - y) = |rd (x - y)| * |rd (x - y)| := by rw [abs_mul_abs_self]
  unfold sqR
  constructor
  · refine le_trans ?_ (le_rd hp (mul_self_nonneg _))
    rw [e, e', pow_succ', mul_assoc]
    refine sub_le_sub_right (mul_le_mul_of_nonneg_left ?_ hm) _
    calc _ = ((1 - u) * |x - y|) * ((1 - u) * |x - y|) := by ring
      _ ≤ _ := mul_self_le_mul_self (mul_nonneg hm h0) h1.1
  · refine le_trans (rd_le hp (mul_self_nonneg _)) ?_
    rw [e, e', pow_succ', mul_assoc]
    refine add_le_add_left (mul_le_mul_of_nonneg_left ?_ (by linarith)) _
    calc _ ≤ ((1 + u) * |x - y|) * ((1 + u) * |x - y|) := mul_self_le_mul_self (abs_nonneg _) h1.2
      _ = _ := by ring

/-- Comparison of rounded quotients. -/
theorem select {s t N : K} (hN : 0 < N) (hs : 0 ≤ s) (ht : 0 ≤ t) (h : rd (s / N) ≤ rd (t / N)) :
    (1 - u) * s ≤ (1 + u) * t + 2 * N * η := by
  have h1 := le_trans (le_rd hp (div_nonneg hs (le_of_lt hN))) (le_trans h (rd_le hp (div_nonneg ht (le_of_lt hN))))
  have h2 := mul_le_mul_of_nonneg_right h1 (le_of_lt hN)
  have e1 : ((1 - u) * (s / N) - η) * N = (1 - u) * s - N * η := by field_simp
  have e2 : ((1 + u) * (t / N) + η) * N = (1 + u) * t + N * η := by field_simp
  rw [e1, e2] at h2
  linarith

end

/-- The mixed product of a square. -/
theorem sq_add_le {η u y k : K} (hη : 0 ≤ η) (hηu : η ≤ u ^ 3) (hu : 0 < u) (hu1 : 24 * u ≤ 1) (hk0 : 0 ≤ k) (hk : 3 * (k * u) ≤ 2 * η) :
    (y + k) * (y + k) ≤ (1 + u) * (y * y) + η := by
  have e2 : u * ((y + k) * (y + k)) ≤ u * ((1 + u) * (y * y)) + (1 + u) * (k * k) := by nlinarith [sq_nonneg (u * y - k)]
  have e3 : (1 + u) * (k * k) ≤ u * η := by
    have n1 : (3 * (k * u)) * (3 * (k * u)) ≤ (2 * η) * (2 * η) := mul_self_le_mul_self (by positivity) hk
    have n6 : η * η ≤ u ^ 3 * η := mul_le_mul_of_nonneg_right hηu hη
    have a2 : 0 ≤ η * η := mul_nonneg hη hη
    have n7 : (1 + u) * (k * k) * (u * u) ≤ u * η * (u * u) := by
      have a1 : (1 + u) * (k * k * (u * u)) ≤ (1 + u) * (4 / 9 * (η * η)) :=
        mul_le_mul_of_nonneg_left (by linarith) (by linarith)
      have a3 : u * (η * η) ≤ 1 / 24 * (η * η) := mul_le_mul_of_nonneg_right (by linarith) a2
      calc _ = (1 + u) * (k * k * (u * u)) := by ring
        _ ≤ η * η := by linarith
        _ ≤ u ^ 3 * η := n6
        _ = _ := by ring
    exact le_of_mul_le_mul_right n7 (mul_pos hu hu)
  have e4 : u * ((y + k) * (y + k)) ≤ u * ((1 + u) * (y * y) + η) := by linarith
  exact le_of_mul_le_mul_left e4 hu

/-- Comparison of rounded quotients of rounded roots. -/
theorem selectE [HasSqrt K] [LawfulSqrt K] (hrd : Rounding rd) (hp : ErrOn P rd u η) (hu : 0 ≤ u) (hu24 : 24 * u ≤ 1) (hη : 0 ≤ η)
    (hηu : η ≤ u ^ 3) {N : K} (hN2 : 2 ≤ N) (hNu : 6 * (N * u) ≤ 1) {s t : K} (hs : 0 ≤ s) (ht : 0 ≤ t)
    (h : rd (rd (HasSqrt.sqrt s) / N) ≤ rd (rd (HasSqrt.sqrt t) / N)) : s ≤ ((1 + u) / (1 - u)) ^ 5 * t + η := by
  have hu1 : u < 1 := by linarith
  have hm : 0 ≤ 1 - u := by linarith
  have hN : 0 < N := by linarith
  have hNη : 0 ≤ N * η := mul_nonneg (le_of_lt hN) hη
  have hρ1 : 1 ≤ (1 + u) / (1 - u) := rho_one hu hu1
  have hρu : 1 + u ≤ (1 + u) / (1 - u) := rho_ge hu hu1
  have hρ : (1 + u) / (1 - u) * (1 - u) = 1 + u := div_mul_cancel₀ _ (by linarith)
  generalize (1 + u) / (1 - u) = ρ at hρ1 hρu hρ ⊢
  have q1 := LawfulSqrt.sqrt_nonneg hs
  have q2 := LawfulSqrt.sqrt_nonneg ht
  have h1 := select hp hu hu1 hN (hrd.nonneg q1) (hrd.nonneg q2) h
  have h2 : (1 - u) * ((1 - u) * HasSqrt.sqrt s - η) ≤ (1 + u) * ((1 + u) * HasSqrt.sqrt t + η) + 2 * N * η :=
    le_trans (mul_le_mul_of_nonneg_left (le_rd hp q1) hm)
      (le_trans h1 (add_le_add_left (mul_le_mul_of_nonneg_left (rd_le hp q2) (by linarith)) _))
  have h3 : (1 - u) ^ 2 * HasSqrt.sqrt s ≤ (1 - u) ^ 2 * (ρ ^ 2 * HasSqrt.sqrt t + 4 * (N * η)) := by
    have e1 : (1 - u) ^ 2 * (ρ ^ 2 * HasSqrt.sqrt t + 4 * (N * η)) =
        (1 + u) ^ 2 * HasSqrt.sqrt t + (1 - u) ^ 2 * (4 * (N * η)) := by
      rw [← hρ]; ring
    rw [e1]
    have e0 : (3 : K) / 4 ≤ (1 - u) ^ 2 := by nlinarith
    have e2 : 3 / 4 * (4 * (N * η)) ≤ (1 - u) ^ 2 * (4 * (N * η)) := mul_le_mul_of_nonneg_right e0 (by linarith)
    have e3 : 2 * η ≤ N * η := mul_le_mul_of_nonneg_right hN2 hη
    linarith
  have hm2 : 0 < (1 - u) ^ 2 := by
    have : 0 < 1 - u := by linarith
    positivity
  have h4 : HasSqrt.sqrt s ≤ ρ ^ 2 * HasSqrt.sqrt t + 4 * (N * η) := le_of_mul_le_mul_left h3 hm2
  have h5 := mul_self_le_mul_self q1 h4
  rw [LawfulSqrt.mul_self hs] at h5
  refine le_trans h5 ?_
  have e1 : ρ ^ 2 * HasSqrt.sqrt t * (ρ ^ 2 * HasSqrt.sqrt t) = ρ ^ 4 * t := by
    calc _ = ρ ^ 4 * (HasSqrt.sqrt t * HasSqrt.sqrt t) := by ring
      _ = _ := by rw [LawfulSqrt.mul_self ht]
  have h6 : (1 + u) * (ρ ^ 4 * t) ≤ ρ ^ 5 * t := by
    rw [pow_succ' ρ 4, mul_assoc]
    exact mul_le_mul_of_nonneg_right hρu (mul_nonneg (by positivity) ht)
  have h7 : ρ ^ 4 * t ≤ (1 + u) * (ρ ^ 4 * t) := le_mul_of_one_le_left (mul_nonneg (by positivity) ht) (by linarith)
  rcases eq_or_lt_of_le hη with h0 | h0
  · rw [← h0, mul_zero, mul_zero, add_zero, add_zero, e1]
    exact le_trans h7 h6
  · have hup : 0 < u := by
      rcases eq_or_lt_of_le hu with h | h
      · rw [← h] at hηu; norm_num at hηu; linarith
      · exact h
    refine le_trans (sq_add_le hη hηu hup hu24 (by linarith) ?_) ?_
    · have := mul_le_mul_of_nonneg_right hNu hη
      linarith
    · rw [e1]
      linarith

section
variable (hrd : Rounding rd) (hp : ErrOn P rd u η) (hu : 0 ≤ u) (hu1 : u < 1)
include hrd hp hu hu1
variable (hη : 0 ≤ η) {a b : List K} (hPa : ∀ i, P (a.getD i 0)) (hPb : ∀ i, P (b.getD i 0))
include hη hPa hPb

theorem manhattanR_near [BandOps] {ratio : ℚ} (hr : 0 ≤ ratio) (ha : 1 ≤ a.length) (hb : 1 ≤ b.length) (hu3 : 3 * u ≤ 1)
    {q : List (ℕ × ℕ)} (hq : PathTo (a.length - 1, b.length - 1) q)
    (hal : ∀ c ∈ q, Allowed a.length b.length (bandWidth ratio (max a.length b.length)) c.1 c.2) :
    ∃ p x, PathTo (a.length - 1, b.length - 1) p ∧
      (∀ c ∈ p, Allowed a.length b.length (bandWidth ratio (max a.length b.length)) c.1 c.2) ∧
      warpedValue (manhattanR rd) ratio (a.map fin) (b.map fin) .inf = .ok (fin x) ∧
      (1 - u) ^ (a.length + b.length + 1) * (absCost a b p / ((2 * max a.length b.length : ℕ) : K)) - η ≤ x ∧
      x ≤ ((1 + u) / (1 - u)) ^ (2 * (a.length + b.length)) *
        (absCost a b q / ((2 * max a.length b.length : ℕ) : K) + 3 * ((a.length + b.length : ℕ) * η)) + η := by
  have hbw := band_eq_bandWidth hr (len := max a.length b.length) (by omega)
  have hN := maxlen_pos (K := K) (m := a.length) (n := b.length) (by omega)
  set N : K := ((2 * max a.length b.length : ℕ) : K)
  set ρ := (1 + u) / (1 - u) with hρ
  have hρ1 : 1 ≤ ρ := rho_one hu hu1
  have hρu : 1 + u ≤ ρ := rho_ge hu hu1
  have hm : 0 ≤ 1 - u := by linarith
  have hκ : 0 ≤ 3 * (N * η) := by have := mul_nonneg (le_of_lt hN) hη; linarith
  have sel : ∀ s t : K, 0 ≤ s → 0 ≤ t → rd (s / N) ≤ rd (t / N) → s ≤ ρ * t + 3 * (N * η) := by
    intro s t hs ht h
    have h1 := select hp hu hu1 hN hs ht h
    have h2 : ρ * (1 - u) = 1 + u := by rw [hρ]; field_simp
    have h3 : 2 * N * η ≤ (1 - u) * (3 * (N * η)) := by nlinarith [mul_nonneg (le_of_lt hN) hη]
    have h4 : (1 - u) * s ≤ (1 - u) * (ρ * t + 3 * (N * η)) := by
      calc _ ≤ (ρ * (1 - u)) * t + (1 - u) * (3 * (N * η)) := by rw [h2]; linarith
        _ = _ := by ring
    exact le_of_mul_le_mul_left h4 (by linarith)
  have step : ∀ s t x y : K, P x → P y → 0 ≤ s → 0 ≤ t → rd s = s → s ≤ ρ * t + 3 * (N * η) →
      rd (s + |rd (x - y)|) ≤ ρ ^ 2 * (t + (|x - y| + 3 * (N * η))) := by
    intro s t x y hx hy h0 ht hf h
    have h1 := (absR hp hu hu1 hx hy).2
    rw [pow_one] at h1
    have h2 := abs_nonneg (x - y)
    have h3 : |rd (x - y)| ≤ ρ * |x - y| := le_trans h1 (mul_le_mul_of_nonneg_right hρu h2)
    refine le_trans (rd_add_le hp h0 (abs_nonneg _) hf (by rw [hrd.abs, hrd.idem])) ?_
    calc _ ≤ ρ * ((ρ * t + 3 * (N * η)) + ρ * |x - y|) :=
          mul_le_mul hρu (add_le_add h h3) (add_nonneg h0 (abs_nonneg _)) (by linarith)
      _ ≤ ρ * ((ρ * t + ρ * (3 * (N * η))) + ρ * |x - y|) := by
          refine mul_le_mul_of_nonneg_left ?_ (by linarith)
          have := le_mul_of_one_le_left hκ hρ1
          linarith
      _ = _ := by ring
  obtain ⟨p, p1, p2, p3, p4⟩ := warped_near (growManhattanR hrd (by omega)) Dbl.toFin (δ := fun x y => |x - y| + 3 * (N * η)) (Θ := ρ ^ 2)
    (fun _ _ => add_nonneg (abs_nonneg _) hκ) (one_le_pow₀ hρ1) hPa hPb (fun x y hx hy => by
      have := step 0 0 x y hx hy (le_refl _) (le_refl _) hrd.zero (by simpa using hκ)
      simp only [manhattanR, fin_sub_fin, rnd_fin, abs_fin, zero_def, fin_add_fin, Dbl.toFin_fin]
      simpa using this)
    (by
      rintro s t x y hx hy ⟨s', hs, hf, rfl⟩ ⟨t', ht, -, rfl⟩ hle
      simp only [manhattanR, fin_sub_fin, rnd_fin, abs_fin, fin_add_fin, Dbl.toFin_fin]
      exact step _ _ _ _ hx hy hs ht hf (sel _ _ hs ht hle)) hbw ha hb hq hal
  rw [pathAcc_manhattanR] at p3 p4
  have hacc := accG_error hrd hp hu hu1 (k := 1) (fun x y : K => abs_nonneg (x - y)) (fun x y => by rw [hrd.abs, hrd.idem])
    (fun x y hx hy => (absR hp hu hu1 hx hy).1) a b p hPa hPb
  have hc := pathCost_nonneg (fun x y : K => abs_nonneg (x - y)) a b p
  have hlen := p1.length_le
  have hqlen := hq.length_le
  simp only at hlen hqlen
  have hs0 := le_trans (mul_nonneg (pow_nonneg hm _) hc) hacc
  refine ⟨p, _, p1, p2, p3, ?_, ?_⟩
  · refine le_trans (sub_le_sub_right ?_ _) (le_rd hp (div_nonneg hs0 (le_of_lt hN)))
    rw [absCost_eq, Dbl.toFin_fin, pow_succ', mul_assoc]
    refine mul_le_mul_of_nonneg_left ?_ hm
    rw [← mul_div_assoc]
    refine div_le_div_of_nonneg_right (le_trans ?_ hacc) (le_of_lt hN)
    exact mul_le_mul_of_nonneg_right (pow_le_pow_of_le_one hm (by linarith) (by omega)) hc
  · refine le_trans (rd_le hp (div_nonneg hs0 (le_of_lt hN))) (add_le_add_left ?_ _)
    have hcq := pathCost_nonneg (fun x y : K => abs_nonneg (x - y)) a b q
    rw [absCost_eq, Dbl.toFin_fin]
    rw [Dbl.toFin_fin, pathCost_add] at p4
    have e : ρ ^ (2 * (a.length + b.length)) = ρ * (ρ * (ρ ^ 2) ^ (a.length + b.length - 1)) := by
      rw [← pow_mul, ← pow_succ', ← pow_succ']
      congr 1
      omega
    rw [e, mul_assoc]
    refine mul_le_mul hρu ?_ (div_nonneg hs0 (le_of_lt hN)) (by linarith)
    rw [div_le_iff₀ hN]
    have hw : (q.length : K) ≤ ((a.length + b.length : ℕ) : K) := by exact_mod_cast (by omega : q.length ≤ a.length + b.length)
    have hpw : 0 ≤ (ρ ^ 2) ^ (a.length + b.length - 1) := pow_nonneg (by positivity) _
    refine le_trans p4 ?_
    have e2 : ρ * (ρ ^ 2) ^ (a.length + b.length - 1) *
        (pathCost (fun x y => |x - y|) a b q / N + 3 * ((a.length + b.length : ℕ) * η)) * N =
        ρ * ((ρ ^ 2) ^ (a.length + b.length - 1) *
          (pathCost (fun x y => |x - y|) a b q + ((a.length + b.length : ℕ) : K) * (3 * (N * η)))) := by
      field_simp
    rw [e2]
    have hle := mul_le_mul_of_nonneg_right hw hκ
    refine le_trans (mul_le_mul_of_nonneg_left (add_le_add_right hle _) hpw) ?_
    refine le_mul_of_one_le_left (mul_nonneg hpw ?_) hρ1
    have := mul_nonneg (Nat.cast_nonneg (α := K) (a.length + b.length)) hκ
    linarith

/-! ## Euclidean -/

omit hrd hp hu hu1 hη hPa hPb in
theorem accR_eq (a b : List K) (p : List (ℕ × ℕ)) : accR rd a b p = accG rd (sqR rd) a b p := rfl

theorem euclideanR_near [HasSqrt K] [LawfulSqrt K] [BandOps] {ratio : ℚ} (hr : 0 ≤ ratio) (ha : 1 ≤ a.length) (hb : 1 ≤ b.length)
    {θ : K} (hθ0 : 0 ≤ θ) (hθ : η ≤ θ * θ) (hηu : η ≤ u ^ 3) (hw12 : 12 * ((a.length + b.length : ℕ) * u) ≤ 1)
    {q : List (ℕ × ℕ)} (hq : PathTo (a.length - 1, b.length - 1) q)
    (hal : ∀ c ∈ q, Allowed a.length b.length (bandWidth ratio (max a.length b.length)) c.1 c.2) :
    ∃ p x, PathTo (a.length - 1, b.length - 1) p ∧
      (∀ c ∈ p, Allowed a.length b.length (bandWidth ratio (max a.length b.length)) c.1 c.2) ∧
      warpedValue (euclideanR rd) ratio (a.map fin) (b.map fin) .inf = .ok (fin x) ∧
      (1 - u) ^ (a.length + b.length + 4) * (HasSqrt.sqrt (sqCost a b p) / ((2 * max a.length b.length : ℕ) : K) - θ) - 2 * η ≤ x ∧
      x ≤ ((1 + u) / (1 - u)) ^ (3 * (a.length + b.length)) *
        (HasSqrt.sqrt (sqCost a b q) / ((2 * max a.length b.length : ℕ) : K) + θ) + 2 * η := by
  have hbw := band_eq_bandWidth hr (len := max a.length b.length) (by omega)
  have hN := maxlen_pos (K := K) (m := a.length) (n := b.length) (by omega)
  have hN2 : (2 : K) ≤ ((2 * max a.length b.length : ℕ) : K) := by exact_mod_cast (by omega : 2 ≤ 2 * max a.length b.length)
  have hwN : ((a.length + b.length : ℕ) : K) ≤ ((2 * max a.length b.length : ℕ) : K) := by
    exact_mod_cast (by omega : a.length + b.length ≤ 2 * max a.length b.length)
  have hNw : ((2 * max a.length b.length : ℕ) : K) ≤ 2 * ((a.length + b.length : ℕ) : K) := by
    exact_mod_cast (by omega : 2 * max a.length b.length ≤ 2 * (a.length + b.length))
  have hw2 : (2 : K) ≤ ((a.length + b.length : ℕ) : K) := by exact_mod_cast (by omega : 2 ≤ a.length + b.length)
  set N : K := ((2 * max a.length b.length : ℕ) : K)
  set W : K := ((a.length + b.length : ℕ) : K) with hW
  set ρ := (1 + u) / (1 - u) with hρ
  have hu24 : 24 * u ≤ 1 := by have := mul_le_mul_of_nonneg_right hw2 hu; linarith
  have hρ1 : 1 ≤ ρ := rho_one hu hu1
  have hρ0 : 0 ≤ ρ := by linarith
  have hρu : 1 + u ≤ ρ := rho_ge hu hu1
  have hm : 0 ≤ 1 - u := by linarith
  have hNu : 6 * (N * u) ≤ 1 := by have := mul_le_mul_of_nonneg_right hNw hu; linarith
  have sel : ∀ s t : K, 0 ≤ s → 0 ≤ t → rd (rd (HasSqrt.sqrt s) / N) ≤ rd (rd (HasSqrt.sqrt t) / N) → s ≤ ρ ^ 5 * t + η :=
    fun s t hs ht h => selectE hrd hp hu hu24 hη hηu hN2 hNu hs ht h
  have step : ∀ s t x y : K, P x → P y → 0 ≤ s → 0 ≤ t → rd s = s → s ≤ ρ ^ 5 * t + η →
      rd (s + sqR rd x y) ≤ ρ ^ 6 * (t + ((x - y) ^ 2 + 2 * η)) := by
    intro s t x y hx hy h0 ht hf h
    have h1 := (sqR_error hp hu hu1 hx hy).2
    have h2 := sq_nonneg (x - y)
    have h3 : sqR rd x y ≤ ρ ^ 5 * (x - y) ^ 2 + η := by
      refine le_trans h1 (add_le_add_left (mul_le_mul_of_nonneg_right ?_ h2) _)
      exact le_trans (pow_le_pow_left₀ (by linarith) hρu 3) (pow_le_pow_right₀ hρ1 (by omega))
    refine le_trans (rd_add_le hp h0 (sqR_nonneg hrd _ _) hf (hrd.idem _)) ?_
    have h5 : 2 * η ≤ ρ ^ 5 * (2 * η) := le_mul_of_one_le_left (by linarith) (one_le_pow₀ hρ1)
    calc _ ≤ ρ * (ρ ^ 5 * t + η + (ρ ^ 5 * (x - y) ^ 2 + η)) :=
          mul_le_mul hρu (add_le_add h h3) (add_nonneg h0 (sqR_nonneg hrd _ _)) hρ0
      _ ≤ ρ * (ρ ^ 5 * t + ρ ^ 5 * (x - y) ^ 2 + ρ ^ 5 * (2 * η)) := mul_le_mul_of_nonneg_left (by linarith) hρ0
      _ = _ := by ring
  have hκ : 0 ≤ 2 * η := by linarith
  obtain ⟨p, p1, p2, p3, p4⟩ := warped_near (growEuclideanR hrd (by omega)) Dbl.toFin (δ := fun x y => (x - y) ^ 2 + 2 * η) (Θ := ρ ^ 6)
    (fun _ _ => add_nonneg (sq_nonneg _) hκ) (one_le_pow₀ hρ1) hPa hPb (fun x y hx hy => by
      have := step 0 0 x y hx hy (le_refl _) (le_refl _) hrd.zero (by simpa using hη)
      simp only [euclideanR, eucDistR_fin, rnd_fin, zero_def, fin_add_fin, Dbl.toFin_fin]
      simpa using this)
    (by
      rintro s t x y hx hy ⟨s', hs, hf, rfl⟩ ⟨t', ht, -, rfl⟩ hle
      simp only [euclideanR, eucDistR_fin, rnd_fin, fin_add_fin, Dbl.toFin_fin]
      exact step _ _ _ _ hx hy hs ht hf (sel _ _ hs ht hle)) hbw ha hb hq hal
  rw [pathAcc_euclideanR] at p3 p4
  have hhalf : 1 / 2 ≤ (1 - u) ^ 3 := by
    have := pow_ge_linear hu hu1 3
    push_cast at this
    linarith
  have hacc := accG_error hrd hp hu hu1 (k := 3) (δr := sqR rd) (δ := fun x y : K => max 0 ((x - y) ^ 2 - 2 * η)) (fun x y : K => le_max_left _ _)
    (fun x y => hrd.idem _) (fun x y hx hy => by
      have h1 := (sqR_error hp hu hu1 hx hy).1
      rcases le_total ((x - y) ^ 2 - 2 * η) 0 with h | h
      · rw [max_eq_left h, mul_zero]; exact sqR_nonneg hrd _ _
      · rw [max_eq_right h]
        have := mul_le_mul_of_nonneg_right hhalf hκ
        linarith) a b p hPa hPb
  rw [← accR_eq] at hacc
  have hc := pathCost_nonneg (fun x y : K => le_max_left 0 ((x - y) ^ 2 - 2 * η)) a b p
  have hcp := pathCost_nonneg (fun x y : K => sq_nonneg (x - y)) a b p
  have hcq := pathCost_nonneg (fun x y : K => sq_nonneg (x - y)) a b q
  have hlen := p1.length_le
  have hqlen := hq.length_le
  simp only at hlen hqlen
  have hs0 := (accR_fixed hrd a b p).1
  have hsq := LawfulSqrt.sqrt_nonneg hs0
  have hNθ : 0 ≤ N * θ := mul_nonneg (le_of_lt hN) hθ0
  -- the absolute errors of the terms of a path
  have habs : ∀ n : ℕ, n ≤ a.length + b.length → (n : K) * (2 * η) ≤ N * θ * (N * θ) := by
    intro n hn
    have h1 : (n : K) ≤ W := by rw [hW]; exact_mod_cast hn
    have h2 : (n : K) * 2 ≤ N * N := by nlinarith
    calc (n : K) * (2 * η) = ((n : K) * 2) * η := by ring
      _ ≤ (N * N) * (θ * θ) := mul_le_mul h2 hθ hη (mul_nonneg (le_of_lt hN) (le_of_lt hN))
      _ = _ := by ring
  set w := a.length + b.length with hw
  have hηN : (1 + u) * (η / N) ≤ η := by
    rw [← mul_div_assoc, div_le_iff₀ hN]
    nlinarith
  have hηN' : 0 ≤ η / N := div_nonneg hη (le_of_lt hN)
  refine ⟨p, _, p1, p2, p3, ?_, ?_⟩
  · change _ ≤ rd (rd (HasSqrt.sqrt (accR rd a b p)) / N)
    refine le_trans ?_ (le_rd hp (div_nonneg (hrd.nonneg hsq) (le_of_lt hN)))
    have k1 : (1 - u) ^ (w + 2) * HasSqrt.sqrt (pathCost (fun x y => max 0 ((x - y) ^ 2 - 2 * η)) a b p) ≤
        HasSqrt.sqrt (accR rd a b p) := by
      rw [← sqrt_mul_sq (pow_nonneg hm _) hc]
      refine sqrt_mono (mul_nonneg (mul_nonneg (pow_nonneg hm _) (pow_nonneg hm _)) hc) (le_trans ?_ hacc)
      refine mul_le_mul_of_nonneg_right ?_ hc
      rw [← pow_add]
      exact pow_le_pow_of_le_one hm (by linarith) (by omega)
    have k2 : HasSqrt.sqrt (sqCost a b p) ≤
        HasSqrt.sqrt (pathCost (fun x y => max 0 ((x - y) ^ 2 - 2 * η)) a b p) + N * θ := by
      rw [sqCost_eq]
      refine sqrt_le_add hcp hc hNθ ?_
      have g1 := pathCost_mono (fun x y : K => le_max_right 0 ((x - y) ^ 2 - 2 * η)) a b p
      have g2 := pathCost_add (fun x y : K => (x - y) ^ 2) (-(2 * η)) a b p
      have g3 := habs p.length (by omega)
      simp only [sub_eq_add_neg] at g1 g2 ⊢
      rw [g2] at g1
      linarith
    have k3 : (1 - u) ^ (w + 2) * (HasSqrt.sqrt (sqCost a b p) - N * θ) ≤ HasSqrt.sqrt (accR rd a b p) :=
      le_trans (mul_le_mul_of_nonneg_left (by linarith) (pow_nonneg hm _)) k1
    have k4 := le_rd hp hsq
    have k5 : (1 - u) * ((1 - u) ^ (w + 2) * (HasSqrt.sqrt (sqCost a b p) - N * θ)) - η ≤ rd (HasSqrt.sqrt (accR rd a b p)) :=
      le_trans (sub_le_sub_right (mul_le_mul_of_nonneg_left k3 hm) _) k4
    have k6 := mul_le_mul_of_nonneg_left (div_le_div_of_nonneg_right k5 (le_of_lt hN)) hm
    have e : (1 - u) * (((1 - u) * ((1 - u) ^ (w + 2) * (HasSqrt.sqrt (sqCost a b p) - N * θ)) - η) / N) =
        (1 - u) ^ (w + 4) * (HasSqrt.sqrt (sqCost a b p) / N - θ) - (1 - u) * (η / N) := by
      field_simp
      ring
    rw [e] at k6
    have : (1 - u) * (η / N) ≤ (1 + u) * (η / N) := mul_le_mul_of_nonneg_right (by linarith) hηN'
    linarith
  · change rd (rd (HasSqrt.sqrt (accR rd a b p)) / N) ≤ _
    refine le_trans (rd_le hp (div_nonneg (hrd.nonneg hsq) (le_of_lt hN))) ?_
    rw [Dbl.toFin_fin, pathCost_add] at p4
    have k0 : 0 ≤ pathCost (fun x y => (x - y) ^ 2) a b q + q.length * (2 * η) :=
      add_nonneg hcq (mul_nonneg (Nat.cast_nonneg _) hκ)
    have k1 : HasSqrt.sqrt (accR rd a b p) ≤
        ρ ^ (3 * w - 2) * HasSqrt.sqrt (pathCost (fun x y => (x - y) ^ 2) a b q + q.length * (2 * η)) := by
      rw [← sqrt_mul_sq (pow_nonneg hρ0 _) k0]
      refine sqrt_mono hs0 (le_trans p4 ?_)
      refine mul_le_mul_of_nonneg_right ?_ k0
      rw [← pow_add, ← pow_mul]
      exact pow_le_pow_right₀ hρ1 (by omega)
    have k2 : HasSqrt.sqrt (pathCost (fun x y => (x - y) ^ 2) a b q + q.length * (2 * η)) ≤ HasSqrt.sqrt (sqCost a b q) + N * θ := by
      rw [sqCost_eq]
      exact sqrt_le_add k0 hcq hNθ (add_le_add_right (habs q.length (by omega)) _)
    have hB : 0 ≤ HasSqrt.sqrt (sqCost a b q) + N * θ := le_trans (LawfulSqrt.sqrt_nonneg k0) k2
    have k3 : HasSqrt.sqrt (accR rd a b p) ≤ ρ ^ (3 * w - 2) * (HasSqrt.sqrt (sqCost a b q) + N * θ) :=
      le_trans k1 (mul_le_mul_of_nonneg_left k2 (pow_nonneg hρ0 _))
    have k4 : rd (HasSqrt.sqrt (accR rd a b p)) ≤ ρ * (ρ ^ (3 * w - 2) * (HasSqrt.sqrt (sqCost a b q) + N * θ)) + η :=
      le_trans (rd_le hp hsq) (add_le_add_left (mul_le_mul hρu k3 hsq hρ0) _)
    have k5 : (1 + u) * (rd (HasSqrt.sqrt (accR rd a b p)) / N) ≤
        (1 + u) * ((ρ * (ρ ^ (3 * w - 2) * (HasSqrt.sqrt (sqCost a b q) + N * θ)) + η) / N) :=
      mul_le_mul_of_nonneg_left (div_le_div_of_nonneg_right k4 (le_of_lt hN)) (by linarith)
    have e : (1 + u) * ((ρ * (ρ ^ (3 * w - 2) * (HasSqrt.sqrt (sqCost a b q) + N * θ)) + η) / N) =
        (1 + u) * (ρ * ρ ^ (3 * w - 2) * (HasSqrt.sqrt (sqCost a b q) / N + θ)) + (1 + u) * (η / N) := by
      field_simp
    rw [e] at k5
    have k6 : (1 + u) * (ρ * ρ ^ (3 * w - 2) * (HasSqrt.sqrt (sqCost a b q) / N + θ)) ≤
        ρ ^ (3 * w) * (HasSqrt.sqrt (sqCost a b q) / N + θ) := by
      have e2 : ρ ^ (3 * w) = ρ * (ρ * ρ ^ (3 * w - 2)) := by
        rw [← pow_succ', ← pow_succ']
        congr 1
        omega
      have hq0 : 0 ≤ HasSqrt.sqrt (sqCost a b q) / N + θ :=
        add_nonneg (div_nonneg (LawfulSqrt.sqrt_nonneg (by rw [sqCost_eq]; exact hcq)) (le_of_lt hN)) hθ0
      rw [e2, mul_assoc]
      refine mul_le_mul_of_nonneg_right hρu ?_ |>.trans (le_of_eq ?_)
      · exact mul_nonneg hρ0 (mul_nonneg (pow_nonneg hρ0 _) hq0)
      · ring
    linarith

end

/-! ## Chebyshev -/

theorem rd_max (hrd : Rounding rd) (x y : K) : rd (max x y) = max (rd x) (rd y) := by
  rcases le_total x y with h | h
  · rw [max_eq_right h, max_eq_right (hrd.mono _ _ h)]
  · rw [max_eq_left h, max_eq_left (hrd.mono _ _ h)]

theorem valCR (hrd : Rounding rd) (a b : List K) {m n : ℕ} (c : ℕ × ℕ) (p : List (ℕ × ℕ)) (hp : PathTo c p) :
    (monoChebyshevR (rd := rd) (m := m) (n := n)).val (pathAcc (chebyshevR rd) a b p) = rd (maxCost a b p) := by
  have key : pathAcc (chebyshevR rd) a b p = fin (rd (maxCost a b p)) := by
    induction hp using PathTo.rec' with
    | base =>
      simp [pathAcc, chebyshevR, abs_fin, stdMax, maxCost, diffs, hrd.abs]
    | step c d p hp hs ih =>
      rw [pathAcc_snoc, ih, maxCost_snoc, rd_max hrd, ← hrd.abs]
      simp [chebyshevR, abs_fin, stdMax_fin]
  rw [key]; rfl

theorem leastCost_map (hrd : Rounding rd) [BandOps] {ratio : ℚ} {a b : List K} {V : List (ℕ × ℕ) → K} {D : K} (h : LeastCost ratio a b V (fin D)) :
    LeastCost ratio a b (fun p => rd (V p)) (fin (rd D)) := by
  rcases h with ⟨x, e, l⟩ | ⟨e, -⟩
  · cases e
    obtain ⟨⟨p, h1, h2, h3⟩, l2⟩ := l
    refine .inl ⟨_, rfl, ⟨p, h1, h2, by rw [← h3]⟩, ?_⟩
    rintro v ⟨q, g1, g2, rfl⟩
    exact hrd.mono _ _ (l2 ⟨q, g1, g2, rfl⟩)
  · cases e

/-! ## Against the DTW distance -/

theorem leastCost_near {M : DM K} [BandOps] {ratio : ℚ} {a b : List K} (ha : 1 ≤ a.length) (hb : 1 ≤ b.length) {V : List (ℕ × ℕ) → K} (lo hi : K → K)
    (hlo : Monotone lo) (near : ∀ q, PathTo (a.length - 1, b.length - 1) q →
      (∀ c ∈ q, Allowed a.length b.length (bandWidth ratio (max a.length b.length)) c.1 c.2) →
      ∃ p x, PathTo (a.length - 1, b.length - 1) p ∧
        (∀ c ∈ p, Allowed a.length b.length (bandWidth ratio (max a.length b.length)) c.1 c.2) ∧
        warpedValue M ratio (a.map fin) (b.map fin) .inf = .ok (fin x) ∧ lo (V p) ≤ x ∧ x ≤ hi (V q))
    {D : K} (h : LeastCost ratio a b V (fin D)) :
    ∃ x, warpedValue M ratio (a.map fin) (b.map fin) .inf = .ok (fin x) ∧ lo D ≤ x ∧ x ≤ hi D := by
  rcases h with ⟨x, e, l⟩ | ⟨e, -⟩
  · cases e
    obtain ⟨⟨q, h1, h2, h3⟩, l2⟩ := l
    obtain ⟨p, x, p1, p2, p3, p4, p5⟩ := near q (alignment_iff.1 h1) ((allowed_dtwBand ha hb h1).2 h2)
    refine ⟨x, p3, le_trans (hlo ?_) p4, h3 ▸ p5⟩
    have := alignment_iff.2 p1
    exact l2 ⟨p, this, (allowed_dtwBand ha hb this).1 p2, rfl⟩
  · cases e

theorem leastCost_inf {M : DM K} [BandOps] {ratio : ℚ} (hr : 0 ≤ ratio) {a b : List K} (L : Grow M a.length b.length) (ha : 1 ≤ a.length)
    (hb : 1 ≤ b.length) {V : List (ℕ × ℕ) → K} :
    warpedValue M ratio (a.map fin) (b.map fin) .inf = .ok .inf ↔ LeastCost ratio a b V .inf := by
  have hbw := band_eq_bandWidth hr (len := max a.length b.length) (by omega)
  constructor
  · intro h
    rcases warped_attain L hbw ha hb with ⟨p, p1, p2, e⟩ | ⟨-, hno⟩
    · rw [e, Except.ok.injEq] at h
      cases h
    · refine Or.inr ⟨rfl, Set.eq_empty_iff_forall_notMem.2 ?_⟩
      rintro v ⟨p, h1, h2, -⟩
      exact hno ⟨p, alignment_iff.1 h1, (allowed_dtwBand ha hb h1).2 h2⟩
  · rintro (⟨x, e, -⟩ | ⟨-, e⟩)
    · cases e
    · rcases warped_attain L hbw ha hb with ⟨p, p1, p2, -⟩ | ⟨h, -⟩
      · have h1 := alignment_iff.2 p1
        have : V p ∈ bandedCosts a.length b.length (dtwBand ratio a.length b.length) V :=
          ⟨p, h1, (allowed_dtwBand ha hb h1).1 p2, rfl⟩
        rw [e] at this; exact this.elim
      · exact h

/-! ## Pairwise distances -/

/-- Rounded sum of rounded terms. -/
def accZ (rd : K → K) (δr : K → K → K) : K → List K → List K → K
  | s, x :: xs, y :: ys => accZ rd δr (rd (s + δr x y)) xs ys
  | s, _, _ => s

theorem accZ_le (hp : ErrOn P rd u η) (hrd : Rounding rd) (hu : 0 ≤ u) {δ δr : K → K → K} {k : ℕ} (hδ : ∀ x y, 0 ≤ δ x y)
    (h0 : ∀ x y, 0 ≤ δr x y) (hr : ∀ x y, rd (δr x y) = δr x y) (h2 : ∀ x y, P x → P y → δr x y ≤ (1 + u) ^ k * δ x y) {n : ℕ}
    (a b : List K) (ha : a.length = n) (hb : b.length = n) (hPa : ∀ x ∈ a, P x) (hPb : ∀ x ∈ b, P x) {s t : K} {j : ℕ} (hj : k ≤ j)
    (hs0 : 0 ≤ s) (hf : rd s = s) (e2 : s ≤ (1 + u) ^ j * t) :
    accZ rd δr s a b ≤ (1 + u) ^ (j + n) * (t + (List.zipWith δ a b).sum) := by
  induction a generalizing b n s t j with
  | nil => subst ha; simp [accZ, e2]
  | cons x xs ih =>
    cases b with
    | nil => simp at hb; simp [← hb] at ha
    | cons y ys =>
      have hd := hδ x y
      have hr0 := h0 x y
      obtain ⟨m, rfl⟩ : ∃ m, n = m + 1 := ⟨xs.length, by simpa using ha.symm⟩
      have := ih (n := m) ys (by simpa using ha) (by simpa using hb) (fun z hz => hPa z (by simp [hz])) (fun z hz => hPb z (by simp [hz]))
        (s := rd (s + δr x y)) (t := t + δ x y) (j := j + 1) (by omega) (hrd.nonneg (add_nonneg hs0 hr0)) (hrd.idem _) ?_
      · simp only [accZ, List.zipWith_cons_cons, List.sum_cons]
        rw [show j + (m + 1) = j + 1 + m by omega, ← add_assoc]
        exact this
      · refine le_trans (rd_add_le hp hs0 hr0 hf (hr x y)) ?_
        rw [pow_succ', mul_assoc]
        refine mul_le_mul_of_nonneg_left ?_ (by linarith)
        rw [mul_add]
        exact add_le_add e2 (le_trans (h2 x y (hPa x (by simp)) (hPb y (by simp)))
          (mul_le_mul_of_nonneg_right (pow_le_pow_right₀ (by linarith) hj) hd))

theorem le_accZ (hp : ErrOn P rd u η) (hrd : Rounding rd) (hu : 0 ≤ u) (hu1 : u < 1) {δ δr : K → K → K} {k : ℕ} (hδ : ∀ x y, 0 ≤ δ x y)
    (h0 : ∀ x y, 0 ≤ δr x y) (hr : ∀ x y, rd (δr x y) = δr x y) (h1 : ∀ x y, P x → P y → (1 - u) ^ k * δ x y ≤ δr x y) {n : ℕ}
    (a b : List K) (ha : a.length = n) (hb : b.length = n) (hPa : ∀ x ∈ a, P x) (hPb : ∀ x ∈ b, P x) {s t : K} {j : ℕ} (hj : k ≤ j)
    (hs0 : 0 ≤ s) (hf : rd s = s) (e1 : (1 - u) ^ j * t ≤ s) :
    (1 - u) ^ (j + n) * (t + (List.zipWith δ a b).sum) ≤ accZ rd δr s a b := by
  have hm : 0 ≤ 1 - u := by linarith
  induction a generalizing b n s t j with
  | nil => subst ha; simp [accZ, e1]
  | cons x xs ih =>
    cases b with
    | nil => simp at hb; simp [← hb] at ha
    | cons y ys =>
      have hd := hδ x y
      have hr0 := h0 x y
      obtain ⟨m, rfl⟩ : ∃ m, n = m + 1 := ⟨xs.length, by simpa using ha.symm⟩
      have := ih (n := m) ys (by simpa using ha) (by simpa using hb) (fun z hz => hPa z (by simp [hz])) (fun z hz => hPb z (by simp [hz]))
        (s := rd (s + δr x y)) (t := t + δ x y) (j := j + 1) (by omega) (hrd.nonneg (add_nonneg hs0 hr0)) (hrd.idem _) ?_
      · simp only [accZ, List.zipWith_cons_cons, List.sum_cons]
        rw [show j + (m + 1) = j + 1 + m by omega, ← add_assoc]
        exact this
      · refine le_trans ?_ (le_rd_add hp hs0 hr0 hf (hr x y))
        rw [pow_succ', mul_assoc]
        refine mul_le_mul_of_nonneg_left ?_ hm
        rw [mul_add]
        exact add_le_add e1 (le_trans (mul_le_mul_of_nonneg_right (pow_le_pow_of_le_one hm (by linarith) hj) hd)
          (h1 x y (hPa x (by simp)) (hPb y (by simp))))

theorem zipSum_add (δ : K → K → K) (κ : K) {n : ℕ} (a b : List K) (ha : a.length = n) (hb : b.length = n) :
    (List.zipWith (fun x y => δ x y + κ) a b).sum = (List.zipWith δ a b).sum + n * κ := by
  induction a generalizing b n with
  | nil => subst ha; simp
  | cons x xs ih =>
    cases b with
    | nil => simp at hb; simp [← hb] at ha
    | cons y ys =>
      obtain ⟨m, rfl⟩ : ∃ m, n = m + 1 := ⟨xs.length, by simpa using ha.symm⟩
      rw [List.zipWith_cons_cons, List.zipWith_cons_cons, List.sum_cons, List.sum_cons, ih ys (by simpa using ha) (by simpa using hb)]
      push_cast
      ring

theorem zipSum_mono {δ δ' : K → K → K} (h : ∀ x y, δ x y ≤ δ' x y) (a b : List K) :
    (List.zipWith δ a b).sum ≤ (List.zipWith δ' a b).sum := by
  induction a generalizing b with
  | nil => simp
  | cons x xs ih =>
    cases b with
    | nil => simp
    | cons y ys =>
      rw [List.zipWith_cons_cons, List.zipWith_cons_cons, List.sum_cons, List.sum_cons]
      exact add_le_add (h x y) (ih ys)

theorem zipSum_nonneg {δ : K → K → K} (h : ∀ x y, 0 ≤ δ x y) (a b : List K) : 0 ≤ (List.zipWith δ a b).sum := by
  induction a generalizing b with
  | nil => simp
  | cons x xs ih =>
    cases b with
    | nil => simp
    | cons y ys =>
      rw [List.zipWith_cons_cons, List.sum_cons]
      exact add_nonneg (h x y) (ih ys)

theorem pwFold_manhattanR (t : K) (a b : List K) :
    pwFold (manhattanR rd) (fin t) (a.map fin) (b.map fin) = fin (accZ rd (fun x y => |rd (x - y)|) t a b) := by
  induction a generalizing t b with
  | nil => simp [pwFold, accZ]; rfl
  | cons x xs ih =>
    cases b with
    | nil => simp [pwFold, accZ]; rfl
    | cons y ys =>
      simp only [List.map_cons, pwFold, accZ]
      have : (manhattanR rd).reduce (fin t) (fin x) (fin y) = fin (rd (t + |rd (x - y)|)) := by
        simp [manhattanR, abs_fin]
      rw [this, ih]

theorem pwFold_euclideanR [HasSqrt K] (t : K) (a b : List K) :
    pwFold (euclideanR rd) (fin t) (a.map fin) (b.map fin) = fin (accZ rd (sqR rd) t a b) := by
  induction a generalizing t b with
  | nil => simp [pwFold, accZ]; rfl
  | cons x xs ih =>
    cases b with
    | nil => simp [pwFold, accZ]; rfl
    | cons y ys =>
      simp only [List.map_cons, pwFold, accZ]
      have : (euclideanR rd).reduce (fin t) (fin x) (fin y) = fin (rd (t + sqR rd x y)) := by
        simp [euclideanR, eucDistR_fin]
      rw [this, ih]

theorem pwFold_chebyshevR (hrd : Rounding rd) (t : K) (ht : 0 ≤ t) (a b : List K) :
    pwFold (chebyshevR rd) (fin (rd t)) (a.map fin) (b.map fin) =
      fin (rd (max t ((List.zipWith (fun x y => |x - y|) a b).foldr max 0))) := by
  induction a generalizing t b with
  | nil => simp [pwFold, ht]; rfl
  | cons x xs ih =>
    cases b with
    | nil => simp [pwFold, ht]; rfl
    | cons y ys =>
      simp only [List.map_cons, pwFold, List.zipWith_cons_cons, List.foldr_cons]
      have : (chebyshevR rd).reduce (fin (rd t)) (fin x) (fin y) = fin (rd (max t |x - y|)) := by
        simp [chebyshevR, abs_fin, stdMax_fin, hrd.abs, rd_max hrd]
      rw [this, ih _ (le_trans ht (le_max_left _ _)), max_assoc]

theorem pairwise_chebyshevR (hrd : Rounding rd) (a b : List K) (hl : a.length = b.length) (hp : 1 ≤ a.length) :
    pairwiseDistance (chebyshevR rd) (a.map fin) (b.map fin) .inf = .ok (fin (rd (maxAbs a b))) := by
  rw [pairwise_unbounded _ _ _ hl]
  · cases a with
    | nil => simp at hp
    | cons x xs =>
      cases b with
      | nil => simp at hl
      | cons y ys =>
        simp only [List.map_cons, pwFold]
        have : (chebyshevR rd).reduce (chebyshevR rd).init (fin x) (fin y) = fin (rd |x - y|) := by
          simp [chebyshevR, abs_fin, stdMax, hrd.abs]
        rw [this, pwFold_chebyshevR hrd _ (abs_nonneg _)]
        rfl
  · intro t; exact decide_eq_false (inf_lt _).1

section
variable (hrd : Rounding rd) (hp : ErrOn P rd u η) (hu : 0 ≤ u) (hu1 : u < 1) (a b : List K) (hl : a.length = b.length)
  (hPa : ∀ x ∈ a, P x) (hPb : ∀ x ∈ b, P x)
include hrd hp hu hu1 hl hPa hPb

theorem pairwise_manhattanR (hn : 1 ≤ a.length) :
    ∃ x, pairwiseDistance (manhattanR rd) (a.map fin) (b.map fin) .inf = .ok (fin x) ∧
      (1 - u) ^ (a.length + 2) * meanAbs a b - η ≤ x ∧ x ≤ (1 + u) ^ (a.length + 2) * meanAbs a b + η := by
  have hn0 : (0 : K) < (a.length : K) := by exact_mod_cast hn
  have hm : 0 ≤ 1 - u := by linarith
  have hf : ∀ x y : K, rd |rd (x - y)| = |rd (x - y)| := fun x y => by rw [hrd.abs, hrd.idem]
  have h1 := le_accZ hp hrd hu hu1 (k := 1) (fun x y : K => abs_nonneg (x - y)) (fun _ _ => abs_nonneg _) hf
    (fun x y hx hy => (absR hp hu hu1 hx hy).1) a b rfl hl.symm hPa hPb (s := 0) (t := 0) (j := 1) (le_refl _) (le_refl _) hrd.zero (by simp)
  have h2 := accZ_le hp hrd hu (k := 1) (fun x y : K => abs_nonneg (x - y)) (fun _ _ => abs_nonneg _) hf
    (fun x y hx hy => (absR hp hu hu1 hx hy).2) a b rfl hl.symm hPa hPb (s := 0) (t := 0) (j := 1) (le_refl _) (le_refl _) hrd.zero (by simp)
  rw [zero_add] at h1 h2
  have hc : 0 ≤ (List.zipWith (fun x y : K => |x - y|) a b).sum := sumabs_nonneg a b
  have hs0 := le_trans (mul_nonneg (pow_nonneg hm _) hc) h1
  refine ⟨rd (accZ rd (fun x y => |rd (x - y)|) 0 a b / a.length), ?_, ?_, ?_⟩
  · rw [pairwise_unbounded _ _ _ hl]
    · have h1 : (manhattanR rd).init = fin 0 := rfl
      rw [h1, pwFold_manhattanR]
      change Except.ok (rnd rd (fin _ / Dbl.ofNat (max a.length b.length))) = _
      rw [← hl, max_self, Dbl.ofNat, fin_div_fin (ne_of_gt hn0), rnd_fin]
    · intro t; exact decide_eq_false (inf_lt _).1
  · refine le_trans (sub_le_sub_right ?_ _) (le_rd hp (div_nonneg hs0 (le_of_lt hn0)))
    rw [pow_succ', mul_assoc, meanAbs, add_comm a.length 1, ← mul_div_assoc ((1 - u) ^ _)]
    exact mul_le_mul_of_nonneg_left (div_le_div_of_nonneg_right h1 (le_of_lt hn0)) hm
  · refine le_trans (rd_le hp (div_nonneg hs0 (le_of_lt hn0))) (add_le_add_left ?_ _)
    rw [pow_succ', mul_assoc, meanAbs, add_comm a.length 1, ← mul_div_assoc ((1 + u) ^ _)]
    exact mul_le_mul_of_nonneg_left (div_le_div_of_nonneg_right h2 (le_of_lt hn0)) (by linarith)

variable (hη : 0 ≤ η)
include hη

/-- The sum of squares. -/
theorem accZ_sq_le : accZ rd (sqR rd) 0 a b ≤
    (1 + u) ^ (a.length + 3) * ((List.zipWith (fun x y : K => (x - y) ^ 2) a b).sum + a.length * η) := by
  have h2 := accZ_le hp hrd hu (k := 3) (δ := fun x y : K => (x - y) ^ 2 + η) (fun x y : K => add_nonneg (sq_nonneg (x - y)) hη)
    (sqR_nonneg hrd) (fun x y => hrd.idem _) (fun x y hx hy => by
      refine le_trans (sqR_error hp hu hu1 hx hy).2 ?_
      rw [mul_add]
      exact add_le_add_right (le_mul_of_one_le_left hη (one_le_pow₀ (by linarith))) _) a b rfl hl.symm hPa hPb (s := 0) (t := 0) (j := 3)
    (le_refl _) (le_refl _) hrd.zero (by simp)
  rw [zero_add, zipSum_add _ _ _ _ rfl hl.symm, add_comm 3] at h2
  exact h2

theorem le_accZ_sq (hu6 : 6 * u ≤ 1) : (1 - u) ^ (a.length + 3) * ((List.zipWith (fun x y : K => (x - y) ^ 2) a b).sum - a.length * (2 * η)) ≤
    accZ rd (sqR rd) 0 a b := by
  have hm : 0 ≤ 1 - u := by linarith
  have hhalf : 1 / 2 ≤ (1 - u) ^ 3 := by
    have := pow_ge_linear hu hu1 3
    push_cast at this
    linarith
  have hκ : 0 ≤ 2 * η := by linarith
  have h1 := le_accZ hp hrd hu hu1 (k := 3) (δr := sqR rd) (δ := fun x y : K => max 0 ((x - y) ^ 2 + -(2 * η))) (fun x y => le_max_left _ _)
    (sqR_nonneg hrd) (fun x y => hrd.idem _) (fun x y hx hy => by
      have h1 := (sqR_error hp hu hu1 hx hy).1
      rcases le_total ((x - y) ^ 2 + -(2 * η)) 0 with h | h
      · rw [max_eq_left h, mul_zero]; exact sqR_nonneg hrd _ _
      · rw [max_eq_right h]
        have := mul_le_mul_of_nonneg_right hhalf hκ
        linarith) a b rfl hl.symm hPa hPb (s := 0) (t := 0) (j := 3) (le_refl _) (le_refl _) hrd.zero (by simp)
  rw [zero_add, add_comm 3] at h1
  refine le_trans (mul_le_mul_of_nonneg_left ?_ (pow_nonneg hm _)) h1
  refine le_trans (le_of_eq ?_) (zipSum_mono (fun x y : K => le_max_right 0 ((x - y) ^ 2 + -(2 * η))) a b)
  rw [zipSum_add _ _ _ _ rfl hl.symm]
  ring

variable [HasSqrt K] [LawfulSqrt K] {θ : K} (hθ0 : 0 ≤ θ) (hθ : η ≤ θ * θ) (hn : 1 ≤ a.length) (hu6 : 6 * u ≤ 1)
include hθ0 hθ hn hu6

theorem pairwise_euclideanR :
    ∃ x, pairwiseDistance (euclideanR rd) (a.map fin) (b.map fin) .inf = .ok (fin x) ∧
      (1 - u) ^ (a.length + 4) * rms a b - 2 * θ - η ≤ x ∧ x ≤ (1 + u) ^ (a.length + 4) * (rms a b + 3 / 2 * θ) + η := by
  have hn0 : (0 : K) < (a.length : K) := by exact_mod_cast hn
  have hm : 0 ≤ 1 - u := by linarith
  have hpl : 0 ≤ 1 + u := by linarith
  have h1 := le_accZ_sq hrd hp hu hu1 a b hl hPa hPb hη hu6
  have h2 := accZ_sq_le hrd hp hu hu1 a b hl hPa hPb hη
  have hc : 0 ≤ (List.zipWith (fun x y : K => (x - y) ^ 2) a b).sum := sumsq_nonneg a b
  have hs0 : 0 ≤ accZ rd (sqR rd) 0 a b := by
    have := le_accZ hp hrd hu hu1 (k := 3) (δr := sqR rd) (δ := fun _ _ : K => 0) (fun _ _ => le_refl _)
      (sqR_nonneg hrd) (fun x y => hrd.idem _) (fun x y _ _ => by rw [mul_zero]; exact sqR_nonneg hrd _ _) a b rfl hl.symm hPa hPb
      (s := 0) (t := 0) (j := 3) (le_refl _) (le_refl _) hrd.zero (by simp)
    refine le_trans (mul_nonneg (pow_nonneg hm _) ?_) this
    rw [zero_add]
    exact zipSum_nonneg (fun _ _ => le_refl _) a b
  have hval : pairwiseDistance (euclideanR rd) (a.map fin) (b.map fin) .inf =
      .ok (fin (rd (HasSqrt.sqrt (rd (accZ rd (sqR rd) 0 a b / a.length))))) := by
    have ht0 := hrd.nonneg (div_nonneg hs0 (le_of_lt hn0))
    rw [pairwise_unbounded _ _ _ hl]
    · have h1 : (euclideanR rd).init = fin 0 := rfl
      rw [h1, pwFold_euclideanR]
      change Except.ok (rnd rd (Dbl.sqrt (rnd rd (fin _ / Dbl.ofNat (max a.length b.length))))) = _
      rw [← hl, max_self, Dbl.ofNat, fin_div_fin (ne_of_gt hn0), rnd_fin, sqrt_fin ht0, rnd_fin]
    · intro t
      refine decide_eq_false ?_
      change ¬ rnd rd (rnd rd (inf * inf) * Dbl.ofNat (max a.length b.length)) < _
      have e0 : (max a.length b.length : ℕ) = a.length := by rw [← hl, max_self]
      have e1 : (inf : Dbl K) * inf = inf := rfl
      have e2 : (inf : Dbl K) * Dbl.ofNat a.length = inf := by
        have := inf_mul_inf_mul (K := K) hn
        rwa [e1] at this
      rw [e0, e1]
      change ¬ rnd rd (inf * Dbl.ofNat a.length) < _
      rw [e2]
      change ¬ (inf : Dbl K) < _
      simp
  have hrms : rms a b = HasSqrt.sqrt ((List.zipWith (fun x y : K => (x - y) ^ 2) a b).sum / a.length) := rfl
  rw [hrms]
  generalize (List.zipWith (fun x y : K => (x - y) ^ 2) a b).sum = c at h1 h2 hc ⊢
  generalize accZ rd (sqR rd) 0 a b = s at h1 h2 hs0 hval
  have hq0 := div_nonneg hs0 (le_of_lt hn0)
  have hc0 := div_nonneg hc (le_of_lt hn0)
  have ht0 := hrd.nonneg hq0
  have hq := LawfulSqrt.sqrt_nonneg ht0
  refine ⟨_, hval, ?_, ?_⟩
  · -- from below
    have b1 : (1 - u) ^ (a.length + 4) * (c / a.length) ≤ rd (s / a.length) + 2 * θ * (2 * θ) := by
      have k1 := le_rd hp hq0
      have k2 := div_le_div_of_nonneg_right h1 (le_of_lt hn0)
      have k3 := mul_le_mul_of_nonneg_left k2 hm
      have e : (1 - u) * ((1 - u) ^ (a.length + 3) * (c - a.length * (2 * η)) / a.length) =
          (1 - u) ^ (a.length + 4) * (c / a.length) - (1 - u) ^ (a.length + 4) * (2 * η) := by
        field_simp
        ring
      rw [e] at k3
      have k4 : (1 - u) ^ (a.length + 4) * (2 * η) ≤ 2 * η := mul_le_of_le_one_left (by linarith) (pow_le_one₀ hm (by linarith))
      linarith
    have b2 : (1 - u) ^ (a.length + 3) * HasSqrt.sqrt (c / a.length) ≤ HasSqrt.sqrt (rd (s / a.length)) + 2 * θ := by
      rw [← sqrt_mul_sq (pow_nonneg hm _) hc0]
      refine sqrt_le_add (mul_nonneg (mul_nonneg (pow_nonneg hm _) (pow_nonneg hm _)) hc0) ht0 (by linarith) (le_trans ?_ b1)
      rw [← pow_add]
      exact mul_le_mul_of_nonneg_right (pow_le_pow_of_le_one hm (by linarith) (by omega)) hc0
    refine le_trans ?_ (le_rd hp hq)
    have b3 := mul_le_mul_of_nonneg_left b2 hm
    have e : (1 - u) ^ (a.length + 4) * HasSqrt.sqrt (c / a.length) = (1 - u) * ((1 - u) ^ (a.length + 3) * HasSqrt.sqrt (c / a.length)) := by
      rw [← mul_assoc, ← pow_succ']
    rw [e]
    have : (1 - u) * (2 * θ) ≤ 2 * θ := mul_le_of_le_one_left (by linarith) (by linarith)
    linarith
  · have b1 : rd (s / a.length) ≤ (1 + u) ^ (a.length + 4) * (c / a.length + 2 * η) := by
      have k1 := rd_le hp hq0
      have k2 := div_le_div_of_nonneg_right h2 (le_of_lt hn0)
      have k3 := mul_le_mul_of_nonneg_left k2 hpl
      have e : (1 + u) * ((1 + u) ^ (a.length + 3) * (c + a.length * η) / a.length) =
          (1 + u) ^ (a.length + 4) * (c / a.length) + (1 + u) ^ (a.length + 4) * η := by
        field_simp
        ring
      rw [e] at k3
      have k4 : η ≤ (1 + u) ^ (a.length + 4) * η := le_mul_of_one_le_left hη (one_le_pow₀ (by linarith))
      linarith
    have hd0 : 0 ≤ c / a.length + 2 * η := by linarith
    have b2 : HasSqrt.sqrt (rd (s / a.length)) ≤ (1 + u) ^ (a.length + 3) * (HasSqrt.sqrt (c / a.length) + 3 / 2 * θ) := by
      have k1 : HasSqrt.sqrt (c / a.length + 2 * η) ≤ HasSqrt.sqrt (c / a.length) + 3 / 2 * θ :=
        sqrt_le_add hd0 hc0 (by linarith) (by linarith [mul_nonneg hθ0 hθ0])
      refine le_trans ?_ (mul_le_mul_of_nonneg_left k1 (pow_nonneg hpl _))
      rw [← sqrt_mul_sq (pow_nonneg hpl _) hd0]
      refine sqrt_mono ht0 (le_trans b1 ?_)
      rw [← pow_add]
      exact mul_le_mul_of_nonneg_right (pow_le_pow_right₀ (by linarith) (by omega)) hd0
    refine le_trans (rd_le hp hq) (add_le_add_left ?_ _)
    rw [show a.length + 4 = (a.length + 3) + 1 by omega, pow_succ', mul_assoc]
    exact mul_le_mul_of_nonneg_left b2 hpl

end

/-- The euclidean distance is given up only if the bound is below the distance, up to the error. -/
theorem euclideanR_within [HasSqrt K] [LawfulSqrt K] (hrd : Rounding rd) (hp : ErrOn P rd u η) (hu : 0 ≤ u) (a b : List K)
    (hl : a.length = b.length) (hPa : ∀ x ∈ a, P x) (hPb : ∀ x ∈ b, P x) (hη : 0 ≤ η) {θ : K} (hθ0 : 0 ≤ θ) (hθ : η ≤ θ * θ) {e : K} (he : 2 * ((a.length + 4 : ℕ) * u) ≤ e) (he1 : e ≤ 1) (d : Dbl K) :
    ∃ F, pairwiseDistance (euclideanR rd) (a.map fin) (b.map fin) .inf = .ok F ∧
      (pairwiseDistance (euclideanR rd) (a.map fin) (b.map fin) d = .ok F ∨
        (d < fin ((1 + e) * (rms a b + 2 * θ)) ∧ pairwiseDistance (euclideanR rd) (a.map fin) (b.map fin) d = .ok .inf)) := by
  have hn : 0 ≤ (a.length : K) * u := mul_nonneg (Nat.cast_nonneg _) hu
  have hu1 : u < 1 := by push_cast at he; linarith
  have hm : 0 ≤ 1 - u := by linarith
  by_cases hlen : a.length = 0
  · obtain rfl : a = [] := List.length_eq_zero_iff.1 hlen
    obtain rfl : b = [] := List.length_eq_zero_iff.1 hl.symm
    exact ⟨_, rfl, Or.inl rfl⟩
  have hn0 : (0 : K) < (a.length : K) := by exact_mod_cast Nat.pos_of_ne_zero hlen
  have hE : (max a.length b.length : ℕ) = a.length := by rw [← hl, max_self]
  refine (fun ⟨F, h1, _, h2⟩ => ⟨F, h1, h2⟩ : (∃ F, _ ∧ F = _ ∧ _) → _) <| pairwise_dropWithin (euclideanR rd) a b hl d
    (fin ((1 + e) * (rms a b + 2 * θ))) ?_ (fun s => ∃ x : K, rd x = x ∧ s = fin x) leFin (fun _ => Or.inl rfl) leFin_trans
    ⟨0, hrd.zero, rfl⟩ ?_ ?_ ?_
  · intro t
    refine decide_eq_false ?_
    change ¬ rnd rd (rnd rd (inf * inf) * Dbl.ofNat (max a.length b.length)) < _
    have e1 : (inf : Dbl K) * inf = inf := rfl
    have e2 : (inf : Dbl K) * Dbl.ofNat a.length = inf := by
      have := inf_mul_inf_mul (K := K) (Nat.pos_of_ne_zero hlen)
      rwa [e1] at this
    rw [hE, e1]
    change ¬ rnd rd (inf * Dbl.ofNat a.length) < _
    rw [e2]
    change ¬ (inf : Dbl K) < _
    simp
  · rintro s x y ⟨t, -, rfl⟩
    exact ⟨rd (t + sqR rd x y), hrd.idem _, by simp [euclideanR, eucDistR_fin]⟩
  · rintro s x y ⟨t, ht, rfl⟩
    right
    simp only [euclideanR, eucDistR_fin, fin_add_fin, rnd_fin, fin_le_fin]
    exact hrd.add_le ht (sqR_nonneg hrd _ _)
  · intro s _ hs hf hle h
    obtain ⟨t, -, rfl⟩ := hs
    have hi : (euclideanR rd).init = fin 0 := rfl
    rw [hi, pwFold_euclideanR] at hle
    have hS := leFin_fin hle
    have hz := accZ_sq_le hrd hp hu hu1 a b hl hPa hPb hη
    have hc : 0 ≤ (List.zipWith (fun x y : K => (x - y) ^ 2) a b).sum := sumsq_nonneg a b
    have hr0 : 0 ≤ rms a b := LawfulSqrt.sqrt_nonneg (div_nonneg hc (le_of_lt hn0))
    have hrr : rms a b * rms a b * a.length = (List.zipWith (fun x y : K => (x - y) ^ 2) a b).sum := by
      rw [rms, LawfulSqrt.mul_self (div_nonneg hc (le_of_lt hn0)), div_mul_cancel₀ _ (ne_of_gt hn0)]
    replace h : rnd rd (rnd rd (d * d) * Dbl.ofNat (max a.length b.length)) < fin t := of_decide_eq_true h
    rw [hE] at h
    have hinf : ¬ (rnd rd (rnd rd inf * Dbl.ofNat a.length) < fin t) := by
      have e2 : (inf : Dbl K) * Dbl.ofNat a.length = inf := by
        have := inf_mul_inf_mul (K := K) (Nat.pos_of_ne_zero hlen)
        exact this
      change ¬ rnd rd (inf * Dbl.ofNat a.length) < _
      rw [e2]
      change ¬ (inf : Dbl K) < _
      simp
    cases d with
    | inf => exact absurd h hinf
    | ninf => exact absurd h hinf
    | nan => exact absurd h (by change ¬ (nan : Dbl K) < _; simp)
    | fin d =>
      rw [fin_mul_fin, rnd_fin, Dbl.ofNat, fin_mul_fin, rnd_fin, fin_lt_fin] at h
      rw [fin_lt_fin]
      have g1 := le_rd hp (mul_self_nonneg d)
      have hrd0 := hrd.nonneg (mul_self_nonneg d)
      have g2 := le_rd hp (mul_nonneg hrd0 (le_of_lt hn0))
      have hn1 : (1 : K) ≤ (a.length : K) := by exact_mod_cast Nat.pos_of_ne_zero hlen
      have g3 : (1 - u) * ((1 - u) * (d * d) * a.length) ≤ rd (rd (d * d) * a.length) + a.length * (2 * η) := by
        have k1 := mul_le_mul_of_nonneg_left (mul_le_mul_of_nonneg_right g1 (le_of_lt hn0)) hm
        have k2 : 0 ≤ u * (a.length * η) := mul_nonneg hu (mul_nonneg (le_of_lt hn0) hη)
        have k3 := mul_le_mul_of_nonneg_right hn1 hη
        linarith
      have hk : 2 * (((a.length + 3 : ℕ) : K) * u) ≤ 1 := by push_cast at he ⊢; linarith
      have g4 := one_add_pow_le hu (a.length + 3) hk
      have g5 : 1 + 2 * (((a.length + 3 : ℕ) : K) * u) ≤ (1 + e) * (1 - u) := by
        have : e * u ≤ 1 * u := mul_le_mul_of_nonneg_right he1 hu
        push_cast at he ⊢
        linarith
      have hq : (1 : K) ≤ (1 + e) * (1 - u) := by
        refine le_trans ?_ g5
        have : 0 ≤ ((a.length + 3 : ℕ) : K) * u := mul_nonneg (Nat.cast_nonneg _) hu
        linarith
      have g6 : (1 + u) ^ (a.length + 3) ≤ ((1 + e) * (1 - u)) * ((1 + e) * (1 - u)) :=
        le_trans g4 (le_trans g5 (le_mul_of_one_le_left (by linarith) hq))
      have hone : 1 ≤ (1 + u) ^ (a.length + 3) := one_le_pow₀ (by linarith)
      -- the squares
      have g7 : (1 - u) * ((1 - u) * (d * d) * a.length) <
          ((1 + e) * (1 - u)) * ((1 + e) * (1 - u)) * ((rms a b + 2 * θ) * (rms a b + 2 * θ) * a.length) := by
        have k0 : 0 ≤ (a.length : K) * η := mul_nonneg (le_of_lt hn0) hη
        have k1 : (1 - u) * ((1 - u) * (d * d) * a.length) <
            (1 + u) ^ (a.length + 3) * ((List.zipWith (fun x y : K => (x - y) ^ 2) a b).sum + a.length * (3 * η)) := by
          have : a.length * (2 * η) ≤ (1 + u) ^ (a.length + 3) * (a.length * (2 * η)) := le_mul_of_one_le_left (by linarith) hone
          linarith
        have k2 : (List.zipWith (fun x y : K => (x - y) ^ 2) a b).sum + a.length * (3 * η) ≤
            (rms a b + 2 * θ) * (rms a b + 2 * θ) * a.length := by
          rw [← hrr]
          have k3 : 3 * η ≤ 2 * θ * (2 * θ) := by linarith [mul_nonneg hθ0 hθ0]
          have k4 : 0 ≤ rms a b * θ * a.length := mul_nonneg (mul_nonneg hr0 hθ0) (le_of_lt hn0)
          have k5 := mul_le_mul_of_nonneg_left k3 (le_of_lt hn0)
          linarith
        refine lt_of_lt_of_le k1 (le_trans (mul_le_mul_of_nonneg_right g6 (by linarith)) (mul_le_mul_of_nonneg_left k2 (by positivity)))
      have hm' : 0 < 1 - u := by linarith
      have g8 : d * d < ((1 + e) * (rms a b + 2 * θ)) * ((1 + e) * (rms a b + 2 * θ)) := by
        have hpos : 0 < (1 - u) * (1 - u) * a.length := mul_pos (mul_pos hm' hm') hn0
        refine lt_of_mul_lt_mul_left ?_ (le_of_lt hpos)
        calc (1 - u) * (1 - u) * a.length * (d * d) = (1 - u) * ((1 - u) * (d * d) * a.length) := by ring
          _ < _ := g7
          _ = _ := by ring
      have he0 : 0 ≤ e := le_trans (mul_nonneg (by norm_num) (mul_nonneg (Nat.cast_nonneg _) hu)) he
      exact lt_of_mul_self_lt_mul_self₀ (mul_nonneg (by linarith) (by linarith)) g8

end Genex
