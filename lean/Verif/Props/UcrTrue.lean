import Verif.Lemmas.UcrNear
import Verif.Spec.UcrTrue
import Verif.Props.UcrRounded

/-!
# C103: the search by scanning, with rounded results, and the exact distances (genex/lib/trillionDTW.cpp)

C102 compares the costs of the windows as the code normalises them.  Here these are compared with the exact distances of the exactly standardised windows.
-/

set_option linter.unusedSectionVars false

namespace Genex.Props

open Dbl Spec Ucr

section
variable {K : Type} [Field K] [LinearOrder K] [IsStrictOrderedRing K] [HasSqrt K] [LawfulSqrt K] {fl : K → K} {u θ : K}

theorem Varied.toEnough {N : ℕ} {M τ : K} {w : List K} (h : Varied u θ N M τ w) (hθ0 : 0 ≤ θ) (hθ : θ ≤ M) (hτ : τ ≤ 1 / 4) (hN : 2 * w.length ≤ N) (hl : 1 ≤ w.length)
    (hM : ∀ x ∈ w, |x| ≤ M) : Enough u θ N w.length M τ (variance w) where
  θM := hθ
  len := hN
  le := variance_le hl (hθ0.trans hθ) hM
  pos := h.1
  τ_le := hτ
  enough := h.2

/-- C103.  A window of the data that is varied enough — the data being numbers of the arithmetic up to `M` — has a deviation also when it is computed from the running sums, and
its points are normalised to what they should be up to `4 τ √m`. -/
theorem C103_window (h : FloatOps fl u θ) {data : List K} {epoch m i : ℕ} {M τ : K} (hm : 1 ≤ m) (hme : m ≤ epoch) (hθ : θ ≤ M) (hτ : τ ≤ 1 / 4) (hf : Floats fl data)
    (hM : ∀ x ∈ data, |x| ≤ M) (hi : i + m ≤ data.length) (hv : Varied u θ (2 * epoch) M τ (part data m i)) :
    0 < partDev fl m (epoch + 1 - m) data i ∧
      ∀ k, |(partBy fl m (epoch + 1 - m) data i).getD k 0 - (standardised (part data m i)).getD k 0| ≤ 4 * τ * HasSqrt.sqrt (m : K) := by
  have hl : (part data m i).length = m := part_length hi
  have E := Varied.toEnough hv h.θ_nonneg hθ hτ (by omega) (by omega) (fun x hx => hM x (List.mem_of_mem_drop (List.mem_of_mem_take hx)))
  rw [hl] at E
  refine part_near h hm hi hf hM ?_ E
  have := Nat.mod_lt i (show 0 < epoch + 1 - m by omega)
  omega

/-- C103.  So has the query. -/
theorem C103_query (h : FloatOps fl u θ) {q : List K} {N : ℕ} {M τ : K} (hm : 1 ≤ q.length) (hN : 2 * q.length ≤ N) (hθ : θ ≤ M) (hτ : τ ≤ 1 / 4) (hf : Floats fl q)
    (hM : ∀ x ∈ q, |x| ≤ M) (hv : Varied u θ N M τ q) :
    0 < queryDev fl q ∧ ∀ k, |(queryBy fl q).getD k 0 - (standardised q).getD k 0| ≤ 4 * τ * HasSqrt.sqrt (q.length : K) :=
  query_near h hm hf hM (by omega) (Varied.toEnough hv h.θ_nonneg hθ hτ hN hm hM)

theorem varied_not_flat {N : ℕ} {M τ : K} {w : List K} (hl : 1 ≤ w.length) (h : Varied u θ N M τ w) : ¬ Flat w := fun hf => by
  have := (variance_zero hl).2 hf
  have := h.1
  linarith

theorem scaledBy_floats (h : Rounding fl) (A s : K) (w : List K) : Floats fl (scaledBy fl A s w) := by
  intro x hx
  unfold scaledBy at hx
  obtain ⟨y, -, rfl⟩ := List.mem_map.1 hx
  exact h.idem _

/-- C103.  The least cost of a window that is varied enough, as it is computed, and its exact distance from the query. -/
theorem C103_distance (h : FloatOps fl u θ) {data q : List K} {epoch m r i : ℕ} {M τ : K} (hm : 1 ≤ m) (hme : m ≤ epoch) (hθ : θ ≤ M) (hτ : τ ≤ 1 / 4) (hf : Floats fl data)
    (hM : ∀ x ∈ data, |x| ≤ M) (hi : i + m ≤ data.length) (hv : Varied u θ (2 * epoch) M τ (part data m i)) (hql : q.length = m) (hqf : Floats fl q) (hqM : ∀ x ∈ q, |x| ≤ M)
    (hqv : Varied u θ (2 * epoch) M τ q) {D₀ D : K} (hD₀ : Apart r (standardised (part data m i)) (standardised q) D₀)
    (hD : ApartBy fl r (partBy fl m (epoch + 1 - m) data i) (queryBy fl q) D) :
    HasSqrt.sqrt D ≤ HasSqrt.sqrt D₀ + 13 * τ * m ∧ HasSqrt.sqrt D₀ ≤ HasSqrt.sqrt D + 14 * τ * m ∧ HasSqrt.sqrt D ≤ 21 / 4 * m ∧ 0 ≤ D := by
  have hl : (part data m i).length = m := part_length hi
  have E := Varied.toEnough hqv h.θ_nonneg hθ hτ (by omega) (by omega) hqM
  rw [hql] at E
  obtain ⟨-, h1⟩ := C103_window h hm hme hθ hτ hf hM hi hv
  obtain ⟨-, h2⟩ := C103_query h (by omega) (by omega) hθ hτ hqf hqM hqv
  rw [hql] at h2
  refine apart_near h hm (scaledBy_floats h.toRounding _ _ _) (scaledBy_floats h.toRounding _ _ _) ?_ ?_ ?_ ?_ (E.τ_nonneg h) hτ (E.u_len h) (E.pow_le h) (E.θ_le h) (E.u_le h)
    h1 h2 hD₀ (apart_le hl hql hm (varied_not_flat (by omega) hv) (varied_not_flat (by omega) hqv) hD₀) hD
  · rw [scaledBy_length, hl]
  · rw [scaledBy_length, hql]
  · rw [standardised_length, hl]
  · rw [standardised_length, hql]

/-- The factors of C102. -/
theorem near_factor {τ m s t : K} (hτ : 0 ≤ τ) (hτ4 : τ ≤ 1 / 4) (hs : 0 ≤ s) (ht : 0 ≤ t) (hs2 : s ≤ 21 / 4 * m) (hst : (1 - 5 / 8 * τ) * (t * t) ≤ s * s) :
    t ≤ s + 21 / 10 * τ * m := by
  have h5 : τ * τ ≤ 1 / 4 * τ := mul_le_mul_of_nonneg_right hτ4 hτ
  have h1 : 1 ≤ (1 + 2 / 5 * τ) ^ 2 * (1 - 5 / 8 * τ) := by
    have h6 : τ * (τ * τ) ≤ 1 / 4 * (τ * τ) := mul_le_mul_of_nonneg_right hτ4 (mul_self_nonneg τ)
    have e : (1 + 2 / 5 * τ) ^ 2 * (1 - 5 / 8 * τ) = 1 + 7 / 40 * τ - 17 / 50 * (τ * τ) - 1 / 10 * (τ * (τ * τ)) := by ring
    rw [e]
    linarith
  have h2 : t ≤ (1 + 2 / 5 * τ) * s := by
    refine (mul_self_le_mul_self_iff ht (by positivity)).2 ?_
    have h3 := mul_le_mul_of_nonneg_right h1 (mul_self_nonneg t)
    have h4 := mul_le_mul_of_nonneg_left hst (sq_nonneg (1 + 2 / 5 * τ))
    calc _ ≤ (1 + 2 / 5 * τ) ^ 2 * (1 - 5 / 8 * τ) * (t * t) := by linarith
      _ = (1 + 2 / 5 * τ) ^ 2 * ((1 - 5 / 8 * τ) * (t * t)) := by ring
      _ ≤ _ := h4
      _ = _ := by ring
  have h3 : τ * s ≤ τ * (21 / 4 * m) := mul_le_mul_of_nonneg_left hs2 hτ
  linarith

/-- C103.  The search with rounded results, `fl` having the relative error `u` (and `θ ^ 2` at underflow), for data and a query that are numbers of the arithmetic up to `M`, the query
and at least one window being varied enough.  It ends without a fault and reports a window.  The distance reported exceeds the exact distance of no
window that is varied enough by more than `17 τ m`; and if the window reported is itself varied enough, the distance reported is its exact distance up to
`15 τ m`. -/
theorem C103_near (h : FloatOps fl u θ) (hbig : fl (10 ^ 20) = 10 ^ 20) (S : Sorter K) {data query : Input K} {epoch m r : ℕ} {M τ : K} (hd : data.bad = false)
    (hN : data.nums.length < 2 ^ 31) (hq : m ≤ query.nums.length) (hm : 6 ≤ m) (hme : m ≤ epoch) (hepoch : epoch ≤ 1000000) (hr : r < m) (hθ : θ ≤ M) (hτ : τ ≤ 1 / 4)
    (hf : Floats fl data.nums) (hM : ∀ x ∈ data.nums, |x| ≤ M) (hqf : Floats fl (query.nums.take m)) (hqM : ∀ x ∈ query.nums.take m, |x| ≤ M)
    (hqv : Varied u θ (2 * epoch) M τ (query.nums.take m))
    (hex : ∃ i, i + m ≤ data.nums.length ∧ Varied u θ (2 * epoch) M τ (part data.nums m i)) {fuel : ℕ} (hfuel : data.nums.length < fuel) :
    ∃ (rep : Report K) (l : ℕ) (d : K), searchR (rnd fl) S epoch fuel (some data) (some query) m r = .ok rep ∧ rep.location = l ∧ rep.distance = fin d ∧
      l + m ≤ data.nums.length ∧
      (∀ i, i + m ≤ data.nums.length → Varied u θ (2 * epoch) M τ (part data.nums m i) →
        ∀ D, Apart r (standardised (part data.nums m i)) (standardised (query.nums.take m)) D → d ≤ HasSqrt.sqrt D + 17 * τ * m) ∧
      (Varied u θ (2 * epoch) M τ (part data.nums m l) →
        ∀ D, Apart r (standardised (part data.nums m l)) (standardised (query.nums.take m)) D → |d - HasSqrt.sqrt D| ≤ 15 * τ * m) := by
  have hu := h.u_nonneg
  have hql : (query.nums.take m).length = m := by simp; omega
  have E := Varied.toEnough hqv h.θ_nonneg hθ hτ (by omega) (by omega) hqM
  rw [hql] at E
  have hτ0 := E.τ_nonneg h
  have hu1 := E.u_le_one h
  have hm1 : (1 : K) ≤ m := by exact_mod_cast (show 1 ≤ m by omega)
  have hmM : (m : K) ≤ 1000000 := by exact_mod_cast hme.trans hepoch
  have hu12 := E.u_le h
  have hθu := E.θ_le h
  have hulen := E.u_len h
  have h5u : ((2 * m : ℕ) + (3 * m : ℕ) : K) * u ≤ 5 / 8 * τ := by
    push_cast
    linarith
  have hτm : 0 ≤ τ * m := mul_nonneg hτ0 (by linarith)
  have hθ1 : θ ^ 2 ≤ τ / 576 := by
    have h1 : θ ≤ τ / 12 := by linarith
    have h2 := pow_le_pow_left₀ h.θ_nonneg h1 2
    have h3 : τ * τ ≤ 1 / 4 * τ := mul_le_mul_of_nonneg_right hτ hτ0
    calc _ ≤ _ := h2
      _ = τ * τ / 144 := by ring
      _ ≤ _ := by linarith
  obtain ⟨hqd, hqn⟩ := C103_query h (by omega) (by omega) hθ hτ hqf hqM hqv
  rw [hql] at hqn
  -- what the sorting compares
  have hz : ∀ x ∈ queryBy fl (query.nums.take m), |x| ≤ 2000000 := by
    intro x hx
    obtain ⟨k, hk, rfl⟩ := List.getElem_of_mem hx
    have h1 := hqn k
    have e : (queryBy fl (query.nums.take m)).getD k 0 = (queryBy fl (query.nums.take m))[k] := by simp [List.getD, hk]
    rw [e] at h1
    have hR0 := LawfulSqrt.sqrt_nonneg (show (0 : K) ≤ m by linarith)
    have hR := LawfulSqrt.mul_self (show (0 : K) ≤ m by linarith)
    have hRm : HasSqrt.sqrt (m : K) ≤ m := by
      refine (mul_self_le_mul_self_iff hR0 (by linarith)).2 ?_
      rw [hR]; nlinarith
    have h2 : |(standardised (query.nums.take m)).getD k 0| ≤ HasSqrt.sqrt (m : K) := by
      have hk' : k < (standardised (query.nums.take m)).length := by
        unfold queryBy at hk
        rw [scaledBy_length] at hk
        rw [standardised_length]; exact hk
      have hmem : (standardised (query.nums.take m)).getD k 0 ∈ standardised (query.nums.take m) := by
        simp only [List.getD, List.getElem?_eq_getElem hk', Option.getD_some]
        exact List.getElem_mem hk'
      have := standardised_le (by omega) (varied_not_flat (by omega) hqv) _ hmem
      rw [hql] at this
      refine (mul_self_le_mul_self_iff (abs_nonneg _) hR0).2 ?_
      rw [hR, abs_mul_abs_self, ← pow_two]
      exact this
    have h3 := abs_sub_abs_le_abs_sub (queryBy fl (query.nums.take m))[k] ((standardised (query.nums.take m)).getD k 0)
    have h4 : τ * HasSqrt.sqrt (m : K) ≤ 1 / 4 * HasSqrt.sqrt (m : K) := mul_le_mul_of_nonneg_right hτ hR0
    linarith
  have hcmp : ∀ x ∈ queryBy fl (query.nums.take m), ∀ y ∈ queryBy fl (query.nums.take m), |fl (|y| - |x|)| < 2 ^ 31 := by
    intro x hx y hy
    have h1 := hz x hx
    have h2 := hz y hy
    have h3 : |(|y| - |x|)| ≤ 2000000 := by
      rw [abs_le]
      constructor <;> linarith [abs_nonneg x, abs_nonneg y]
    have h4 := abs_le_of_sub (h.err (|y| - |x|)) h3
    have h5 : u * |(|y| - |x|)| ≤ 1 * 2000000 := mul_le_mul hu1 h3 (abs_nonneg _) (by norm_num)
    have : 2000000 + (u * |(|y| - |x|)| + θ ^ 2) < (2 : K) ^ 31 := by
      norm_num
      linarith
    exact _root_.lt_of_le_of_lt h4 this
  have hql' : (queryBy fl (query.nums.take m)).length = m := by
    unfold queryBy
    rw [scaledBy_length, hql]
  have hpl : ∀ i, i + m ≤ data.nums.length → (partBy fl m (epoch + 1 - m) data.nums i).length = m := by
    intro i hi
    unfold partBy
    rw [scaledBy_length, part_length hi]
  obtain ⟨rep, h1, -, -, h2⟩ := C102_near_partial h hu1 hbig S hd hN hq hm hme hepoch hr hqd hcmp hfuel
  have hratio : ∀ D D' : K, 0 ≤ D → (1 - u) ^ (2 * m) * D ≤ (1 + u) ^ (3 * m) * D' → (1 - 5 / 8 * τ) * D ≤ D' := by
    intro D D' h0 h3
    have := pow_ratio hu hu1 (2 * m) (3 * m) h0 (by linarith) h3
    refine _root_.le_trans (mul_le_mul_of_nonneg_right (by linarith) h0) this
  rcases h2 with ⟨-, -, h3⟩ | ⟨l, D, h3, h4, h5⟩
  · exfalso
    obtain ⟨i, hi, hv⟩ := hex
    obtain ⟨D', hD'⟩ := exists_apartBy h.toRounding r (hpl i hi) hql'
    obtain ⟨D₀, hD₀⟩ := exists_apart r (standardised_length (part data.nums m i) |>.trans (part_length hi)) (standardised_length (query.nums.take m) |>.trans hql)
    have h4 := hratio _ _ (by positivity) (h3 i hi (C103_window h (by omega) hme hθ hτ hf hM hi hv).1 D' hD')
    obtain ⟨-, -, h5, h6⟩ := C103_distance h (by omega) hme hθ hτ hf hM hi hv hql hqf hqM hqv hD₀ hD'
    have h7 := LawfulSqrt.mul_self h6
    have h8 : HasSqrt.sqrt D' * HasSqrt.sqrt D' ≤ (21 / 4 * m) * (21 / 4 * m) := mul_self_le_mul_self (LawfulSqrt.sqrt_nonneg h6) h5
    have h9 : (21 / 4 * m : K) * (21 / 4 * m) ≤ (21 / 4 * 1000000) * (21 / 4 * 1000000) := mul_self_le_mul_self (by linarith) (by linarith)
    have h10 : (1 / 2 : K) * 10 ^ 20 ≤ (1 - 5 / 8 * τ) * 10 ^ 20 := mul_le_mul_of_nonneg_right (by linarith) (by positivity)
    have h11 : (1 / 2 : K) * 10 ^ 20 ≤ (21 / 4 * 1000000) * (21 / 4 * 1000000) := by linarith
    norm_num at h11
  have hlm := h5.lt
  have hdist := h5.dist
  have hnear := h5.near
  rw [hql'] at hdist hnear
  have hD0 := apartBy_nonneg h.toRounding hdist
  have t0 := LawfulSqrt.sqrt_nonneg hD0
  have tt := LawfulSqrt.mul_self hD0
  have hall : ∀ i, i + m ≤ data.nums.length → Varied u θ (2 * epoch) M τ (part data.nums m i) →
      ∃ s, HasSqrt.sqrt D ≤ s + 21 / 10 * τ * m ∧ s ≤ 21 / 4 * m ∧
        ∀ D₀, Apart r (standardised (part data.nums m i)) (standardised (query.nums.take m)) D₀ → s ≤ HasSqrt.sqrt D₀ + 13 * τ * m := by
    intro i hi hv
    obtain ⟨D', hD'⟩ := exists_apartBy h.toRounding r (hpl i hi) hql'
    obtain ⟨D₀, hD₀⟩ := exists_apart r (standardised_length (part data.nums m i) |>.trans (part_length hi)) (standardised_length (query.nums.take m) |>.trans hql)
    have h6 := hratio _ _ hD0 (hnear i (by omega) (C103_window h (by omega) hme hθ hτ hf hM hi hv).1 D' hD')
    obtain ⟨-, -, h8, h9⟩ := C103_distance h (by omega) hme hθ hτ hf hM hi hv hql hqf hqM hqv hD₀ hD'
    refine ⟨HasSqrt.sqrt D', ?_, h8, fun D₁ hD₁ => (C103_distance h (by omega) hme hθ hτ hf hM hi hv hql hqf hqM hqv hD₁ hD').1⟩
    refine near_factor hτ0 hτ (LawfulSqrt.sqrt_nonneg h9) t0 h8 ?_
    rw [tt, LawfulSqrt.mul_self h9]
    exact h6
  have ht6 : HasSqrt.sqrt D ≤ 6 * m := by
    obtain ⟨i, hi, hv⟩ := hex
    obtain ⟨s, h6, h7, -⟩ := hall i hi hv
    have : τ * m ≤ 1 / 4 * m := mul_le_mul_of_nonneg_right hτ (by linarith)
    linarith
  have hfl : |fl (HasSqrt.sqrt D) - HasSqrt.sqrt D| ≤ τ * m := by
    refine (h.err _).trans ?_
    rw [abs_of_nonneg t0]
    have h6 : u * HasSqrt.sqrt D ≤ τ / 12 * (6 * m) := mul_le_mul (by linarith) ht6 t0 (by linarith)
    have h7 : τ * 1 ≤ τ * m := mul_le_mul_of_nonneg_left hm1 hτ0
    linarith
  have hfl' := abs_le.1 hfl
  refine ⟨rep, l, fl (HasSqrt.sqrt D), h1, h3, h4, by omega, ?_, ?_⟩
  · intro i hi hv D₀ hD₀
    obtain ⟨s, h6, -, h7⟩ := hall i hi hv
    have := h7 D₀ hD₀
    linarith
  · intro hv D₀ hD₀
    obtain ⟨h6, h7, -, -⟩ := C103_distance h (by omega) hme hθ hτ hf hM (by omega) hv hql hqf hqM hqv hD₀ hdist
    rw [abs_le]
    constructor <;> linarith

/-- C103.  If all windows are varied enough, the window reported is the nearest one up to `32 τ m`. -/
theorem C103_nearest (h : FloatOps fl u θ) (hbig : fl (10 ^ 20) = 10 ^ 20) (S : Sorter K) {data query : Input K} {epoch m r : ℕ} {M τ : K} (hd : data.bad = false)
    (hN : data.nums.length < 2 ^ 31) (hq : m ≤ query.nums.length) (hm : 6 ≤ m) (hme : m ≤ epoch) (hepoch : epoch ≤ 1000000) (hr : r < m) (hθ : θ ≤ M) (hτ : τ ≤ 1 / 4)
    (hf : Floats fl data.nums) (hM : ∀ x ∈ data.nums, |x| ≤ M) (hqf : Floats fl (query.nums.take m)) (hqM : ∀ x ∈ query.nums.take m, |x| ≤ M)
    (hqv : Varied u θ (2 * epoch) M τ (query.nums.take m)) (hmd : m ≤ data.nums.length)
    (hall : ∀ i, i + m ≤ data.nums.length → Varied u θ (2 * epoch) M τ (part data.nums m i)) {fuel : ℕ} (hfuel : data.nums.length < fuel) :
    ∃ (rep : Report K) (l : ℕ) (d D : K), searchR (rnd fl) S epoch fuel (some data) (some query) m r = .ok rep ∧ rep.location = l ∧ rep.distance = fin d ∧
      l + m ≤ data.nums.length ∧ Apart r (standardised (part data.nums m l)) (standardised (query.nums.take m)) D ∧ |d - HasSqrt.sqrt D| ≤ 15 * τ * m ∧
      ∀ i, i + m ≤ data.nums.length → ∀ D', Apart r (standardised (part data.nums m i)) (standardised (query.nums.take m)) D' →
        HasSqrt.sqrt D ≤ HasSqrt.sqrt D' + 32 * τ * m := by
  obtain ⟨rep, l, d, h1, h2, h3, h4, h5, h6⟩ := C103_near h hbig S hd hN hq hm hme hepoch hr hθ hτ hf hM hqf hqM hqv ⟨0, by omega, hall 0 (by omega)⟩ hfuel
  obtain ⟨D, hD⟩ := exists_apart r (standardised_length (part data.nums m l) |>.trans (part_length h4))
    (standardised_length (query.nums.take m) |>.trans (show (query.nums.take m).length = m by simp; omega))
  have h7 := h6 (hall l h4) D hD
  refine ⟨rep, l, d, D, h1, h2, h3, h4, hD, h7, fun i hi D' hD' => ?_⟩
  have h8 := h5 i hi (hall i hi) D' hD'
  have := (abs_le.1 h7).1
  linarith

variable [FloorRing K]

/-- What `Varied` asks for in the arithmetic of type `double`, with the 100000 points of the buffer. -/
theorem double_varied {M τ : K} {w : List K} (hv : 0 < variance w) (h : M ^ 2 / 2 ^ 32 + 1 / 2 ^ 1071 ≤ τ * variance w) :
    Varied (1 / 2 ^ 53) (1 / 2 ^ 537) (2 * 100000) M τ w := by
  refine ⟨hv, _root_.le_trans ?_ h⟩
  have h1 := one_add_pow_le (u := (1 / 2 ^ 53 : K)) (by positivity) (2 * (2 * 100000) + 6) (by norm_num)
  have h2 : (1 + 1 / 2 ^ 53 : K) ^ (2 * (2 * 100000) + 6) - 1 ≤ 1 / 2 ^ 33 := by
    have : 2 * (((2 * (2 * 100000) + 6 : ℕ) : K) * (1 / 2 ^ 53)) ≤ 1 / 2 ^ 33 := by norm_num
    exact sub_le_iff_le_add'.2 (h1.trans (add_le_add_right this 1))
  have h3 : 2 * M ^ 2 * ((1 + 1 / 2 ^ 53 : K) ^ (2 * (2 * 100000) + 6) - 1) ≤ 2 * M ^ 2 * (1 / 2 ^ 33) := mul_le_mul_of_nonneg_left h2 (by positivity)
  have h4 : 2 * M ^ 2 * (1 / 2 ^ 33) = M ^ 2 / 2 ^ 32 := by ring
  have h5 : 6 * (1 / 2 ^ 537 : K) ^ 2 ≤ 1 / 2 ^ 1071 := by
    have e : (2 : K) ^ 1074 = 2 ^ 3 * 2 ^ 1071 := by rw [← pow_add]
    rw [div_pow, ← pow_mul, one_pow, show 537 * 2 = 1074 by norm_num, e]
    have : (0 : K) < 2 ^ 1071 := by positivity
    rw [mul_one_div, div_le_div_iff₀ (by positivity) this, one_mul]
    exact mul_le_mul_of_nonneg_right (by norm_num) this.le
  rw [← h4]
  exact add_le_add h3 h5

/-- C103.  The function of the code with numbers of type `double`, as long as nothing overflows: if the variance of the query and of every window is at least the part `1 / (2 ^ 32 τ)` of the
square of the greatest number, the window reported is the nearest one up to `32 τ m`, and the distance is right up to `15 τ m`. -/
theorem C103_double (S : Sorter K) {data query : Input K} {m r : ℕ} {M τ : K} (hd : data.bad = false) (hN : data.nums.length < 2 ^ 31) (hq : m ≤ query.nums.length) (hm : 6 ≤ m)
    (hme : m ≤ 100000) (hr : r < m) (hθ : 1 / 2 ^ 537 ≤ M) (hτ : τ ≤ 1 / 4) (hf : Floats roundDouble data.nums) (hM : ∀ x ∈ data.nums, |x| ≤ M)
    (hqf : Floats roundDouble (query.nums.take m)) (hqM : ∀ x ∈ query.nums.take m, |x| ≤ M) (hqv0 : 0 < variance (query.nums.take m))
    (hqv : M ^ 2 / 2 ^ 32 + 1 / 2 ^ 1071 ≤ τ * variance (query.nums.take m)) (hmd : m ≤ data.nums.length)
    (hall : ∀ i, i + m ≤ data.nums.length → 0 < variance (part data.nums m i) ∧ M ^ 2 / 2 ^ 32 + 1 / 2 ^ 1071 ≤ τ * variance (part data.nums m i))
    {fuel : ℕ} (hfuel : data.nums.length < fuel) :
    ∃ (rep : Report K) (l : ℕ) (d D : K), calculateR (rnd roundDouble) S fuel (some data) (some query) m r = .ok rep ∧ rep.location = l ∧ rep.distance = fin d ∧
      l + m ≤ data.nums.length ∧ Apart r (standardised (part data.nums m l)) (standardised (query.nums.take m)) D ∧ |d - HasSqrt.sqrt D| ≤ 15 * τ * m ∧
      ∀ i, i + m ≤ data.nums.length → ∀ D', Apart r (standardised (part data.nums m i)) (standardised (query.nums.take m)) D' →
        HasSqrt.sqrt D ≤ HasSqrt.sqrt D' + 32 * τ * m :=
  C103_nearest C73_double double_big.1 S hd hN hq hm hme (by norm_num) hr hθ hτ hf hM hqf hqM (double_varied hqv0 hqv) hmd
    (fun i hi => double_varied (hall i hi).1 (hall i hi).2) hfuel

end

/-! The hypotheses hold for this query and this data, with real numbers, all windows of which have variance 1; `τ` is 1 / 2 ³¹. -/
example : ∃ (rep : Report ℝ) (l : ℕ) (d : ℝ), calculateR (rnd roundDouble) (inOrder ℝ) 20 (some ⟨[-1, 1, -1, 1, 1, -1], false⟩)
    (some ⟨[-1, 1, -1, 1, -1, 1], false⟩) 6 2 = .ok rep ∧ rep.location = l ∧ rep.distance = fin d ∧ l = 0 ∧
    ∃ D, Apart 2 (standardised [-1, 1, -1, 1, 1, -1]) (standardised [-1, 1, -1, 1, -1, 1]) D ∧ |d - HasSqrt.sqrt D| ≤ 90 / 2 ^ 31 := by
  have h1 : roundDouble (1 : ℝ) = 1 := by simpa using C73_representable (K := ℝ) 1 0 (by norm_num) (by norm_num)
  have hm : roundDouble (-1 : ℝ) = -1 := by simpa using C73_representable (K := ℝ) (-1) 0 (by norm_num) (by norm_num)
  have hfl : ∀ x : ℝ, x = 1 ∨ x = -1 → roundDouble x = x := by
    rintro x (rfl | rfl) <;> assumption
  have hab : ∀ x : ℝ, x = 1 ∨ x = -1 → |x| ≤ 1 := by
    rintro x (rfl | rfl) <;> norm_num
  have hb : (1 : ℝ) / 2 ^ 1071 ≤ 1 / 2 ^ 32 := by
    apply one_div_le_one_div_of_le (by positivity)
    exact pow_le_pow_right₀ (by norm_num) (by norm_num)
  have v1 : variance ([-1, 1, -1, 1, 1, -1] : List ℝ) = 1 := by norm_num [variance, mean]
  have v2 : variance ([-1, 1, -1, 1, -1, 1] : List ℝ) = 1 := by norm_num [variance, mean]
  have hθ : (1 : ℝ) / 2 ^ 537 ≤ 1 := by
    rw [div_le_one (by positivity)]
    exact one_le_pow₀ (by norm_num)
  obtain ⟨rep, l, d, D, a, b, c, e, f, g, -⟩ := C103_double (inOrder ℝ) (data := ⟨[-1, 1, -1, 1, 1, -1], false⟩) (query := ⟨[-1, 1, -1, 1, -1, 1], false⟩) (m := 6) (r := 2)
    (M := 1) (τ := 1 / 2 ^ 31) rfl (by norm_num) (by simp) le_rfl (by norm_num) (by norm_num) hθ (by norm_num) (by intro x hx; simp at hx; exact hfl x (by tauto))
    (by intro x hx; simp at hx; exact hab x (by tauto)) (by intro x hx; simp at hx; exact hfl x (by tauto))
    (by intro x hx; simp at hx; exact hab x (by tauto))
    (by simp only [List.take]; rw [v2]; norm_num)
    (by
      simp only [List.take]
      rw [v2]
      have : (1 : ℝ) ^ 2 / 2 ^ 32 + 1 / 2 ^ 32 ≤ 1 / 2 ^ 31 * 1 := by norm_num
      exact _root_.le_trans (add_le_add_right hb _) this) (by simp)
    (by
      intro i hi
      have : i = 0 := by simp at hi; exact hi
      subst this
      simp only [part, List.drop, List.take]
      rw [v1]
      refine ⟨by norm_num, ?_⟩
      have : (1 : ℝ) ^ 2 / 2 ^ 32 + 1 / 2 ^ 32 ≤ 1 / 2 ^ 31 * 1 := by norm_num
      exact _root_.le_trans (add_le_add_right hb _) this) (fuel := 20) (by simp)
  have hl : l = 0 := by simp at e; exact e
  subst hl
  refine ⟨rep, 0, d, a, b, c, rfl, D, f, g.trans (le_of_eq ?_)⟩
  push_cast
  ring

/-- C103.  A window that is not varied enough may be reported: all points of this data are the number 1 - 9 / 2²⁸, of type `double`.  Without rounding the window is flat and passed over, and
distance 10¹⁰ is reported; with numbers of type `double` the computed variance is 2⁻⁵², and the window is reported, with distance 4. -/
theorem C103_flat_false : ∃ data query : List ℚ, Flat data ∧ Floats roundDouble data ∧ Floats roundDouble query ∧
    (search (inOrder ℚ) 100000 20 (some ⟨data, false⟩) (some ⟨query, false⟩) 16 1).map (fun rep => (rep.location, rep.distance)) = .ok (0, fin (10 ^ 10)) ∧
    (searchR (rnd roundDouble) (inOrder ℚ) 100000 20 (some ⟨data, false⟩) (some ⟨query, false⟩) 16 1).map (fun rep => (rep.location, rep.distance)) =
      .ok (0, fin 4) ∧ partDev roundDouble 16 (100001 - 16) data 0 = 1 / 2 ^ 26 :=
  ⟨List.replicate 16 (1 - 9 / 2 ^ 28), [-1, 1, -1, 1, -1, 1, -1, 1, -1, 1, -1, 1, -1, 1, -1, 1],
    fun x hx y hy => by rw [List.eq_of_mem_replicate hx, List.eq_of_mem_replicate hy], by decide +kernel, by decide +kernel, by decide +kernel,
    by decide +kernel, by decide +kernel⟩

end Genex.Props
