import Verif.Lemmas.RoundedData
import Verif.Props.Dataset

/-!
# C78, C79: normalisation and block means in floating point
-/

namespace Genex

open Dbl Spec

theorem roundSub_one {p : ℕ} (hp : 1 ≤ p) {lo : ℤ} (hlo : lo ≤ 0) : roundSub p lo (1 : ℚ) = 1 := by
  have := roundSub_digits (K := ℚ) hp (lo := lo) 1 0 (by
    have : (1 : ℤ) ≤ 2 ^ p := one_le_pow₀ (by norm_num)
    simpa using this) hlo
  simpa using this

end Genex

namespace Genex.Props

open Dbl Spec

variable {K : Type} [Field K] [LinearOrder K] [IsStrictOrderedRing K]

section

variable (rd : K → K) (u θ : K) (hrd : FloatOps rd u θ) (hu : u ≤ 1 / 5) (ds : Dataset K) (rows : List (List K))
    (H : Holds ds (rows.map (·.map fin))) (hne : ∃ r ∈ rows, r ≠ []) (hfl : ∀ r ∈ rows, Floats rd r)

include hrd hu H hne hfl

theorem normalizeR_run : ∃ ds' lo hi, ds.normalizeR rd = .ok (ds', (fin lo, fin hi)) ∧
    IsLeast {x | ∃ r ∈ rows, x ∈ r} lo ∧ IsGreatest {x | ∃ r ∈ rows, x ∈ r} hi ∧
    Holds ds' (rows.map (·.map (fun x => fin (scaleR rd lo hi x)))) ∧ ds'.normalized = true ∧ ds'.names = ds.names := by
  obtain ⟨r, hr, hr'⟩ := hne
  obtain ⟨x, hx⟩ := List.exists_mem_of_ne_nil r hr'
  obtain ⟨ds', lo, hi, e, h1, h2, h3, h4, h5, -⟩ := normalizeR_ok hrd.toRounding (hrd.sub_ne (by linarith)) H ⟨x, r, hr, hx⟩ hfl
  exact ⟨ds', lo, hi, e, h1, h2, h4, h3, h5⟩

/-- C78: computed with rounding, the minimum and maximum returned are exact, and every value has an error of at most four units
(and underflow). -/
theorem C78_error : ∃ ds' lo hi, ds.normalizeR rd = .ok (ds', (fin lo, fin hi)) ∧
    IsLeast {x | ∃ r ∈ rows, x ∈ r} lo ∧ IsGreatest {x | ∃ r ∈ rows, x ∈ r} hi ∧
    ds'.normalized = true ∧ ds'.names = ds.names ∧ ∃ f : K → K, Holds ds' (rows.map (·.map (fun x => fin (f x)))) ∧
      ∀ r ∈ rows, ∀ x ∈ r, (lo = hi → f x = 0) ∧
        (lo ≠ hi → |f x - (x - lo) / (hi - lo)| ≤ 4 * u * ((x - lo) / (hi - lo)) + θ ^ 2) := by
  obtain ⟨ds', lo, hi, e, hlo, hhi, H', h1, h2⟩ := normalizeR_run rd u θ hrd hu ds rows H hne hfl
  refine ⟨ds', lo, hi, e, hlo, hhi, h1, h2, _, H', ?_⟩
  intro r hr x hx
  obtain ⟨rl, hrl, hl⟩ := hlo.1
  obtain ⟨rh, hrh, hh⟩ := hhi.1
  exact ⟨fun h => by simp [scaleR, h], fun hd => scaleR_err hrd hu (hfl rl hrl lo hl) (hfl rh hrh hi hh) (hfl r hr x hx)
    (hlo.2 ⟨r, hr, hx⟩) (hhi.2 ⟨r, hr, hx⟩) hd⟩

/-- C78: all values lie in `[0, 1]` and are representable, the least and the greatest point become 0 and 1 unless all points were
equal, and no two points exchange their order. -/
theorem C78_range_partial (h1 : rd 1 = 1) (ds' : Dataset K) (m : Dbl K × Dbl K) (e : ds.normalizeR rd = .ok (ds', m)) :
    ∃ f : K → K, Holds ds' (rows.map (·.map (fun x => fin (f x)))) ∧
      (∀ r ∈ rows, ∀ x ∈ r, 0 ≤ f x ∧ f x ≤ 1 ∧ rd (f x) = f x) ∧
      (∀ r ∈ rows, ∀ x ∈ r, ∀ r' ∈ rows, ∀ y ∈ r', x ≤ y → f x ≤ f y) ∧
      ((∃ r ∈ rows, ∃ x ∈ r, ∃ r' ∈ rows, ∃ y ∈ r', x ≠ y) →
        (∃ r ∈ rows, ∃ x ∈ r, f x = 0) ∧ ∃ r ∈ rows, ∃ x ∈ r, f x = 1) ∧
      ((∀ r ∈ rows, ∀ x ∈ r, ∀ r' ∈ rows, ∀ y ∈ r', x = y) → ∀ x, f x = 0) := by
  obtain ⟨ds1, lo, hi, e', hlo, hhi, H', -⟩ := normalizeR_run rd u θ hrd hu ds rows H hne hfl
  rw [e, Except.ok.injEq, Prod.mk.injEq] at e'
  obtain ⟨rfl, -⟩ := e'
  have hall : ∀ r ∈ rows, ∀ x ∈ r, lo ≤ x ∧ x ≤ hi := fun r hr x hx => ⟨hlo.2 ⟨r, hr, hx⟩, hhi.2 ⟨r, hr, hx⟩⟩
  obtain ⟨rl, hrl, hl⟩ := hlo.1
  obtain ⟨rh, hrh, hh⟩ := hhi.1
  have rd0 : rd 0 = 0 := hrd.toRounding.zero
  have hdpos : lo ≠ hi → 0 < rd (hi - lo) := by
    intro hd
    have hle : lo ≤ hi := (hall rl hrl lo hl).2
    refine _root_.lt_of_le_of_ne ?_ ?_
    · rw [← rd0]; exact hrd.mono _ _ (sub_nonneg.2 hle)
    · intro h0
      exact hd (hrd.sub_ne (by linarith) hi lo (hfl rh hrh hi hh) (hfl rl hrl lo hl) h0.symm).symm
  refine ⟨_, H', ?_, ?_, ?_, ?_⟩
  · intro r hr x hx
    obtain ⟨h2, h3⟩ := hall r hr x hx
    unfold scaleR
    by_cases hd : lo = hi
    · simp [hd, rd0]
    · have hp := hdpos hd
      rw [if_neg hd]
      have a0 : 0 ≤ rd (x - lo) := by rw [← rd0]; exact hrd.mono _ _ (sub_nonneg.2 h2)
      refine ⟨?_, ?_, hrd.idem _⟩
      · rw [← rd0]; exact hrd.mono _ _ (div_nonneg a0 hp.le)
      · rw [← h1]
        exact hrd.mono _ _ ((div_le_one hp).2 (hrd.mono _ _ (sub_le_sub_right h3 lo)))
  · intro r hr x hx r' hr' y hy hxy
    unfold scaleR
    by_cases hd : lo = hi
    · simp [hd]
    · rw [if_neg hd, if_neg hd]
      exact hrd.mono _ _ (div_le_div_of_nonneg_right (hrd.mono _ _ (sub_le_sub_right hxy lo)) (hdpos hd).le)
  · rintro ⟨r, hr, x, hx, r', hr', y, hy, hxy⟩
    have hd : lo ≠ hi := by
      intro hd
      apply hxy
      obtain ⟨k1, k2⟩ := hall r hr x hx
      obtain ⟨k3, k4⟩ := hall r' hr' y hy
      rw [_root_.le_antisymm (hd ▸ k2) k1, _root_.le_antisymm (hd ▸ k4) k3]
    refine ⟨⟨rl, hrl, lo, hl, ?_⟩, ⟨rh, hrh, hi, hh, ?_⟩⟩
    · simp [scaleR, hd, rd0]
    · unfold scaleR
      rw [if_neg hd, div_self (hdpos hd).ne', h1]
  · intro heq x
    simp [scaleR, heq rl hrl lo hl rh hrh hi hh]

/-- C78: normalising a normalised dataset changes no value. -/
theorem C78_idempotent (h1 : rd 1 = 1) (ds1 : Dataset K) (m : Dbl K × Dbl K) (e : ds.normalizeR rd = .ok (ds1, m)) :
    ∃ ds2 m' rows1, ds1.normalizeR rd = .ok (ds2, m') ∧ Holds ds1 rows1 ∧ Holds ds2 rows1 := by
  obtain ⟨f, H1, h01, -, hext, hconst⟩ := C78_range_partial rd u θ hrd hu ds rows H hne hfl h1 ds1 m e
  have hm : rows.map (·.map (fun x => fin (f x))) = (rows.map (·.map f)).map (·.map fin) := by
    simp [Function.comp_def]
  have hne1 : ∃ r ∈ rows.map (·.map f), r ≠ [] := by
    obtain ⟨r, hr, hr'⟩ := hne
    exact ⟨r.map f, List.mem_map.2 ⟨r, hr, rfl⟩, by simpa using hr'⟩
  have hfl1 : ∀ r ∈ rows.map (·.map f), Floats rd r := by
    intro r hr
    obtain ⟨q, hq, rfl⟩ := List.mem_map.1 hr
    intro y hy
    obtain ⟨x, hx, rfl⟩ := List.mem_map.1 hy
    exact (h01 q hq x hx).2.2
  obtain ⟨ds2, lo, hi, e2, hlo, hhi, H2, -⟩ := normalizeR_run rd u θ hrd hu ds1 (rows.map (·.map f)) (hm ▸ H1) hne1 hfl1
  have hsame : (rows.map (·.map f)).map (·.map (fun x => fin (scaleR rd lo hi x))) = rows.map (·.map (fun x => fin (f x))) := by
    rw [List.map_map]
    apply List.map_congr_left
    intro r hr
    simp only [Function.comp_apply, List.map_map]
    apply List.map_congr_left
    intro x hx
    have mem : ∀ r ∈ rows, ∀ x ∈ r, f x ∈ {y | ∃ r ∈ rows.map (·.map f), y ∈ r} := fun r hr x hx =>
      ⟨r.map f, List.mem_map.2 ⟨r, hr, rfl⟩, List.mem_map.2 ⟨x, hx, rfl⟩⟩
    simp only [Function.comp_apply]
    congr 1
    unfold scaleR
    by_cases hc : ∀ r ∈ rows, ∀ x ∈ r, ∀ r' ∈ rows, ∀ y ∈ r', x = y
    · have h0 := hconst hc
      obtain ⟨r1, hr1, hl⟩ := hlo.1
      obtain ⟨q1, -, rfl⟩ := List.mem_map.1 hr1
      obtain ⟨z, -, rfl⟩ := List.mem_map.1 hl
      obtain ⟨r2, hr2, hh⟩ := hhi.1
      obtain ⟨q2, -, rfl⟩ := List.mem_map.1 hr2
      obtain ⟨w, -, rfl⟩ := List.mem_map.1 hh
      rw [if_pos (by rw [h0, h0]), h0]
    · push Not at hc
      obtain ⟨a1, ha1, x1, hx1, b1, hb1, y1, hy1, hxy⟩ := hc
      obtain ⟨⟨r0, hr0, x0, hx0, e0⟩, ⟨r3, hr3, x3, hx3, e3⟩⟩ := hext ⟨a1, ha1, x1, hx1, b1, hb1, y1, hy1, hxy⟩
      have hlo0 : lo = 0 := by
        apply _root_.le_antisymm
        · have := hlo.2 (mem r0 hr0 x0 hx0); rwa [e0] at this
        · obtain ⟨r1, hr1, hl⟩ := hlo.1
          obtain ⟨q1, hq1, rfl⟩ := List.mem_map.1 hr1
          obtain ⟨z, hz, rfl⟩ := List.mem_map.1 hl
          exact (h01 q1 hq1 z hz).1
      have hhi1 : hi = 1 := by
        apply _root_.le_antisymm
        · obtain ⟨r1, hr1, hl⟩ := hhi.1
          obtain ⟨q1, hq1, rfl⟩ := List.mem_map.1 hr1
          obtain ⟨z, hz, rfl⟩ := List.mem_map.1 hl
          exact (h01 q1 hq1 z hz).2.1
        · have := hhi.2 (mem r3 hr3 x3 hx3); rwa [e3] at this
      rw [hlo0, hhi1, if_neg zero_ne_one, sub_zero, sub_zero, h1, div_one, (h01 r hr x hx).2.2, (h01 r hr x hx).2.2]
  rw [hsame] at H2
  exact ⟨ds2, _, _, e2, H1, H2⟩

end

/-- C78: with an empty dataset nothing is done. -/
theorem C78_empty (rd : K → K) (ds : Dataset K) (h : ds.itemCount = 0) : ∃ msg, ds.normalizeR rd = .error (.genex msg) := by
  unfold Dataset.normalizeR
  rw [if_pos h]
  exact ⟨_, rfl⟩

/-! ### Block means -/

/-- C79: every point of the approximation is the mean of its block with an error of at most `(1 + u) ^ b - 1` times the mean absolute
value of the block (and underflow). -/
theorem C79_error_partial (rd : K → K) (u θ : K) (hrd : FloatOps rd u θ) (x : List K) (hx : 1 ≤ x.length) (hf : Floats rd x) (b : ℕ)
    (hb : 1 ≤ b) : ∃ p : List K, tsPAAR rd (x.map fin) b = .ok (p.map fin) ∧ p.length = (x.length + b - 1) / b ∧ Floats rd p ∧
      ∀ (i : ℕ) m, p[i]? = some m → |m - mean ((x.drop (i * b)).take b)| ≤
        ((1 + u) ^ b - 1) * mean (((x.drop (i * b)).take b).map (|·|)) + θ ^ 2 := by
  refine ⟨paaOfR rd b x, tsPAAR_ok hb x hx, by rw [paaOfR_length, ceil_eq hx hb], ?_, ?_⟩
  · intro y hy
    unfold paaOfR at hy
    obtain ⟨j, -, rfl⟩ := List.mem_map.1 hy
    exact hrd.idem _
  · intro i m h
    have hi : i < (x.length - 1) / b + 1 := by
      have := (List.getElem?_eq_some_iff.1 h).1
      rwa [paaOfR_length] at this
    rw [paaOfR_getElem? b x i hi, Option.some.injEq] at h
    subst h
    set l := (x.drop (i * b)).take b with hl
    have hlt : i * b < x.length := by
      have h2 : i * b ≤ (x.length - 1) / b * b := Nat.mul_le_mul_right b (by omega)
      have h3 := Nat.div_mul_le_self (x.length - 1) b
      omega
    have hlb : l.length ≤ b := by rw [hl, List.length_take]; omega
    have hl0 : l ≠ [] := by
      intro h0
      have := congrArg List.length h0
      rw [hl, List.length_take, List.length_drop, List.length_nil] at this
      omega
    have hfl : Floats rd l := fun y hy => hf y (List.mem_of_mem_drop (List.mem_of_mem_take hy))
    have he := mean_err hrd l hfl hl0
    have h1 : (1 : K) ≤ 1 + u := by linarith [hrd.u_nonneg]
    have h2 : (1 + u) ^ l.length ≤ (1 + u) ^ b := pow_le_pow_right₀ h1 hlb
    have h3 : 0 ≤ mean (l.map (|·|)) := by
      unfold mean
      refine div_nonneg (List.sum_nonneg ?_) (by positivity)
      intro y hy
      obtain ⟨z, -, rfl⟩ := List.mem_map.1 hy
      exact abs_nonneg z
    have h4 := mul_le_mul_of_nonneg_right h2 h3
    have : blockMeanR rd b x i = rd (blockSumR rd l / (l.length : K)) := rfl
    rw [this]
    linarith

/-! ### Examples -/

theorem roundDouble_one : roundDouble (1 : ℚ) = 1 := roundSub_one (by norm_num) (by norm_num)

theorem exData_floats : ∀ r ∈ ([[7, 2, 3], [4, 12]] : List (List ℚ)), Floats roundDouble r := by decide +kernel

example := C78_error (K := ℚ) roundDouble _ _ roundDouble_ops (by norm_num) exData [[7, 2, 3], [4, 12]] exData_holds ⟨[4, 12], by simp, by simp⟩
  exData_floats
example := C79_error_partial (K := ℚ) roundDouble _ _ roundDouble_ops [1, 3, 4, 6, 9] (by simp) (by decide +kernel) 2 (by omega)

example (ds1 : Dataset ℚ) (m : Dbl ℚ × Dbl ℚ) (e : exData.normalizeR roundDouble = .ok (ds1, m)) :=
  C78_range_partial (K := ℚ) roundDouble _ _ roundDouble_ops (by norm_num) exData [[7, 2, 3], [4, 12]] exData_holds
    ⟨[4, 12], by simp, by simp⟩ exData_floats roundDouble_one ds1 m e
example (ds1 : Dataset ℚ) (m : Dbl ℚ × Dbl ℚ) (e : exData.normalizeR roundDouble = .ok (ds1, m)) :=
  C78_idempotent (K := ℚ) roundDouble _ _ roundDouble_ops (by norm_num) exData [[7, 2, 3], [4, 12]] exData_holds
    ⟨[4, 12], by simp, by simp⟩ exData_floats roundDouble_one ds1 m e

/-- A tenth is not representable. -/
example : (exData.normalizeR roundDouble).map Prod.snd = .ok (fin 2, fin 12) ∧
    ((exData.normalizeR roundDouble).bind (fun p => p.1.getTimeSeries 0 (-1) (-1) >>= p.1.points)) =
      .ok [fin (1 / 2), fin 0, fin (3602879701896397 / 2 ^ 55)] ∧
    (exData.normalizeR roundDouble).bind (fun p => (p.1.normalizeR roundDouble).map (fun q => (decide (q.1 = p.1), q.2))) =
      .ok (true, (fin 0, fin 1)) := by decide +kernel

/-- A dataset whose points are 16 digits long. -/
def exCollide : Dataset ℚ :=
  (Dataset.loadData exParse (some "0 6755399441055747 6755399441055748 11258999068426240".toList) [] 0 0 [' '] false Dataset.fresh).1

/-- C78: two different representable points become equal. -/
theorem C78_strict_false :
    (exCollide.getTimeSeries 0 (-1) (-1) >>= exCollide.points) =
      .ok [fin 0, fin 6755399441055747, fin 6755399441055748, fin 11258999068426240] ∧
    Floats roundDouble ([0, 6755399441055747, 6755399441055748, 11258999068426240] : List ℚ) ∧
    ((exCollide.normalizeR roundDouble).bind (fun p => p.1.getTimeSeries 0 (-1) (-1) >>= p.1.points)) =
      .ok [fin 0, fin (2702159776422299 / 4503599627370496), fin (2702159776422299 / 4503599627370496), fin 1] := by decide +kernel

example : tsPAAR roundDouble (K := ℚ) [fin 1, fin 3, fin 4, fin 6, fin 9] 2 = .ok [fin 2, fin 5, fin 9] := by decide +kernel

/-- C79: the mean of ten equal points is not that point. -/
theorem C79_constant_false : ∃ x : ℚ, roundDouble x = x ∧
    tsPAAR roundDouble (List.replicate 10 (fin x)) 10 ≠ .ok [fin x] :=
  ⟨3602879701896397 / 2 ^ 55, by decide +kernel, by decide +kernel⟩

end Genex.Props
