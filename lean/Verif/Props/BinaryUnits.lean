import Verif.Lemmas.BinaryCascade
import Verif.Lemmas.Float
import Verif.Lemmas.Dbl
import Verif.Props.RoundedData
import Verif.Spec.BinaryUnits

/-!
# C120: units that the rounding respects
-/

set_option linter.unusedSectionVars false

namespace Genex.Props

open Dbl Spec

section

variable {K : Type} [Field K] [LinearOrder K] [IsStrictOrderedRing K]

theorem log_scaled [FloorRing K] (k : ℤ) {x : K} (hx : 0 < x) : Int.log 2 ((2 : K) ^ k * x) = k + Int.log 2 x := by
  have h2 : (0 : K) < 2 := two_pos
  have hp : (0 : K) < 2 ^ k * x := mul_pos (zpow_pos h2 k) hx
  have a := Int.zpow_log_le_self (b := 2) (by norm_num) hx
  have b := Int.lt_zpow_succ_log_self (b := 2) (by norm_num) x
  have a' := (Int.zpow_le_iff_le_log (b := 2) (by norm_num) (x := k + Int.log 2 x) hp).1 (by
    rw [Nat.cast_ofNat, zpow_add₀ h2.ne']
    rw [Nat.cast_ofNat] at a
    exact mul_le_mul_of_nonneg_left a (zpow_pos h2 k).le)
  have b' := (Int.lt_zpow_iff_log_lt (b := 2) (by norm_num) (x := k + Int.log 2 x + 1) hp).1 (by
    rw [Nat.cast_ofNat, add_assoc, zpow_add₀ h2.ne']
    rw [Nat.cast_ofNat] at b
    exact mul_lt_mul_of_pos_left b (zpow_pos h2 k))
  omega

/-- C120: rounding to `p` binary digits respects the powers of two. -/
theorem C120_binary [FloorRing K] (p : ℕ) (k : ℤ) : Respects (roundTo (K := K) p) (2 ^ k) := by
  have h2 : (0 : K) < 2 := two_pos
  have hk : (0 : K) < 2 ^ k := zpow_pos h2 k
  refine ⟨hk, fun x => ?_⟩
  by_cases hx : x = 0
  · subst hx
    simp [roundTo, roundEven]
  have e : lastDigit p ((2 : K) ^ k * x) = k + lastDigit p x := by
    unfold lastDigit
    rw [abs_mul, abs_of_pos hk, log_scaled k (abs_pos.2 hx)]
    ring
  unfold roundTo
  rw [e, zpow_add₀ h2.ne', mul_div_mul_left _ _ hk.ne']
  ring

variable [HasSqrt K]

/-- C120: Euclidean, Manhattan and Chebyshev distances, plain, warped and behind the lower bounds, are in the other unit exactly what they
are in the first, whatever the points and the dropout. -/
theorem C120_distance (rd : K → K) (s : K) (h : Respects rd s) [BandOps] (ratio : ℚ) (ref : DistRef)
    (href : ∀ m, ref = .pairwise m ∨ ref = .warped m → m ≠ .sorensen ∧ m ≠ .cosine)
    (hs : ref = .pairwise .euclidean ∨ ref = .warped .euclidean ∨ ref = .cascade → LawfulSqrt K) (a b : List (Dbl K)) (d : Dbl K) :
    ref.evalR rd ratio (a.map (stretch s)) (b.map (stretch s)) (stretch s d) = (ref.evalR rd ratio a b d).map (stretch s) := by
  have e : stretch s = inUnit s := by funext x; cases x <;> rfl
  rw [e]
  have fst : ∀ r : Res (Dbl K × List (ℕ × ℕ)), (r.map fun r => (inUnit s r.1, r.2)).map Prod.fst = (r.map Prod.fst).map (inUnit s) := fun r => by
    cases r <;> rfl
  cases ref with
  | pairwise m =>
    cases m with
    | euclidean => haveI := hs (.inl rfl); exact (euclideanR_keeps h.1 h.2).pairwise a b d
    | manhattan => exact (manhattanR_keeps h.1 h.2).pairwise a b d
    | chebyshev => exact (chebyshevR_keeps h.1 h.2).pairwise a b d
    | cosine => exact absurd rfl (href _ (.inl rfl)).2
    | sorensen => exact absurd rfl (href _ (.inl rfl)).1
  | warped m =>
    simp only [DistRef.evalR, warpedValue, ← fst]
    cases m with
    | euclidean => haveI := hs (.inr (.inl rfl)); exact congrArg _ ((euclideanR_keeps h.1 h.2).warped ratio a b d [])
    | manhattan => exact congrArg _ ((manhattanR_keeps h.1 h.2).warped ratio a b d [])
    | chebyshev => exact congrArg _ ((chebyshevR_keeps h.1 h.2).warped ratio a b d [])
    | cosine => exact absurd rfl (href _ (.inr rfl)).2
    | sorensen => exact absurd rfl (href _ (.inr rfl)).1
  | cascade =>
    haveI := hs (.inr (.inr rfl))
    simp only [DistRef.evalR, ← fst]
    rw [cascade_unit h.1 h.2]

/-- C120: Sorensen and cosine do not depend on the unit. -/
theorem C120_ratio (rd : K → K) (s : K) (h : Respects rd s) [BandOps] (ratio : ℚ) (m : Metric) (hm : m = .sorensen ∨ m = .cosine)
    (hs : m = .cosine → LawfulSqrt K) (a b : List (Dbl K)) (d : Dbl K) :
    (DistRef.pairwise m).evalR rd ratio (a.map (stretch s)) (b.map (stretch s)) d = (DistRef.pairwise m).evalR rd ratio a b d ∧
    (DistRef.warped m).evalR rd ratio (a.map (stretch s)) (b.map (stretch s)) d = (DistRef.warped m).evalR rd ratio a b d := by
  have e : stretch s = inUnit s := by funext x; cases x <;> rfl
  rw [e]
  have ide : ∀ r : Res (Dbl K), r.map id = r := fun r => by cases r <;> rfl
  have ide' : ∀ r : Res (Dbl K × List (ℕ × ℕ)), (r.map fun r => (id r.1, r.2)) = r := fun r => by cases r <;> rfl
  rcases hm with rfl | rfl
  · have k := sorensenR_keeps h.1 h.2
    refine ⟨(k.pairwise a b d).trans (ide _), ?_⟩
    exact congrArg (Except.map Prod.fst) ((k.warped ratio a b d []).trans (ide' _))
  · haveI := hs rfl
    have k := cosineR_keeps h.1 h.2
    refine ⟨(k.pairwise a b d).trans (ide _), ?_⟩
    exact congrArg (Except.map Prod.fst) ((k.warped ratio a b d []).trans (ide' _))

/-- C120: the matchings are the same. -/
theorem C120_matching (rd : K → K) (s : K) (h : Respects rd s) [BandOps] (ratio : ℚ) (ref : DistRef)
    (hs : (∃ m, (m = .euclidean ∨ m = .cosine) ∧ (ref = .pairwise m ∨ ref = .warped m)) ∨ ref = .cascade → LawfulSqrt K) (a b : List (Dbl K)) :
    ref.matchingR rd ratio (a.map (stretch s)) (b.map (stretch s)) = ref.matchingR rd ratio a b := by
  have e : stretch s = inUnit s := by funext x; cases x <;> rfl
  rw [e]
  have cst : ∀ (r : Res (Dbl K)) (χ : Dbl K → Dbl K), (r.map χ).map (fun _ => ([] : List (ℕ × ℕ))) = r.map fun _ => [] := fun r χ => by
    cases r <;> rfl
  have snd : ∀ (r : Res (Dbl K × List (ℕ × ℕ))) (χ : Dbl K → Dbl K), (r.map fun r => (χ r.1, r.2)).map Prod.snd = r.map Prod.snd := fun r χ => by
    cases r <;> rfl
  cases ref with
  | pairwise m =>
    have key : ∀ {ψ : (m.dmR rd : DM K).S → (m.dmR rd : DM K).S} {χ : Dbl K → Dbl K}, (m.dmR rd : DM K).Keeps (inUnit s) ψ χ →
        (DistRef.pairwise m).matchingR rd ratio (a.map (inUnit s)) (b.map (inUnit s)) = (DistRef.pairwise m).matchingR rd ratio a b := fun k => by
      have := k.pairwise a b .inf
      rw [k.inf] at this
      simp only [DistRef.matchingR, this, cst]
    cases m with
    | euclidean => haveI := hs (.inl ⟨_, .inl rfl, .inl rfl⟩); exact key (euclideanR_keeps h.1 h.2)
    | manhattan => exact key (manhattanR_keeps h.1 h.2)
    | chebyshev => exact key (chebyshevR_keeps h.1 h.2)
    | cosine => haveI := hs (.inl ⟨_, .inr rfl, .inl rfl⟩); exact key (cosineR_keeps h.1 h.2)
    | sorensen => exact key (sorensenR_keeps h.1 h.2)
  | warped m =>
    have key : ∀ {ψ : (m.dmR rd : DM K).S → (m.dmR rd : DM K).S} {χ : Dbl K → Dbl K}, (m.dmR rd : DM K).Keeps (inUnit s) ψ χ →
        (DistRef.warped m).matchingR rd ratio (a.map (inUnit s)) (b.map (inUnit s)) = (DistRef.warped m).matchingR rd ratio a b := fun {ψ χ} k => by
      have := k.warped ratio a b .inf []
      rw [k.inf] at this
      simp only [DistRef.matchingR, this, snd _ χ]
    cases m with
    | euclidean => haveI := hs (.inl ⟨_, .inl rfl, .inr rfl⟩); exact key (euclideanR_keeps h.1 h.2)
    | manhattan => exact key (manhattanR_keeps h.1 h.2)
    | chebyshev => exact key (chebyshevR_keeps h.1 h.2)
    | cosine => haveI := hs (.inl ⟨_, .inr rfl, .inr rfl⟩); exact key (cosineR_keeps h.1 h.2)
    | sorensen => exact key (sorensenR_keeps h.1 h.2)
  | cascade =>
    haveI := hs (.inr rfl)
    have := cascade_unit h.1 h.2 ratio a b .inf []
    rw [show inUnit s (.inf : Dbl K) = .inf from rfl] at this
    simp only [DistRef.matchingR, this, snd _ (inUnit s)]

end

/-- C120: `normalize` gives the same numbers from both, and the extremes in their units. -/
theorem C120_normalize {K : Type} [Field K] [LinearOrder K] [IsStrictOrderedRing K] (rd : K → K) (u θ : K) (hrd : FloatOps rd u θ) (hu : u ≤ 1 / 5)
    (s : K) (h : Respects rd s) (ds ds' : Dataset K) (rows : List (List K)) (H : Holds ds (rows.map (·.map fin)))
    (H' : Holds ds' (rows.map (·.map fun x => fin (s * x)))) (hne : ∃ r ∈ rows, r ≠ []) (hfl : ∀ r ∈ rows, Floats rd r) :
    ∃ n n' lo hi out, ds.normalizeR rd = .ok (n, (fin lo, fin hi)) ∧ ds'.normalizeR rd = .ok (n', (fin (s * lo), fin (s * hi))) ∧
      Holds n out ∧ Holds n' out := by
  have h0 := h.1
  obtain ⟨n, lo, hi, e, hlo, hhi, hn, -⟩ := normalizeR_run rd u θ hrd hu ds rows H hne hfl
  have hrows : rows.map (·.map fun x => fin (s * x)) = (rows.map (·.map (s * ·))).map (·.map fin) := by
    simp [List.map_map, Function.comp_def]
  rw [hrows] at H'
  obtain ⟨n', lo', hi', e', hlo', hhi', hn', -⟩ := normalizeR_run rd u θ hrd hu ds' (rows.map (·.map (s * ·))) H' (by
      obtain ⟨r, hr, hr'⟩ := hne
      exact ⟨_, List.mem_map_of_mem hr, by simpa using hr'⟩) (by
      intro r hr x hx
      obtain ⟨r', hr', rfl⟩ := List.mem_map.1 hr
      obtain ⟨x', hx', rfl⟩ := List.mem_map.1 hx
      rw [h.2, hfl r' hr' x' hx'])
  have hmem : ∀ y, y ∈ {x | ∃ r ∈ rows.map (·.map (s * ·)), x ∈ r} ↔ ∃ x, (∃ r ∈ rows, x ∈ r) ∧ y = s * x := fun y => by
    constructor
    · rintro ⟨r, hr, hy⟩
      obtain ⟨r', hr', rfl⟩ := List.mem_map.1 hr
      obtain ⟨x', hx', rfl⟩ := List.mem_map.1 hy
      exact ⟨x', ⟨r', hr', hx'⟩, rfl⟩
    · rintro ⟨x, ⟨r, hr, hx⟩, rfl⟩
      exact ⟨_, List.mem_map_of_mem hr, List.mem_map_of_mem hx⟩
  have el : lo' = s * lo := hlo'.unique ⟨(hmem _).2 ⟨lo, hlo.1, rfl⟩, fun y hy => by
    obtain ⟨x, hx, rfl⟩ := (hmem y).1 hy
    exact mul_le_mul_of_nonneg_left (hlo.2 hx) h0.le⟩
  have eh : hi' = s * hi := hhi'.unique ⟨(hmem _).2 ⟨hi, hhi.1, rfl⟩, fun y hy => by
    obtain ⟨x, hx, rfl⟩ := (hmem y).1 hy
    exact mul_le_mul_of_nonneg_left (hhi.2 hx) h0.le⟩
  subst el eh
  refine ⟨n, n', lo, hi, _, e, e', hn, ?_⟩
  have hf : ∀ x, scaleR rd (s * lo) (s * hi) (s * x) = scaleR rd lo hi x := fun x => by
    unfold scaleR
    simp only [← mul_sub, h.2, mul_div_mul_left _ _ h0.ne', mul_right_inj' h0.ne']
  have : (rows.map (·.map (s * ·))).map (·.map fun x => fin (scaleR rd (s * lo) (s * hi) x)) = rows.map (·.map fun x => fin (scaleR rd lo hi x)) := by
    simp [List.map_map, Function.comp_def, hf]
  rw [this] at hn'
  exact hn'

/-- Three digits, the numbers times four; 2/3 is rounded to 5/8 and 8/3 to 5/2. -/
example : Respects (roundTo (K := ℚ) 3) 4 ∧
    (DistRef.warped .manhattan).evalR (roundTo 3) 1 [fin (0 : ℚ), fin 5, fin 7] [fin 1, fin (11 / 10), fin 6] .inf = .ok (fin (5 / 8)) ∧
    (DistRef.warped .manhattan).evalR (roundTo 3) 1 [fin (0 : ℚ), fin 20, fin 28] [fin 4, fin (22 / 5), fin 24] .inf = .ok (fin (5 / 2)) :=
  ⟨by have := C120_binary (K := ℚ) 3 2; norm_num at this; exact this, by decide +kernel, by decide +kernel⟩

/-- The hypotheses of the Euclidean distances, with the 53 digits of `double`. -/
example (a b : List (Dbl ℝ)) (d : Dbl ℝ) : DistRef.cascade.evalR (roundTo 53) (1 / 10) (a.map (stretch (2 ^ (-3 : ℤ)))) (b.map (stretch (2 ^ (-3 : ℤ)))) (stretch (2 ^ (-3 : ℤ)) d) =
    (DistRef.cascade.evalR (roundTo 53) (1 / 10) a b d).map (stretch (2 ^ (-3 : ℤ))) :=
  C120_distance _ _ (C120_binary 53 (-3)) _ _ (fun m h => by rcases h with h | h <;> cases h) (fun _ => inferInstance) a b d

/-- One series and the same times four. -/
def exUnitOne : Dataset ℚ :=
  { data := some [fin 1, fin 2, fin 4], names := [], lengths := [3], itemCount := 1, maxCol := 3, filePath := [], normalized := false }

@[inherit_doc exUnitOne]
def exUnitFour : Dataset ℚ :=
  { data := some [fin 4, fin 8, fin 16], names := [], lengths := [3], itemCount := 1, maxCol := 3, filePath := [], normalized := false }

/-- The hypotheses of `C120_normalize` hold of them, and a third is rounded to 5/16 in both. -/
example : FloatOps (roundTo (K := ℚ) 3) (1 / 2 ^ 3) 0 ∧ (1 / 2 ^ 3 : ℚ) ≤ 1 / 5 ∧ Holds exUnitOne ([[1, 2, 4]].map (·.map fin)) ∧
    Holds exUnitFour ([[1, 2, 4]].map (·.map fun x => fin (4 * x))) ∧ Floats (roundTo (K := ℚ) 3) [1, 2, 4] ∧
    (exUnitOne.normalizeR (roundTo 3)).map (fun r => (r.1.data, r.2)) = .ok (some [fin 0, fin (5 / 16), fin 1], (fin 1, fin 4)) ∧
    (exUnitFour.normalizeR (roundTo 3)).map (fun r => (r.1.data, r.2)) = .ok (some [fin 0, fin (5 / 16), fin 1], (fin 4, fin 16)) := by
  refine ⟨roundTo_ops (by norm_num), by norm_num, ⟨rfl, rfl, ?_, ?_⟩, ⟨rfl, rfl, ?_, ?_⟩, by decide +kernel, by decide +kernel, by decide +kernel⟩
  · intro i r hr
    match i, hr with
    | 0, hr => cases hr; decide
  · intro i r hr j x hx
    match i, hr with
    | 0, hr =>
      cases hr
      match j, hx with
      | 0, hx => cases hx; decide +kernel
      | 1, hx => cases hx; decide +kernel
      | 2, hx => cases hx; decide +kernel
  · intro i r hr
    match i, hr with
    | 0, hr => cases hr; decide
  · intro i r hr j x hx
    match i, hr with
    | 0, hr =>
      cases hr
      match j, hx with
      | 0, hx => cases hx; decide +kernel
      | 1, hx => cases hx; decide +kernel
      | 2, hx => cases hx; decide +kernel

/-- Other units the rounding does not respect: 3 and three digits. -/
example : ¬ Respects (roundTo (K := ℚ) 3) 3 := fun h => absurd (h.2 (7 / 4)) (by decide +kernel)

/-- C120: `double` itself respects them only away from its limits: half of the least positive number is rounded to zero. -/
theorem C120_underflow : ¬ Respects (roundDouble (K := ℚ)) (1 / 2) := fun h => absurd (h.2 (1 / 2 ^ 1074)) (by decide +kernel)

end Genex.Props
