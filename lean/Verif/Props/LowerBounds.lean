import Verif.Lemmas.LowerBounds
import Verif.Lemmas.LemireChk
import Verif.Props.Dtw

/-!
# C05-C09: lower bounds, cascaded distance, envelopes
-/

set_option linter.unusedSectionVars false

namespace Genex.Props

open Dbl Spec

variable {K : Type} [Field K] [LinearOrder K] [IsStrictOrderedRing K]

/-! ## C08 -/

/-- C08: the envelope of a finite series, for a band `w` of any size, holds at every position the minimum and maximum of
the values within the band (the band is capped at `length - 1`, which makes no difference for positions inside the
series, see `C08_cap`). -/
theorem C08_envelope (a : List K) (ha : 1 ≤ a.length) (w : ℕ) :
    ∃ lo up, keoghLU (a.map fin) w = .ok (lo, up) ∧ ∀ i < a.length, ∃ x y, lo i = some (fin x) ∧ up i = some (fin y) ∧
      IsLeast (window a w i) x ∧ IsGreatest (window a w i) y := by
  obtain ⟨lo, up, e, h⟩ := envelope_fin false a (min w (a.length - 1)) (by omega)
  refine ⟨lo, up, ?_, fun i hi => ?_⟩
  · unfold keoghLU
    have : min (w : Int) (((a.map fin).length : Int) - 1) = ((min w (a.length - 1) : ℕ) : Int) := by
      rw [List.length_map]; omega
    rw [this]; exact e
  · have hw : window a (min w (a.length - 1)) i = window a w i := by
      ext v
      constructor
      · rintro ⟨j, h1, h2, h3⟩
        exact ⟨j, h1, by omega, by omega⟩
      · rintro ⟨j, h1, h2, h3⟩
        obtain ⟨hj, -⟩ := List.getElem?_eq_some_iff.1 h1
        exact ⟨j, h1, by omega, by omega⟩
    rw [← hw]; exact h i hi

example : ((keoghLU ([3, 1, 4, 1, 5, 9, 2, 6].map (fun x : ℚ => fin x)) 2).map fun p =>
    ((List.range 8).map p.1, (List.range 8).map p.2)) =
    .ok ([1, 1, 1, 1, 1, 1, 2, 2].map (fun x => some (fin x)), [4, 4, 5, 9, 9, 9, 9, 9].map (fun x => some (fin x))) := by
  decide +kernel

/-- C08: the cap on the band does not change the window of a position inside the series. -/
theorem C08_cap (a : List K) (w i : ℕ) (hi : i < a.length) :
    window a (min w (a.length - 1)) i = window a w i := by
  ext v
  constructor
  · rintro ⟨j, h1, h2, h3⟩
    exact ⟨j, h1, by omega, by omega⟩
  · rintro ⟨j, h1, h2, h3⟩
    obtain ⟨hj, -⟩ := List.getElem?_eq_some_iff.1 h1
    exact ⟨j, h1, by omega, by omega⟩

/-! ## C09 -/

omit [Field K] [IsStrictOrderedRing K] in
/-- C09: for all values (also infinities and NaN) and every band that the caller can pass, the envelope computation
neither overflows a ring buffer nor takes from an empty one (`chk = true` faults in both cases), makes no out-of-bounds
access, reads no unwritten slot, and writes every output cell.  The unchecked program computes the same. -/
theorem C09_safe (t : List (Dbl K)) (r : ℕ) (h : r < t.length) :
    ∃ lo up, lemire true t r = .ok (lo, up) ∧ lemire false t r = .ok (lo, up) ∧
      ∀ i < t.length, (lo i).isSome ∧ (up i).isSome := by
  obtain ⟨lo, up, e, h1, h2⟩ := lemire_done true t r h
  refine ⟨lo, up, e, ?_, fun i hi => ?_⟩
  · exact lemire_chk t r _ e
  · obtain ⟨x, hx, -⟩ := h1.1 i hi
    obtain ⟨y, hy, -⟩ := h2.1 i hi
    simp [hx, hy]

omit [Field K] [IsStrictOrderedRing K] in
/-- C09 for the public entry: any band of at least 0, any non-empty series. -/
theorem C09_keoghLU (t : List (Dbl K)) (ht : 1 ≤ t.length) (w : ℕ) :
    ∃ lo up, keoghLU t w = .ok (lo, up) ∧ ∀ i < t.length, (lo i).isSome ∧ (up i).isSome := by
  obtain ⟨lo, up, -, e, h⟩ := C09_safe t (min w (t.length - 1)) (by omega)
  refine ⟨lo, up, ?_, h⟩
  unfold keoghLU
  have : min (w : Int) ((t.length : Int) - 1) = ((min w (t.length - 1) : ℕ) : Int) := by omega
  rw [this]; exact e

/-- The check is not idle: a buffer of the right size one smaller would overflow. -/
example : ((Deque.new 1).pushBack true 0 >>= fun d => d.pushBack true 1).isOk = false := by decide +kernel
example : (lemire true [Dbl.fin (1 : ℚ), .nan, .inf, .fin 2] 1).isOk = true := by decide +kernel

/-! ## C05 -/

section
variable [HasSqrt K] [LawfulSqrt K]

/-- C05: the Kim bound is at most the distance, for all non-empty finite series. -/
theorem C05_kim [BandOps] (ratio : ℚ) (hr : 0 ≤ ratio) (a b : List K) (ha : 1 ≤ a.length) (hb : 1 ≤ b.length) :
    ∃ D, warpedValue (euclidean K) ratio (a.map fin) (b.map fin) .inf = .ok D ∧
      kimLowerBound (a.map fin) (b.map fin) ≤ D := by
  have h0 : ∀ i j, i < a.length → j < b.length → eucDist (at' (a.map fin) i) (at' (b.map fin) j) =
      fin ((a.getD i 0 - b.getD j 0) ^ 2) := by
    intro i j hi hj
    rw [at'_map a i hi, at'_map b j hj, eucDist_fin]
  unfold kimLowerBound
  simp only [List.length_map]
  by_cases h1 : min a.length b.length = 1
  · rw [if_pos h1, h0 0 0 (by omega) (by omega)]
    exact bound_le_dtw hr ha hb (sq_nonneg _) (fun p hp _ => hp.first_le a b)
  · rw [if_neg h1, if_pos (by omega), h0 0 0 (by omega) (by omega), h0 _ _ (by omega) (by omega), fin_add_fin]
    refine bound_le_dtw hr ha hb (add_nonneg (sq_nonneg _) (sq_nonneg _)) (fun p hp _ => ?_)
    exact hp.ends_le (by simp; omega) a b

end

/-- The bound is positive and below the distance on this pair. -/
example : kimLowerBound [fin (0 : ℚ), fin 7, fin 0] [fin 3, fin 7, fin 7, fin 4] = fin (5 / 8) ∧
    warpedValue (euclidean ℚ) 1 [fin 0, fin 7, fin 0] [fin 3, fin 7, fin 7, fin 4] .inf = .ok (fin (5 / 8)) := by
  decide +kernel
example := C05_kim (K := ℝ) 1 (by norm_num) [0, 7, 0] [3, 7, 7, 4] (by simp) (by simp)

/-! ## C06 -/

section
variable [HasSqrt K] [LawfulSqrt K]

/-- C06: the Keogh bound computed from either series, with any early-stop bound `d`, is at most the distance. -/
theorem C06_keogh [BandOps] (ratio : ℚ) (hr : 0 ≤ ratio) (a b : List K) (ha : 1 ≤ a.length) (hb : 1 ≤ b.length) (d : Dbl K) :
    ∃ D v v', warpedValue (euclidean K) ratio (a.map fin) (b.map fin) .inf = .ok D ∧
      keoghLowerBound ratio (a.map fin) (b.map fin) d = .ok v ∧ v ≤ D ∧
      keoghLowerBound ratio (b.map fin) (a.map fin) d = .ok v' ∧ v' ≤ D := by
  obtain ⟨lo, up, x, h1, h2, h3, h4, -⟩ := keogh_ok hr a b ha d
  obtain ⟨lo', up', x', h1', h2', h3', h4', -⟩ := keogh_ok hr b a hb d
  obtain ⟨D, e, hD⟩ := bound_le_dtw hr ha hb h3 (fun p hp hal => le_trans h4 (keogh_le ha hb h1 p hp hal))
  obtain ⟨D', e', hD'⟩ := bound_le_dtw hr hb ha h3' (fun p hp hal => le_trans h4' (keogh_le hb ha h1' p hp hal))
  have hs := C11_symmetric (K := K) .euclidean (by simp) (fun _ => inferInstance) ratio hr a b ha hb
  simp only [Metric.dm] at hs
  rw [e, e', Except.ok.injEq] at hs
  subst hs
  exact ⟨D, _, _, e, h2, hD, h2', hD'⟩

/-- C06, what the bound is without early stop: the squared distances of the first `min` points of `b` from the windows
of `a`, under the root and normalised as the distance is. -/
theorem C06_value [BandOps] (ratio : ℚ) (hr : 0 ≤ ratio) (a b : List K) (ha : 1 ≤ a.length) :
    ∃ lo up : ℕ → K, (∀ i < a.length, IsLeast (window a (bandWidth ratio (max a.length b.length)) i) (lo i) ∧
        IsGreatest (window a (bandWidth ratio (max a.length b.length)) i) (up i)) ∧
      keoghLowerBound ratio (a.map fin) (b.map fin) .inf = .ok (fin (HasSqrt.sqrt
        ((List.range (min a.length b.length)).map fun i => outside (lo i) (up i) (b.getD i 0) ^ 2).sum /
          ((2 * max a.length b.length : ℕ) : K))) := by
  obtain ⟨lo, up, x, h1, h2, h3, -, h5⟩ := keogh_ok hr a b ha .inf
  refine ⟨lo, up, fun i hi => ?_, ?_⟩
  · have := h1 i hi
    rwa [C08_cap a _ i hi] at this
  · rw [h2, eucNormDTW_fin h3 (by omega), h5 rfl]
    congr 5
    apply List.map_congr_left
    intro i hi
    rw [List.mem_range] at hi
    have := h1 i (by omega)
    exact excess_eq (this.1.2 this.2.1) _

end

example : keoghLowerBound (1 / 4) [fin (0 : ℚ), fin 1, fin 0, fin 1] [fin 0, fin 4, fin 5, fin 1] .inf = .ok (fin (5 / 8)) ∧
    keoghLowerBound (1 / 4) [fin 0, fin 4, fin 5, fin 1] [fin (0 : ℚ), fin 1, fin 0, fin 1] .inf = .ok (fin (1 / 8)) ∧
    keoghLowerBound (1 / 4) [fin (0 : ℚ), fin 1, fin 0, fin 1] [fin 0, fin 4, fin 5, fin 1] (fin (1 / 4)) =
      .ok (fin (3 / 8)) := by
  decide +kernel
example := C06_keogh (K := ℝ) (1 / 4) (by norm_num) [0, 1, 0, 1] [0, 4, 5, 1] (by simp) (by simp) .inf

/-! ## C07 -/

/-- What C07 asks: without a bound the cascaded distance is the warped one, and with a bound `d` it is that or infinity,
infinity only above the bound. -/
def CascadeExact [HasSqrt K] [BandOps] (ratio : ℚ) (a b : List (Dbl K)) : Prop :=
  ∃ F, warpedValue (euclidean K) ratio a b .inf = .ok F ∧ cascadeValue ratio a b .inf = .ok F ∧
    ∀ d, cascadeValue ratio a b d = .ok F ∨ (d < F ∧ cascadeValue ratio a b d = .ok .inf)

section
variable [HasSqrt K] [LawfulSqrt K]

/-- C07 for all series, unless the second has one point and the first has more than the band reaches but not more than twice that (then
`C07_column_false`); any bound, also negative, infinite or NaN. -/
theorem C07_cascade_partial [BandOps] (ratio : ℚ) (hr : 0 ≤ ratio) (a b : List K) (ha : 1 ≤ a.length) (hb : 1 ≤ b.length)
    (h1 : b.length = 1 → a.length ≤ bandWidth ratio a.length + 1 ∨ 2 * bandWidth ratio a.length + 1 < a.length) : CascadeExact ratio (a.map fin) (b.map fin) := by
  obtain ⟨F, hF, hkim⟩ := C05_kim ratio hr a b ha hb
  have hw : ∀ d, warpedValue (euclidean K) ratio (a.map fin) (b.map fin) d = .ok F ∨
      (d < F ∧ warpedValue (euclidean K) ratio (a.map fin) (b.map fin) d = .ok .inf) := by
    intro d
    obtain ⟨F', e, h⟩ := C02_dropout_partial (K := K) .euclidean (by simp) ratio hr a b ha hb h1 d
    simp only [Metric.dm] at e h
    rw [hF, Except.ok.injEq] at e
    subst e; exact h
  have hc : ∀ d, cascadeValue ratio (a.map fin) (b.map fin) d = .ok F ∨
      (d < F ∧ cascadeValue ratio (a.map fin) (b.map fin) d = .ok .inf) := by
    intro d
    obtain ⟨D, v, v', e, k1, k2, k3, k4⟩ := C06_keogh ratio hr a b ha hb d
    rw [hF, Except.ok.injEq] at e
    subst e
    unfold cascadeValue cascadeDistance crossKeoghLowerBound
    by_cases c1 : d < kimLowerBound (a.map fin) (b.map fin)
    · rw [if_pos c1]
      exact Or.inr ⟨Dbl.lt_of_lt_of_le c1 hkim, rfl⟩
    · rw [if_neg c1, k1]
      simp only [bind, Except.bind]
      by_cases c2 : d < v
      · rw [if_pos c2]
        simp only
        have hd := Dbl.lt_of_lt_of_le c2 k2
        have : d < .inf := by
          cases d <;> simp_all
        rw [if_pos this]
        exact Or.inr ⟨hd, rfl⟩
      · rw [if_neg c2, k3]
        simp only
        by_cases c3 : d < stdMax v v'
        · rw [if_pos c3]
          refine Or.inr ⟨Dbl.lt_of_lt_of_le c3 ?_, rfl⟩
          unfold stdMax; split
          · exact k4
          · exact k2
        · rw [if_neg c3]
          exact hw d
  refine ⟨F, hF, ?_, hc⟩
  rcases hc .inf with h | ⟨h, -⟩
  · exact h
  · simp at h

/-- C07 is false in the case left out, for all series and all bounds: the distance is finite, but every finite bound gives infinity. -/
theorem C07_column_false [BandOps] (ratio : ℚ) (hr : 0 ≤ ratio) (a b : List K) (hb : b.length = 1)
    (h1 : bandWidth ratio a.length + 1 < a.length) (h2 : a.length ≤ 2 * bandWidth ratio a.length + 1) :
    ∃ x, warpedValue (euclidean K) ratio (a.map fin) (b.map fin) .inf = .ok (fin x) ∧
      ∀ d, cascadeValue ratio (a.map fin) (b.map fin) (fin d) = .ok .inf := by
  obtain ⟨x, hx, hd⟩ := C02_column_false .euclidean (by simp) ratio hr a b hb h1 h2
  refine ⟨x, hx, fun d => ?_⟩
  obtain ⟨D, v, v', -, k1, -, k3, -⟩ := C06_keogh ratio hr a b (by omega) (by omega) (fin d)
  unfold cascadeValue cascadeDistance crossKeoghLowerBound
  split
  · rfl
  · rw [k1]
    simp only [bind, Except.bind]
    by_cases c2 : fin d < v
    · rw [if_pos c2]
      simp only
      rw [if_pos (by simp)]; rfl
    · rw [if_neg c2, k3]
      simp only
      split
      · rfl
      · exact hd d

noncomputable example := C07_column_false (K := ℝ) (1 / 2) (by norm_num) [0, 3, 4, 0] [0] (by simp)
  (by norm_num [bandWidth, BandOps.mul]) (by norm_num [bandWidth, BandOps.mul])

end

/-- Pruned by Kim, pruned by Keogh, computed. -/
example : cascadeValue (1 / 4) [fin (0 : ℚ), fin 1, fin 0, fin 1] [fin 9, fin 4, fin 5, fin 1] (fin 1) = .ok .inf ∧
    cascadeValue (1 / 4) [fin (0 : ℚ), fin 1, fin 0, fin 1] [fin 0, fin 4, fin 5, fin 1] (fin (1 / 4)) = .ok .inf ∧
    cascadeValue (1 / 4) [fin (0 : ℚ), fin 1, fin 0, fin 1] [fin 0, fin 4, fin 5, fin 1] (fin 1) = .ok (fin (5 / 8)) := by
  decide +kernel
example := C07_cascade_partial (K := ℝ) (1 / 4) (by norm_num) [0, 1, 0, 1] [0, 4, 5, 1] (by simp) (by simp) (by simp)
example := C07_cascade_partial (K := ℝ) 1 (by norm_num) [0, 1, 0] [4] (by simp) (by simp) (fun _ => Or.inl (by simp [bandWidth, BandOps.mul]))

/-- C07 is false when the second series has a single point: the distance 5/8 is below the bound 100, but the call returns
infinity (all roots taken here are of squares, so the rational evaluation is exact). -/
theorem C07_single_point_false : ∃ (ratio : ℚ) (a b : List ℚ), 0 ≤ ratio ∧ 1 ≤ a.length ∧ 1 ≤ b.length ∧
    ¬ CascadeExact ratio (a.map fin) (b.map fin) := by
  refine ⟨1 / 2, [0, 3, 4, 0], [0], by norm_num, by simp, by simp, ?_⟩
  rintro ⟨F, h1, -, h2⟩
  have e1 : warpedValue (euclidean ℚ) (1 / 2) (([0, 3, 4, 0] : List ℚ).map fin) (([0] : List ℚ).map fin) .inf
      = .ok (fin (5 / 8)) := by decide +kernel
  have e2 : cascadeValue (1 / 2) (([0, 3, 4, 0] : List ℚ).map fin) (([0] : List ℚ).map fin) (fin 100)
      = .ok .inf := by decide +kernel
  have := h2 (fin 100)
  simp only [e1, e2, Except.ok.injEq] at h1 this
  subst h1
  revert this
  decide +kernel

/-- C12 for the cascade with no bound: its pairs are an alignment, the one of the warped distance.
Missing: two single points, as in `C12_matching_partial`. -/
theorem C12_cascade_partial [HasSqrt K] [LawfulSqrt K] [BandOps] (ratio : ℚ) (hr : 0 ≤ ratio) (a b : List K) (ha : 1 ≤ a.length) (hb : 1 ≤ b.length)
    (h1 : ¬ (a.length = 1 ∧ b.length = 1)) :
    ∃ p, DistRef.cascade.matching ratio (a.map fin) (b.map fin) = .ok p ∧
      (DistRef.warped .euclidean).matching ratio (a.map fin) (b.map fin) = .ok p ∧ Alignment a.length b.length p := by
  obtain ⟨D, v, v', -, k1, -, k3, -⟩ := C06_keogh ratio hr a b ha hb .inf
  obtain ⟨x, p, e, hp⟩ := C12_matching_partial (K := K) .euclidean (by simp) (fun _ => ‹LawfulSqrt K›) ratio a b ha hb h1 .inf
  simp only [Metric.dm] at e
  have n : ∀ z : Dbl K, ¬ (Dbl.inf < z) := fun z => by simp
  refine ⟨p, ?_, ?_, hp⟩
  · simp only [DistRef.matching]
    unfold cascadeDistance crossKeoghLowerBound
    rw [if_neg (n _), k1]
    simp only [bind, Except.bind, if_neg (n _), k3, e]
    rfl
  · simp only [DistRef.matching, Metric.dm, e]
    rfl

example := C12_cascade_partial (K := ℝ) (1 / 4) (by norm_num) [0, 1, 0, 1] [0, 4, 5] (by simp) (by simp) (by simp)

end Genex.Props
