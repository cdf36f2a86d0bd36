import Verif.Model.LowerBounds
import Verif.Spec.Window
import Verif.Lemmas.Lemire
import Verif.Lemmas.DtwMore
import Verif.Lemmas.MetricLaws

/-! Lower bounds: envelopes of finite series, columns of an alignment. -/

set_option linter.unusedSectionVars false

namespace Genex

open Dbl Spec

variable {K : Type} [Field K] [LinearOrder K] [IsStrictOrderedRing K]

theorem noNaN_map_fin (a : List K) : NoNaN (a.map fin) := by
  intro x hx
  simp only [List.mem_map] at hx
  obtain ⟨y, -, rfl⟩ := hx
  simp

theorem tv_map_fin (a : List K) {i : ℕ} (h : i < a.length) : tv (a.map fin) i = fin (a.getD i 0) := by
  simp [tv, List.getD, h]

/-- The envelope of a finite series. -/
theorem envelope_fin (chk : Bool) (a : List K) (r : ℕ) (h : r < a.length) :
    ∃ (lo up : OutArr K), lemire chk (a.map fin) r = .ok (lo, up) ∧ ∀ i < a.length, ∃ x y, lo i = some (fin x) ∧
      up i = some (fin y) ∧ IsLeast (window a r i) x ∧ IsGreatest (window a r i) y := by
  obtain ⟨lo, up, e, hl, hu⟩ := lemire_done chk (a.map fin) r (by simpa using h)
  refine ⟨lo, up, e, fun i hi => ?_⟩
  obtain ⟨x, ex, wx⟩ := hl.1 i (by simpa using hi)
  obtain ⟨y, ey, wy⟩ := hu.1 i (by simpa using hi)
  obtain ⟨x1, x2, x3, x4⟩ := wx (noNaN_map_fin a)
  obtain ⟨y1, y2, y3, y4⟩ := wy (noNaN_map_fin a)
  simp only [List.length_map] at x3 x4 y3 y4
  rw [tv_map_fin a x3] at ex
  rw [tv_map_fin a y3] at ey
  refine ⟨_, _, ex, ey, ⟨⟨x, by simp [List.getD, x3], x1, x2⟩, ?_⟩, ⟨⟨y, by simp [List.getD, y3], y1, y2⟩, ?_⟩⟩
  · rintro v ⟨j, hj, j1, j2⟩
    obtain ⟨hjl, rfl⟩ := List.getElem?_eq_some_iff.1 hj
    have := x4 j hjl j1 j2
    unfold geL at this
    rw [tv_map_fin a x3, tv_map_fin a hjl, fin_le_fin] at this
    simpa [List.getD, hjl, x3] using this
  · rintro v ⟨j, hj, j1, j2⟩
    obtain ⟨hjl, rfl⟩ := List.getElem?_eq_some_iff.1 hj
    have := y4 j hjl j1 j2
    unfold geU at this
    rw [tv_map_fin a y3, tv_map_fin a hjl, fin_le_fin] at this
    simpa [List.getD, hjl, y3] using this

/-- Every alignment meets every column. -/
theorem PathTo.sum_cols {c : ℕ × ℕ} {p : List (ℕ × ℕ)} (h : PathTo c p) (a b : List K) (g : ℕ → K) (L : ℕ)
    (hg : ∀ x ∈ p, x.2 < L → g x.2 ≤ (a.getD x.1 0 - b.getD x.2 0) ^ 2) :
    ((List.range (min L (c.2 + 1))).map g).sum ≤ sqCost a b p := by
  induction h using PathTo.rec' with
  | base =>
    have hs : sqCost a b [(0, 0)] = (a.getD 0 0 - b.getD 0 0) ^ 2 := by simp [sqCost, diffs]
    rw [hs]
    by_cases hL : L = 0
    · subst hL; simpa using sq_nonneg _
    · have : min L ((0 : ℕ) + 1) = 1 := by omega
      simp only [this, List.range_one, List.map_cons, List.map_nil, List.sum_cons, List.sum_nil, add_zero]
      exact hg (0, 0) (by simp) (by simp only; omega)
  | step c d p hp hs ih =>
    rw [sqCost_snoc]
    have ih := ih (fun x hx => hg x (by simp [hx]))
    have hsq : 0 ≤ (a.getD d.1 0 - b.getD d.2 0) ^ 2 := sq_nonneg _
    have hcol : d.2 = c.2 ∨ d.2 = c.2 + 1 := by rcases hs with h | h | h <;> simp [h]
    rcases hcol with e | e
    · rw [e]; rw [e] at hsq; linarith
    · by_cases hL : d.2 < L
      · have e1 : min L (d.2 + 1) = c.2 + 1 + 1 := by omega
        have e2 : min L (c.2 + 1) = c.2 + 1 := by omega
        rw [e1, List.range_succ, List.map_append, List.sum_append]
        rw [e2] at ih
        have := hg d (by simp) hL
        simp only [List.map_cons, List.map_nil, List.sum_cons, List.sum_nil, add_zero]
        rw [← e] at ih ⊢
        linarith
      · have e1 : min L (d.2 + 1) = min L (c.2 + 1) := by omega
        rw [e1]; linarith

/-- Every alignment pays for its first pair. -/
theorem PathTo.first_le {c : ℕ × ℕ} {p : List (ℕ × ℕ)} (h : PathTo c p) (a b : List K) :
    (a.getD 0 0 - b.getD 0 0) ^ 2 ≤ sqCost a b p := by
  induction h using PathTo.rec' with
  | base => simp [sqCost, diffs]
  | step c d p hp hs ih =>
    rw [sqCost_snoc]
    have hsq : 0 ≤ (a.getD d.1 0 - b.getD d.2 0) ^ 2 := sq_nonneg _
    linarith

/-- An alignment with two cells at least pays for the first and the last pair. -/
theorem PathTo.ends_le {c : ℕ × ℕ} {p : List (ℕ × ℕ)} (h : PathTo c p) (hc : c ≠ (0, 0)) (a b : List K) :
    (a.getD 0 0 - b.getD 0 0) ^ 2 + (a.getD c.1 0 - b.getD c.2 0) ^ 2 ≤ sqCost a b p := by
  rcases h.cases with ⟨e, -⟩ | ⟨q, d, rfl, hq, -⟩
  · exact absurd e hc
  · rw [sqCost_snoc]
    have := hq.first_le a b
    linarith

/-- The excess of `b[i]` over the envelope, squared. -/
def excess (lo up x : K) : K := if up < x then (x - up) ^ 2 else if x < lo then (x - lo) ^ 2 else 0

theorem excess_nonneg (lo up x : K) : 0 ≤ excess lo up x := by
  unfold excess
  split_ifs
  · exact sq_nonneg _
  · exact sq_nonneg _
  · exact le_refl _

theorem excess_eq {lo up : K} (h : lo ≤ up) (x : K) : excess lo up x = outside lo up x ^ 2 := by
  unfold excess outside
  split_ifs with h1 h2
  · have : max 0 (max (x - up) (lo - x)) = x - up := by
      rw [max_eq_left (by linarith : lo - x ≤ x - up), max_eq_right (by linarith)]
    rw [this]
  · have : max 0 (max (x - up) (lo - x)) = lo - x := by
      rw [max_eq_right (by linarith : x - up ≤ lo - x), max_eq_right (by linarith)]
    rw [this]; ring
  · have : max 0 (max (x - up) (lo - x)) = 0 := by
      apply max_eq_left
      apply max_le <;> linarith
    rw [this]; ring

theorem excess_le {lo up x y : K} (h1 : lo ≤ y) (h2 : y ≤ up) : excess lo up x ≤ (y - x) ^ 2 := by
  unfold excess
  split_ifs with h3 h4
  · nlinarith
  · nlinarith
  · exact sq_nonneg _

section
variable [HasSqrt K] [LawfulSqrt K]

theorem eucNormDTW_fin {x : K} (hx : 0 ≤ x) {m n : ℕ} (h : 1 ≤ max m n) :
    eucNormDTW (fin x) m n = fin (HasSqrt.sqrt x / ((2 * max m n : ℕ) : K)) := by
  unfold eucNormDTW Dbl.ofNat
  have : ((2 * max m n : ℕ) : K) ≠ 0 := ne_of_gt (maxlen_pos h)
  have hs : Dbl.sqrt (fin x) = fin (HasSqrt.sqrt x) := by simp [Dbl.sqrt, not_lt.2 hx]
  rw [hs, fin_div_fin this]

/-- Anything below all alignment costs is below the distance. -/
theorem bound_le_dtw [BandOps] {ratio : ℚ} (hr : 0 ≤ ratio) {a b : List K} (ha : 1 ≤ a.length) (hb : 1 ≤ b.length) {x : K}
    (hx : 0 ≤ x) (h : ∀ p, PathTo (a.length - 1, b.length - 1) p →
      (∀ c ∈ p, Allowed a.length b.length (bandWidth ratio (max a.length b.length)) c.1 c.2) → x ≤ sqCost a b p) :
    ∃ D, warpedValue (euclidean K) ratio (a.map fin) (b.map fin) .inf = .ok D ∧
      eucNormDTW (fin x) a.length b.length ≤ D := by
  have hbw := band_eq_bandWidth hr (len := max a.length b.length) (by omega)
  have hp := maxlen_pos (K := K) (m := a.length) (n := b.length) (by omega)
  rw [eucNormDTW_fin hx (by omega)]
  rcases warped_isLeast (monoEuclidean (by omega)) _ (valE a b (by omega)) hbw ha hb with ⟨y, e, l⟩ | ⟨e, -⟩
  · refine ⟨_, e, ?_⟩
    obtain ⟨p, p1, p2, rfl⟩ := l.1
    rw [fin_le_fin]
    apply div_le_div_of_nonneg_right _ (le_of_lt hp)
    rw [sqrt_le_sqrt_iff hx (sqCost_nonneg _ _ _)]
    exact h p (alignment_iff.1 p1) p2
  · exact ⟨_, e, by simp⟩

theorem keoghLoop_ok {lower upper : OutArr K} {lo up : ℕ → K} {b : List K} {idrop : Dbl K} (is : List ℕ)
    (h : ∀ i ∈ is, lower i = some (fin (lo i)) ∧ upper i = some (fin (up i)) ∧ i < b.length) : ∀ lb : K,
    ∃ x, keoghLoop lower upper (b.map fin) idrop is (fin lb) = .ok (fin x) ∧ lb ≤ x ∧
      x ≤ lb + (is.map fun i => excess (lo i) (up i) (b.getD i 0)).sum ∧
      (idrop = .inf → x = lb + (is.map fun i => excess (lo i) (up i) (b.getD i 0)).sum) := by
  induction is with
  | nil => intro lb; exact ⟨lb, rfl, le_refl _, by simp, by simp⟩
  | cons i is ih =>
    intro lb
    obtain ⟨h1, h2, h3⟩ := h i (by simp)
    have hb := at'_map b i h3
    have hs : 0 ≤ (is.map fun i => excess (lo i) (up i) (b.getD i 0)).sum := by
      apply List.sum_nonneg
      intro x hx
      simp only [List.mem_map] at hx
      obtain ⟨y, -, rfl⟩ := hx
      exact excess_nonneg _ _ _
    have he := excess_nonneg (lo i) (up i) (b.getD i 0)
    unfold keoghLoop
    by_cases hlt : fin lb < idrop
    · simp only [hlt, if_true, outGet, h1, h2, bind, Except.bind, hb, fin_lt_fin, List.map_cons, List.sum_cons]
      have key : ∀ e, e = excess (lo i) (up i) (b.getD i 0) →
          ∃ x, keoghLoop lower upper (b.map fin) idrop is (fin (lb + e)) = .ok (fin x) ∧ lb ≤ x ∧
          x ≤ lb + (excess (lo i) (up i) (b.getD i 0) + (is.map fun i => excess (lo i) (up i) (b.getD i 0)).sum) ∧
          (idrop = .inf → x = lb + (excess (lo i) (up i) (b.getD i 0) +
            (is.map fun i => excess (lo i) (up i) (b.getD i 0)).sum)) := by
        rintro e rfl
        obtain ⟨x, e1, e2, e3, e4⟩ := ih (fun j hj => h j (by simp [hj])) (lb + excess (lo i) (up i) (b.getD i 0))
        refine ⟨x, e1, by linarith, by linarith, fun hh => ?_⟩
        rw [e4 hh]; ring
      by_cases c1 : up i < b.getD i 0
      · simp only [c1, if_true, eucDist_fin, fin_add_fin]
        exact key _ (by unfold excess; rw [if_pos c1])
      · simp only [c1, if_false]
        by_cases c2 : b.getD i 0 < lo i
        · simp only [c2, if_true, eucDist_fin, fin_add_fin]
          exact key _ (by unfold excess; rw [if_neg c1, if_pos c2])
        · simp only [c2, if_false]
          have := key 0 (by unfold excess; rw [if_neg c1, if_neg c2])
          simpa using this
    · simp only [hlt, if_false, List.map_cons, List.sum_cons]
      refine ⟨lb, rfl, le_refl _, by linarith, ?_⟩
      rintro rfl
      simp at hlt

/-- Everything about one call of `keoghLowerBound` on finite series. -/
theorem keogh_ok [BandOps] {ratio : ℚ} (hr : 0 ≤ ratio) (a b : List K) (ha : 1 ≤ a.length) (d : Dbl K) :
    ∃ (lo up : ℕ → K) (x : K), (∀ i < a.length,
        IsLeast (window a (min (bandWidth ratio (max a.length b.length)) (a.length - 1)) i) (lo i) ∧
        IsGreatest (window a (min (bandWidth ratio (max a.length b.length)) (a.length - 1)) i) (up i)) ∧
      keoghLowerBound ratio (a.map fin) (b.map fin) d = .ok (eucNormDTW (fin x) a.length b.length) ∧ 0 ≤ x ∧
      x ≤ ((List.range (min a.length b.length)).map fun i => excess (lo i) (up i) (b.getD i 0)).sum ∧
      (d = .inf → x = ((List.range (min a.length b.length)).map fun i => excess (lo i) (up i) (b.getD i 0)).sum) := by
  have hbw := band_eq_bandWidth hr (len := max a.length b.length) (by omega)
  set w := bandWidth ratio (max a.length b.length) with hw
  have hmin : min (band ratio (max a.length b.length : ℕ)) (((a.map fin).length : Int) - 1) =
      ((min w (a.length - 1) : ℕ) : Int) := by
    rw [hbw]; simp only [List.length_map]; omega
  obtain ⟨lower, upper, e, henv⟩ := envelope_fin false a (min w (a.length - 1)) (by omega)
  choose! lo up h1 h2 h3 h4 using henv
  obtain ⟨x, x1, x2, x3, x4⟩ := keoghLoop_ok (lower := lower) (upper := upper) (lo := lo) (up := up) (b := b)
    (idrop := (d * Dbl.ofNat 2 * Dbl.ofNat (max a.length b.length)) *
      (d * Dbl.ofNat 2 * Dbl.ofNat (max a.length b.length)))
    (List.range (min a.length b.length))
    (fun i hi => by
      rw [List.mem_range] at hi
      exact ⟨h1 i (by omega), h2 i (by omega), by omega⟩) 0
  refine ⟨lo, up, x, fun i hi => ⟨h3 i hi, h4 i hi⟩, ?_, x2, by simpa using x3, ?_⟩
  · unfold keoghLowerBound keoghLU
    simp only [List.length_map] at hmin ⊢
    simp only [hmin, e, bind, Except.bind]
    rw [zero_def, x1]
  · intro hd
    have hpos : (0 : K) < ((max a.length b.length : ℕ) : K) := by exact_mod_cast (by omega : 0 < max a.length b.length)
    have := x4 (by
      subst hd
      have e1 : (Dbl.inf : Dbl K) * Dbl.ofNat 2 = .inf := by
        change infTimes true _ = _
        simp [infTimes]
      have e2 : (Dbl.inf : Dbl K) * Dbl.ofNat (max a.length b.length) = .inf := by
        change infTimes true _ = _
        simp only [infTimes, if_neg (ne_of_gt hpos), if_pos hpos, if_true]
      rw [e1, e2]; rfl)
    simpa using this

/-- The Keogh bound is below every alignment cost. -/
theorem keogh_le [BandOps] {ratio : ℚ} {a b : List K} {lo up : ℕ → K} (hm : 1 ≤ a.length) (hn : 1 ≤ b.length)
    (h : ∀ i < a.length,
        IsLeast (window a (min (bandWidth ratio (max a.length b.length)) (a.length - 1)) i) (lo i) ∧
        IsGreatest (window a (min (bandWidth ratio (max a.length b.length)) (a.length - 1)) i) (up i))
    (p : List (ℕ × ℕ)) (hp : PathTo (a.length - 1, b.length - 1) p)
    (hal : ∀ c ∈ p, Allowed a.length b.length (bandWidth ratio (max a.length b.length)) c.1 c.2) :
    ((List.range (min a.length b.length)).map fun i => excess (lo i) (up i) (b.getD i 0)).sum ≤ sqCost a b p := by
  set w := bandWidth ratio (max a.length b.length) with hw
  have hex : ∀ i k, i < a.length → k < a.length → i ≤ k + w → k ≤ i + w →
      excess (lo i) (up i) (b.getD i 0) ≤ (a.getD k 0 - b.getD i 0) ^ 2 := by
    intro i k hi hk h1 h2
    have hmem : a.getD k 0 ∈ window a (min w (a.length - 1)) i :=
      ⟨k, by simp [List.getD, hk], by omega, by omega⟩
    exact excess_le ((h i hi).1.2 hmem) ((h i hi).2.2 hmem)
  by_cases hone : a.length = 1 ∨ b.length = 1
  · have e : min a.length b.length = 1 := by omega
    rw [e]
    simp only [List.range_one, List.map_cons, List.map_nil, List.sum_cons, List.sum_nil, add_zero]
    exact le_trans (hex 0 0 (by omega) (by omega) (by omega) (by omega)) (hp.first_le a b)
  · have := hp.sum_cols a b (fun i => excess (lo i) (up i) (b.getD i 0)) (min a.length b.length) (fun x hx hxl => by
      have hb := hp.bound x hx
      have ha := hal x hx
      simp only at hb
      have : x.1 ≤ x.2 + w ∧ x.2 ≤ x.1 + w := by
        unfold Allowed inB at ha; omega
      exact hex x.2 x.1 (by omega) (by omega) this.2 this.1)
    have e : min (min a.length b.length) ((a.length - 1, b.length - 1).2 + 1) = min a.length b.length := by
      simp only; omega
    rw [e] at this
    exact this

end

end Genex
