import Verif.Props.Stable
import Verif.Props.Search
import Verif.Props.Serialize

/-!
# C69: how far the best match is from the optimum
-/

set_option linter.unusedSectionVars false

namespace Genex.Props

open Dbl Spec

section

variable {K : Type} [Field K] [LinearOrder K] [IsStrictOrderedRing K] [HasSqrt K]

theorem subOf_map {rows : List (List K)} {ℓ i p : ℕ} {y : List K} (h : SubOf rows ℓ i p y) :
    SubOf (rows.map (·.map (fin : K → Dbl K))) ℓ i p (y.map fin) := by
  obtain ⟨r, h1, h2, rfl⟩ := h
  exact ⟨r.map fin, by rw [List.getElem?_map, h1]; rfl, by simpa using h2, by simp [List.map_take, List.map_drop]⟩

theorem mapM_inv {α β : Type} (f : α → Res β) : ∀ {l : List α} {r : List β}, l.mapM f = .ok r →
    ∀ b ∈ r, ∃ a ∈ l, f a = .ok b
  | [], r, h => by
    simp only [List.mapM_nil, pure, Except.pure, Except.ok.injEq] at h
    subst h
    simp
  | a :: l, r, h => by
    simp only [List.mapM_cons, bind, Except.bind] at h
    cases e : f a with
    | error x => rw [e] at h; cases h
    | ok b =>
      rw [e] at h
      simp only at h
      cases e' : l.mapM f with
      | error x => rw [e'] at h; cases h
      | ok bs =>
        rw [e'] at h
        simp only [pure, Except.pure, Except.ok.injEq] at h
        subst h
        intro b' hb'
        rcases List.mem_cons.1 hb' with rfl | hb'
        · exact ⟨a, List.mem_cons_self, e⟩
        · obtain ⟨a', h1, h2⟩ := mapM_inv f e' b' hb'
          exact ⟨a', List.mem_cons_of_mem _ h1, h2⟩

/-- For any arithmetic: if in a grouping the members of a group are near its representative, in the sense `P`, then every
subsequence of a grouped length is near a representative, also in groups loaded from a file. -/
theorem covers_for [Arith K] [PairwiseEvals K] {rows : List (List K)} (P : List K → List K → Prop) {name : String} {t : Dbl K}
    {R : List (List (Dbl K))} (hR : R = rows.map (·.map fin)) {whole : Bool} {z : GSet K} (hz : Ready R name t whole z)
    (hrad : ∀ (s : GSet K) (ratio : ℚ) (log : ℕ → Bool) (numThreads : Int) (out : GSet K × Res Int) (N : Int),
      Holds s.ds (rows.map (·.map fin)) → 0 ≤ s.ds.maxCol → s.ds.maxCol = z.ds.maxCol →
      GSet.GroupAll ratio log name t whole numThreads s out → out.2 = .ok N →
      ∃ gs, out.1 = { s with groups := some gs } ∧ ∀ ℓ sp g, gs.spaces[ℓ]? = some (some sp) → g ∈ sp.groups →
        ∃ ri rp x members, g.centroid = .view (subView s.ds.maxCol ri rp ℓ) ∧ SubOf rows ℓ ri rp x ∧
          LocalSpace.getMembers s.ds sp g = .ok members ∧
          ∀ v ∈ members, ∃ i p y, v = subView s.ds.maxCol i p ℓ ∧ SubOf rows ℓ i p y ∧ P x y) :
    ∃ gs, z.groups = some gs ∧ ∀ ℓ i p y, InRange z.ds.maxCol whole ℓ → SubOf rows ℓ i p y →
      ∃ sp g ri rp x, gs.spaces[ℓ]? = some (some sp) ∧ g ∈ sp.groups ∧ g.centroid = .view (subView z.ds.maxCol ri rp ℓ) ∧
        SubOf rows ℓ ri rp x ∧ P x y := by
  induction hz with
  | grouped s H hmax ratio log numThreads out ho N hN =>
    subst hR
    obtain ⟨gs, e, h1, -⟩ := partition_for s _ H hmax ratio _ _ whole log numThreads out ho N hN
    obtain ⟨gs', e', h2⟩ := hrad s ratio log numThreads out N H hmax (by rw [e]) ho hN
    have hgs : gs' = gs := by
      rw [e] at e'
      have := congrArg GSet.groups e'
      simpa using this.symm
    subst hgs
    refine ⟨gs', by rw [e], ?_⟩
    intro ℓ i p y hℓ hy
    rw [e] at hℓ ⊢
    simp only at hℓ ⊢
    obtain ⟨sp, members, hsp, hmem, -, -, -, hall, -⟩ := h1 ℓ hℓ
    have hv := (hall (subView s.ds.maxCol i p ℓ)).2 ⟨i, p, _, subOf_map hy, rfl⟩
    obtain ⟨M, hM, hvM⟩ := List.mem_flatten.1 hv
    obtain ⟨g, hg, hgM⟩ : ∃ g ∈ sp.groups, LocalSpace.getMembers s.ds sp g = .ok M := by
      exact mapM_inv _ hmem M hM
    obtain ⟨ri, rp, x, members', hc, hx, hm', hrad⟩ := h2 ℓ sp g hsp hg
    rw [hgM, Except.ok.injEq] at hm'
    subst hm'
    obtain ⟨i', p', y', hv', hy', hle⟩ := hrad _ hvM
    obtain ⟨rfl, rfl⟩ := subView_inj hv'
    rw [subOf_unique hy' hy] at hle
    exact ⟨sp, g, ri, rp, x, hsp, hg, hc, hx, hle⟩
  | loaded z hz hw dst Hd hmaxd ih =>
    obtain ⟨-, gs1, gs', hgs1, hload, hsame, -⟩ := round_trip_for R name t whole z hz hw dst Hd hmaxd
    obtain ⟨gs, hgs, h⟩ := ih (fun s ratio log numThreads out N H hmax hd => hrad s ratio log numThreads out N H hmax
      (by rw [hload]; simp only; rw [hd, hmaxd]))
    rw [hgs, Option.some.injEq] at hgs1
    subst hgs1
    rw [hload]
    refine ⟨gs', rfl, ?_⟩
    simp only
    rw [hmaxd]
    intro ℓ i p y hℓ hy
    obtain ⟨sp, g, ri, rp, x, h1, h2, h3, h4, h5⟩ := h ℓ i p y hℓ hy
    obtain ⟨sp', e1, -, e2, e3⟩ := hsame.on ℓ sp h1
    obtain ⟨j, hj⟩ := List.mem_iff_getElem?.1 h2
    have hlt : j < sp'.groups.length := by rw [e2]; exact (List.getElem?_eq_some_iff.1 hj).1
    have hj' := List.getElem?_eq_getElem hlt
    obtain ⟨-, e4, -⟩ := e3 j g _ hj hj'
    exact ⟨sp', _, ri, rp, x, e1, List.getElem_mem hlt, by rw [e4]; exact h3, h4, h5⟩

/-- Every subsequence of a grouped length is within half the threshold of a representative. -/
theorem ready_covers [BandOps] {rows : List (List K)} {m : Metric} (hm : m ≠ .sorensen ∧ m ≠ .cosine)
    (hs : m = .euclidean → LawfulSqrt K) {τ : K} (hτ : 0 ≤ τ) {whole : Bool} {z : GSet K}
    (hz : Ready (rows.map (·.map fin)) (metricName m) (fin τ) whole z) :
    ∃ gs, z.groups = some gs ∧ ∀ ℓ i p y, InRange z.ds.maxCol whole ℓ → SubOf rows ℓ i p y →
      ∃ sp g ri rp x, gs.spaces[ℓ]? = some (some sp) ∧ g ∈ sp.groups ∧ g.centroid = .view (subView z.ds.maxCol ri rp ℓ) ∧
        SubOf rows ℓ ri rp x ∧ textbook m x y ≤ τ / 2 := by
  refine covers_for _ rfl hz ?_
  intro s ratio log numThreads out N H hmax _ ho hN
  obtain ⟨gs, e, h⟩ := C28_radius s rows H hmax ratio m hm hs τ hτ whole log numThreads out ho N hN
  refine ⟨gs, e, fun ℓ sp g hsp hg => ?_⟩
  obtain ⟨ri, rp, x, members, hc, hx, hm', -, hrad, -⟩ := h ℓ sp g hsp hg
  exact ⟨ri, rp, x, members, hc, hx, hm', hrad⟩

section
variable (z : GSet K) (rows : List (List K)) [BandOps] (ratio : ℚ) (hr : 0 ≤ ratio) (m : Metric) (hm : m ≠ .sorensen ∧ m ≠ .cosine)
    (hs : m = .euclidean → LawfulSqrt K) (τ : K) (hτ : 0 ≤ τ) (whole : Bool)
    (hz : Ready (rows.map (·.map fin)) (metricName m) (fin τ) whole z)

include hr hm hs hτ hz

/-- The representative of the group of `y` is not much farther from the query than `y`. -/
theorem approx_of (q : List K) (c : Cand K) (hc : z.getBestMatch ratio (q.map fin) = .ok c) (slack : K) (ℓ i p : ℕ) (y : List K)
    (hℓ : Considered z.ds.maxCol whole ratio q.length ℓ) (hy : SubOf rows ℓ i p y)
    (hst : 2 ≤ q.length → 2 ≤ ℓ → ∀ x r, warpedValue (m.dm K) ratio (q.map fin) (y.map fin) .inf = .ok (fin x) → r.length = ℓ → textbook m y r ≤ τ / 2 →
      ∃ x', warpedValue (m.dm K) ratio (q.map fin) (r.map fin) .inf = .ok (fin x') ∧ x' ≤ x + slack)
    (x : K) (hx : Dtw m ratio q y (fin x)) : c.dist ≤ fin (x + slack) := by
  obtain ⟨gs, hgs, hcov⟩ := ready_covers hm hs hτ hz
  obtain ⟨gs', hgs', hall, -⟩ := C35_best z rows ratio hr m hm hs (fin τ) whole hz q c hc
  rw [hgs, Option.some.injEq] at hgs'
  subst hgs'
  obtain ⟨sp, g, ri, rp, r, h1, h2, h3, h4, h5⟩ := hcov ℓ i p y hℓ.1 hy
  obtain ⟨i', p', r', d, h6, h7, h8, h9⟩ := hall ℓ sp g hℓ h1 h2
  rw [h3, Centroid.view.injEq] at h6
  obtain ⟨rfl, rfl⟩ := subView_inj h6
  obtain rfl := subOf_unique h4 h7
  -- lengths
  obtain ⟨hq, hle⟩ : 2 ≤ q.length ∧ (q.length : Int) ≤ z.ds.maxCol := by
    obtain ⟨-, -, -, m', gs', SP, ABS, hname, hgs', U⟩ := hz.usable
    have hoth := best_other (s := z) ratio _ U.warped U.spaces.size (q.map fin)
    rw [List.length_map] at hoth
    simp only [GSet.getBestMatch, hgs'] at hc
    by_cases hq : 2 ≤ q.length
    · refine ⟨hq, ?_⟩
      by_contra hle
      rcases hoth.2 hq (by omega) with h | h <;> rw [h] at hc <;> cases hc
    · obtain ⟨msg, h⟩ := hoth.1 (by omega)
      rw [h] at hc; cases hc
  have h2ℓ := considered_two hq hle hℓ
  have hM := textbook_metric (K := K) m hm hs ℓ (by omega)
  rw [hM.symm _ _ (subOf_length h4) (subOf_length hy)] at h5
  obtain ⟨x', e1, e2⟩ := hst hq h2ℓ x r ((dtw_iff hm hs hr (by omega) (by rw [subOf_length hy]; omega)).1 hx)
    (subOf_length h4) h5
  replace e1 := dtw_unique h8 ((dtw_iff hm hs hr (by omega) (by rw [subOf_length h4]; omega)).2 e1)
  rw [e1] at h9
  exact Dbl.le_trans h9 (by rwa [fin_le_fin])

end

/-- C69 euclidean: the best match is at most a quarter of the threshold farther from the query than any subsequence of a length
considered. -/
theorem C69_euclidean [LawfulSqrt K] (z : GSet K) (rows : List (List K)) [BandOps] (ratio : ℚ) (hr : 0 ≤ ratio) (τ : K) (hτ : 0 ≤ τ)
    (whole : Bool) (hz : Ready (rows.map (·.map fin)) "euclidean" (fin τ) whole z) (q : List K) (c : Cand K)
    (hc : z.getBestMatch ratio (q.map fin) = .ok c) (ℓ i p : ℕ) (y : List K)
    (hℓ : Considered z.ds.maxCol whole ratio q.length ℓ) (hy : SubOf rows ℓ i p y) (x : K)
    (hx : Dtw .euclidean ratio q y (fin x)) : c.dist ≤ fin (x + τ / 4) := by
  refine approx_of z rows ratio hr .euclidean (by decide) (fun _ => inferInstance) τ hτ whole hz q c hc (τ / 4) ℓ i p y hℓ hy ?_ x hx
  intro hq h2 x r hx hrl ht
  obtain ⟨x', h3, h4⟩ := C68_euclidean ratio hr q y r hq (by rw [subOf_length hy]; exact h2) (by rw [subOf_length hy, hrl]) x hx
  refine ⟨x', h3, le_trans h4 ?_⟩
  simp only [textbook] at ht
  linarith

/-- C69 chebyshev: the best match is at most half the threshold farther from the query than any subsequence of a length
considered. -/
theorem C69_chebyshev (z : GSet K) (rows : List (List K)) [BandOps] (ratio : ℚ) (hr : 0 ≤ ratio) (τ : K) (hτ : 0 ≤ τ)
    (whole : Bool) (hz : Ready (rows.map (·.map fin)) "chebyshev" (fin τ) whole z) (q : List K) (c : Cand K)
    (hc : z.getBestMatch ratio (q.map fin) = .ok c) (ℓ i p : ℕ) (y : List K)
    (hℓ : Considered z.ds.maxCol whole ratio q.length ℓ) (hy : SubOf rows ℓ i p y) (x : K)
    (hx : Dtw .chebyshev ratio q y (fin x)) : c.dist ≤ fin (x + τ / 2) := by
  refine approx_of z rows ratio hr .chebyshev (by decide) (by simp) τ hτ whole hz q c hc (τ / 2) ℓ i p y hℓ hy ?_ x hx
  intro hq h2 x r hx hrl ht
  obtain ⟨x', h3, h4⟩ := C68_chebyshev ratio hr q y r hq (by rw [subOf_length hy]; exact h2) (by rw [subOf_length hy, hrl]) x hx
  refine ⟨x', h3, le_trans h4 ?_⟩
  simp only [textbook] at ht
  linarith

/-- C69 manhattan, part: with the factor of `C68_manhattan_partial`.  Missing: at most half the threshold, which is false
(`C69_manhattan_false`). -/
theorem C69_manhattan_partial (z : GSet K) (rows : List (List K)) [BandOps] (ratio : ℚ) (hr : 0 ≤ ratio) (τ : K) (hτ : 0 ≤ τ)
    (whole : Bool) (hz : Ready (rows.map (·.map fin)) "manhattan" (fin τ) whole z) (q : List K) (c : Cand K)
    (hc : z.getBestMatch ratio (q.map fin) = .ok c) (ℓ i p : ℕ) (y : List K)
    (hℓ : Considered z.ds.maxCol whole ratio q.length ℓ) (hy : SubOf rows ℓ i p y) (x : K)
    (hx : Dtw .manhattan ratio q y (fin x)) :
    c.dist ≤ fin (x + (min (2 * bandWidth ratio (max q.length ℓ) + 1) q.length : ℕ) / 2 * (τ / 2)) := by
  refine approx_of z rows ratio hr .manhattan (by decide) (by simp) τ hτ whole hz q c hc _ ℓ i p y hℓ hy ?_ x hx
  intro hq h2 x r hx hrl ht
  obtain ⟨x', h3, h4⟩ := C68_manhattan_partial ratio hr q y r hq (by rw [subOf_length hy]; exact h2)
    (by rw [subOf_length hy, hrl]) x hx
  refine ⟨x', h3, le_trans h4 ?_⟩
  simp only [textbook] at ht
  rw [subOf_length hy]
  exact add_le_add (le_refl _) (mul_le_mul_of_nonneg_left ht (by positivity))

/-- C69, all three metrics, part: compared with the subsequences that have as many points as the query, the best match is at most
half the threshold farther in DTW distance than they are in pairwise distance.  Missing: their DTW distance, see above. -/
theorem C69_same_length_partial (z : GSet K) (rows : List (List K)) [BandOps] (ratio : ℚ) (hr : 0 ≤ ratio) (m : Metric)
    (hm : m ≠ .sorensen ∧ m ≠ .cosine) (hs : m = .euclidean → LawfulSqrt K) (τ : K) (hτ : 0 ≤ τ) (whole : Bool)
    (hz : Ready (rows.map (·.map fin)) (metricName m) (fin τ) whole z) (q : List K) (c : Cand K)
    (hc : z.getBestMatch ratio (q.map fin) = .ok c) (i p : ℕ) (y : List K) (hin : InRange z.ds.maxCol whole q.length)
    (hy : SubOf rows q.length i p y) : c.dist ≤ fin (textbook m q y + τ / 2) := by
  have hcon : Considered z.ds.maxCol whole ratio q.length q.length := ⟨hin, by unfold Comparable; omega⟩
  have hpos : 1 ≤ q.length := by
    obtain ⟨-, -, hp, -⟩ := hz.usable
    refine hp ?_ _ hin
    obtain ⟨r, h, -⟩ := hy
    rintro h0
    rw [List.map_eq_nil_iff] at h0
    simp [h0] at h
  obtain ⟨x, d, h1, h2, h3⟩ := C11_le_pairwise m hm hs ratio hr q y (subOf_length hy).symm hpos
  have hM := textbook_metric (K := K) m hm hs q.length hpos
  have := approx_of z rows ratio hr m hm hs τ hτ whole hz q c hc (textbook m q y + τ / 2 - x) q.length i p y hcon hy ?_ x
    ((dtw_iff hm hs hr hpos (by rw [subOf_length hy]; exact hpos)).2 h1)
  · rwa [add_sub_cancel] at this
  · intro hq _ x' r hx' hrl ht
    have hxx : x' = x := by
      rw [h1, Except.ok.injEq, fin.injEq] at hx'
      exact hx'.symm
    subst hxx
    obtain ⟨w, d', e1, e2, e3⟩ := C11_le_pairwise m hm hs ratio hr q r hrl.symm hpos
    rw [pairwise_textbook m hm q r hrl.symm hpos, Except.ok.injEq, fin.injEq] at e2
    have := hM.triangle q y r rfl (subOf_length hy) hrl
    exact ⟨w, e1, by linarith⟩

end

example := C69_manhattan_partial exGrouped.1 [[7, 2, 3], [4, 12]] (1 / 2) (by norm_num) 10 (by norm_num)
  false exGrouped_ready [3, 2] ⟨⟨0, 0, 0, 3⟩, fin (5 / 6)⟩ (by decide +kernel) 2 1 0 [4, 12] (by decide +kernel)
  ⟨_, rfl, by simp, rfl⟩ (11 / 4) ((dtw_iff (by decide) (by simp) (by norm_num) (by simp) (by simp)).2 (by decide +kernel))
example := C69_same_length_partial exGrouped.1 [[7, 2, 3], [4, 12]] (1 / 2) (by norm_num) .manhattan (by decide) (by simp) 10
  (by norm_num) false exGrouped_ready [3, 2] ⟨⟨0, 0, 0, 3⟩, fin (5 / 6)⟩ (by decide +kernel) 0 1 [2, 3] (by unfold InRange; decide +kernel)
  ⟨_, rfl, by simp, rfl⟩

/-- Three series of five points. -/
def exPeak : GSet ℚ :=
  ⟨(Dataset.loadData exParse (some "0 0 3 0 0\n0 5 5 5 5\n0 0 5 0 0".toList) [] 0 0 [' '] false Dataset.fresh).1, none⟩

theorem exPeak_holds : Holds exPeak.ds ([[0, 0, 3, 0, 0], [0, 5, 5, 5, 5], [0, 0, 5, 0, 0]].map (·.map fin)) := by
  obtain ⟨ds, e, H, -⟩ := load_holds exParse "0 0 3 0 0\n0 5 5 5 5\n0 0 5 0 0".toList [] 0 0 [' '] false
    ([[0, 0, 3, 0, 0], [0, 5, 5, 5, 5], [0, 0, 5, 0, 0]].map (·.map fin)) (by decide +kernel) (by decide +kernel)
  have : exPeak.ds = ds := congrArg Prod.fst e
  rw [this]
  exact H

/-- Grouped by whole series. -/
def exPeakGrouped (name : String) (t : ℚ) : GSet ℚ × Res Int :=
  exPeak.groupAllLengths (GSpace.group exPeak.ds (1 / 5) (fun _ => false) name (fin t) true) (fun _ => (GSpace.fresh, .ok 0)) 1

theorem exPeakGrouped_run (name : String) (t : ℚ) :
    GSet.GroupAll (1 / 5) (fun _ => false) name (fin t) true 1 exPeak (exPeakGrouped name t) :=
  ⟨(GSpace.fresh, .ok 0), fun h => absurd h (by decide), rfl⟩

/-- C69 is false for manhattan: the threshold is 4/5, a series is at DTW distance 0 from the query, and the best match is at
distance 1/2. -/
theorem C69_manhattan_false : ∃ (rows : List (List ℚ)) (z : GSet ℚ) (q y : List ℚ) (c : Cand ℚ),
    Ready (rows.map (·.map fin)) "manhattan" (fin (4 / 5)) true z ∧ z.getBestMatch (1 / 5) (q.map fin) = .ok c ∧
      Considered z.ds.maxCol true (1 / 5) q.length 5 ∧ SubOf rows 5 2 0 y ∧ Dtw .manhattan (1 / 5) q y (fin 0) ∧
      c.dist = fin (1 / 2) :=
  ⟨[[0, 0, 3, 0, 0], [0, 5, 5, 5, 5], [0, 0, 5, 0, 0]], (exPeakGrouped "manhattan" (4 / 5)).1, [0, 5, 5, 5, 0],
    [0, 0, 5, 0, 0], ⟨⟨5, 1, 0, 5⟩, fin (1 / 2)⟩,
    .grouped exPeak exPeak_holds (by decide +kernel) (1 / 5) _ 1 _ (exPeakGrouped_run _ _) 2 (by decide +kernel),
    (by decide +kernel), (by decide +kernel), ⟨_, rfl, by simp, rfl⟩, ((dtw_iff (by decide) (by simp) (by norm_num) (by simp) (by simp)).2 (by decide +kernel)), rfl⟩

example := C69_chebyshev (exPeakGrouped "chebyshev" 4).1 [[0, 0, 3, 0, 0], [0, 5, 5, 5, 5], [0, 0, 5, 0, 0]] (1 / 5)
  (by norm_num) 4 (by norm_num) true
  (.grouped exPeak exPeak_holds (by decide +kernel) (1 / 5) _ 1 _ (exPeakGrouped_run _ _) 2 (by decide +kernel))
  [0, 5, 5, 5, 0] ⟨⟨10, 2, 0, 5⟩, fin 0⟩ (by decide +kernel) 5 1 0 [0, 5, 5, 5, 5] (by decide +kernel)
  ⟨_, rfl, by simp, rfl⟩ 5 ((dtw_iff (by decide) (by simp) (by norm_num) (by simp) (by simp)).2 (by decide +kernel))

/-- Digits, over the reals. -/
noncomputable def exParseR (t : Text) : Parsed ℝ :=
  if t = ['0'] then .val (fin 0) else if t = ['5'] then .val (fin 5) else .invalid

/-- Two series of three points. -/
noncomputable def exReal : GSet ℝ :=
  ⟨(Dataset.loadData exParseR (some "0 0 5\n0 5 0".toList) [] 0 0 [' '] false Dataset.fresh).1, none⟩

theorem exReal_holds : Holds exReal.ds ([[0, 0, 5], [0, 5, 0]].map (·.map fin)) ∧ exReal.ds.data ≠ none := by
  obtain ⟨ds, e, H, -⟩ := load_holds exParseR "0 0 5\n0 5 0".toList [] 0 0 [' '] false
    ([[0, 0, 5], [0, 5, 0]].map (·.map fin)) (by
      have h : readVals exParseR 0 0 [' '] false "0 0 5\n0 5 0".toList =
          [[exParseR ['0'], exParseR ['0'], exParseR ['5']], [exParseR ['0'], exParseR ['5'], exParseR ['0']]] := rfl
      rw [h]
      simp [exParseR]) (by decide +kernel)
  have hds : exReal.ds = ds := congrArg Prod.fst e
  rw [hds]
  refine ⟨H, fun hn => ?_⟩
  have := H.cells 0 [fin 0, fin 0, fin 5] rfl 0 (fin 0) rfl
  simp [Dataset.read, hn] at this

/-- The euclidean metric over the reals: grouped with threshold 1, the series `0 5 0` is searched. -/
example : ∃ z c, Ready ([[0, 0, 5], [0, 5, 0]].map (·.map (fin : ℝ → Dbl ℝ))) "euclidean" (fin 1) false z ∧
    z.getBestMatch 1 ([0, 5, 0].map fin) = .ok c ∧ c.dist ≤ fin (1 / 4) := by
  obtain ⟨H, hd⟩ := exReal_holds
  have hmax : 0 ≤ exReal.ds.maxCol := le_trans (by simp) (H.fits 0 [fin 0, fin 0, fin 5] rfl)
  obtain ⟨out, ho⟩ := groupAll_exists exReal 1 (fun _ => false) "euclidean" (fin 1) false 4
  obtain ⟨N, hN⟩ := (C33_returns exReal _ H hmax 1 "euclidean" (fin 1) false (fun _ => false)
    (Or.inr ⟨⟨_, rfl⟩, by decide, by decide, fun _ => inferInstance⟩) (by simp) 4 out ho).2 ⟨hd, by norm_num, by simp, by simp⟩
  have hz := Ready.grouped exReal H hmax 1 _ 4 out ho N hN
  obtain ⟨c, hc⟩ := C34_returns out.1 [[0, 0, 5], [0, 5, 0]] 1 (by norm_num) .euclidean (by decide) (fun _ => inferInstance) (fin 1)
    false hz [0, 5, 0] (by simp) (.inl ⟨rfl, [0, 5, 0], by simp, by simp⟩)
  refine ⟨out.1, c, hz, hc, ?_⟩
  have := C69_euclidean out.1 [[0, 0, 5], [0, 5, 0]] 1 (by norm_num) 1 (by norm_num) false hz [0, 5, 0] c hc 3 1 0 [0, 5, 0] ?_
    ⟨_, rfl, by simp, rfl⟩ 0 ((dtw_iff (by decide) (fun _ => inferInstance) (by norm_num) (by simp) (by simp)).2
      (C11_self .euclidean (by decide) (fun _ => inferInstance) 1 (by norm_num) _ (by simp)))
  · simpa using this
  · have h3 := hz.usable.1.fits 0 [fin 0, fin 0, fin 5] rfl
    refine ⟨⟨h3, by simp⟩, ?_⟩
    unfold Comparable
    simp

end Genex.Props
