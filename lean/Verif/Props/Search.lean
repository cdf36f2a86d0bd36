import Verif.Lemmas.Serialize
import Verif.Props.Group
import Verif.Props.BruteForce

/-!
# C34-C36: best match of a grouped dataset
-/

set_option linter.unusedSectionVars false

namespace Genex.Props

open Dbl Spec

variable {K : Type} [Field K] [LinearOrder K] [IsStrictOrderedRing K] [HasSqrt K]

/-- C01, in the words used for searches and for all lengths: the value without a bound is the least cost of an alignment in the band.
With a single point on one side the code lets alignments go twice as far (`dtwBand`). -/
theorem C01_least (m : Metric) (hm : m ≠ .sorensen ∧ m ≠ .cosine) (hs : m = .euclidean → LawfulSqrt K) [BandOps] (ratio : ℚ)
    (hr : 0 ≤ ratio) (a b : List K) (ha : 1 ≤ a.length) (hb : 1 ≤ b.length) (d : Dbl K) :
    warpedValue (m.dm K) ratio (a.map fin) (b.map fin) .inf = .ok d ↔ Dtw m ratio a b d := (dtw_iff hm hs hr ha hb).symm

/-- Comparable lengths are those with a finite DTW distance. -/
theorem comparable_finite (m : Metric) (hm : m ≠ .sorensen ∧ m ≠ .cosine) (hs : m = .euclidean → LawfulSqrt K) [BandOps] (ratio : ℚ)
    (hr : 0 ≤ ratio) (a b : List K) (ha : 2 ≤ a.length) (hb : 2 ≤ b.length) :
    Comparable ratio a.length b.length ↔ ∃ x, Dtw m ratio a b (fin x) := by
  have key : ∀ (M : DM K) V, IsBandedOptimum M ratio a b V →
      (Comparable ratio a.length b.length ↔ ∃ x, warpedValue M ratio (a.map fin) (b.map fin) .inf = .ok (fin x)) := by
    intro M V hV
    unfold Comparable
    rw [← C01_feasible _ _ _ (by omega) (by omega) V]
    rcases hV with ⟨h1, x, h2, -⟩ | ⟨h1, h2⟩
    · exact ⟨fun _ => ⟨x, h2⟩, fun _ => h1⟩
    · refine ⟨fun h => absurd h h1, ?_⟩
      rintro ⟨x, hx⟩
      rw [h2] at hx
      simp at hx
  simp only [dtw_iff hm hs hr (show 1 ≤ a.length by omega) (show 1 ≤ b.length by omega)]
  cases m with
  | euclidean => have := hs rfl; exact key _ _ (C01_euclidean_dtw ratio hr a b ha hb)
  | manhattan => exact key _ _ (C01_manhattan_dtw ratio hr a b ha hb)
  | chebyshev => exact key _ _ (C01_chebyshev_dtw ratio hr a b ha hb)
  | sorensen => exact absurd rfl hm.1
  | cosine => exact absurd rfl hm.2

theorem considered_two {maxCol : Int} {whole : Bool} [BandOps] {ratio : ℚ} {q ℓ : ℕ} (hq : 2 ≤ q) (hN : (q : Int) ≤ maxCol)
    (h : Considered maxCol whole ratio q ℓ) : 2 ≤ ℓ := by
  obtain ⟨⟨-, h⟩, -⟩ := h
  split at h
  · omega
  · exact h

theorem considered_wide {maxCol : Int} {whole : Bool} [BandOps] {ratio : ℚ} {q ℓ : ℕ} (hN : 2 ≤ maxCol)
    (h : Considered maxCol whole ratio q ℓ) : 2 ≤ ℓ := by
  obtain ⟨⟨-, h⟩, -⟩ := h
  split at h
  · omega
  · exact h

/-- Comparable lengths have a finite DTW distance. -/
theorem comparable_least (m : Metric) (hm : m ≠ .sorensen ∧ m ≠ .cosine) (hs : m = .euclidean → LawfulSqrt K) [BandOps] (ratio : ℚ)
    (hr : 0 ≤ ratio) (a b : List K) (ha : 1 ≤ a.length) (hb : 1 ≤ b.length) (hc : Comparable ratio a.length b.length) {F : Dbl K}
    (hF : Dtw m ratio a b F) : ∃ x, F = fin x := by
  have key : ∀ cost, LeastCost ratio a b cost F → ∃ x, F = fin x := by
    rintro cost (⟨x, h, -⟩ | ⟨-, h⟩)
    · exact ⟨x, h⟩
    · exfalso
      have hne := (C01_feasible a.length b.length (dtwBand ratio a.length b.length) ha hb cost).2 (by
        unfold Comparable at hc
        unfold dtwBand
        split <;> omega)
      rw [h] at hne
      exact Set.not_nonempty_empty hne
  cases m with
  | euclidean => exact key _ hF
  | manhattan => exact key _ hF
  | chebyshev => exact key _ hF
  | sorensen => exact absurd rfl hm.1
  | cosine => exact absurd rfl hm.2

theorem dists_exact (m : Metric) (hm : m ≠ .sorensen ∧ m ≠ .cosine) (hs : m = .euclidean → LawfulSqrt K) [BandOps] (ratio : ℚ)
    (hr : 0 ≤ ratio) (q : List K) (hq : 1 ≤ q.length) : Dists ratio m q (Dtw m ratio q) (Dtw m ratio q) := by
  have hf : ∀ x : List K, 2 ≤ x.length → Comparable ratio q.length x.length → ∃ v, Dtw m ratio q x (fin v) := by
    intro x hx h
    obtain ⟨F, g1, -⟩ := warpedOf_exact m hm hs ratio hr q x hq hx (fun _ => h)
    obtain ⟨v, rfl⟩ := comparable_least m hm hs ratio hr q x hq (by omega) h g1
    exact ⟨v, g1⟩
  refine ⟨?_, hf, hf, fun _ _ _ => dtw_unique, fun _ _ _ => dtw_unique⟩
  intro x hx hc
  obtain ⟨F, g1, g2, g3, g4⟩ := warpedOf_exact m hm hs ratio hr q x hq hx hc
  exact ⟨F, F, g1, g1, g2, g2, g3, g4⟩

/-- The outcome of `getBestMatch` for a query of at least two points not longer than the longest possible. -/
theorem best_cases [Arith K] {PE PD : List K → Dbl K → Prop} {s : GSet K} {rows : List (List K)} (H : Holds s.ds (rows.map (·.map fin))) [BandOps] (ratio : ℚ)
    (hr : 0 ≤ ratio) (m : Metric)
    (t : Dbl K) (whole : Bool) {gs : GSpace K}
    {SP : ℕ → LocalSpace K} {ABS : ℕ → List AG} (U : Usable s.ds (rows.map (·.map fin)) m t whole gs SP ABS) (q : List K)
    (hd : Dists ratio m q PE PD) (hq : 2 ≤ q.length) (hN : (q.length : Int) ≤ s.ds.maxCol) :
      (((¬ ∃ ℓ i p y, Considered s.ds.maxCol whole ratio q.length ℓ ∧ SubOf rows ℓ i p y) ∧
        gs.getBestMatch s.ds ratio (q.map fin) = .error (.ub "null pointer dereference")) ∨
       ∃ ℓ, Considered s.ds.maxCol whole ratio q.length ℓ ∧ ∃ (j : ℕ) (a : AG), (ABS ℓ)[j]? = some a ∧
        (∀ ℓ', Considered s.ds.maxCol whole ratio q.length ℓ' → ∀ a' ∈ ABS ℓ',
          distTo PE rows ℓ a.rep ≤ distTo PE rows ℓ' a'.rep) ∧
        ∃ c ∈ a.mem, gs.getBestMatch s.ds ratio (q.map fin) = .ok ⟨viewAt s.ds ℓ c, distTo PD rows ℓ c⟩ ∧
          ∀ c' ∈ a.mem, distTo PD rows ℓ c ≤ distTo PD rows ℓ c') := by
  have S := U.spaces
  obtain ⟨order, ho, hnd, hmo⟩ := order_ok hr hq hN
  have hcons : ∀ ℓ, (ℓ ∈ order ∧ InRange s.ds.maxCol whole ℓ) ↔ Considered s.ds.maxCol whole ratio q.length ℓ := by
    intro ℓ
    constructor
    · rintro ⟨h1, h2⟩; exact ⟨h2, ((hmo ℓ).1 h1).2.2⟩
    · intro h
      exact ⟨(hmo ℓ).2 ⟨considered_two hq hN h, h.1.1, h.2⟩, h.1⟩
  have hD := fun ℓ (h : 2 ≤ ℓ) => hd.distAt rows h (by omega)
  have htwo : ∀ ℓ, InRange s.ds.maxCol whole ℓ → 2 ≤ ℓ := by
    rintro ℓ ⟨-, h⟩
    split at h
    · omega
    · exact h
  obtain ⟨st, e, hinv⟩ := bestInv_loop (ratio := ratio) (w := warpedOf m) (query := q.map fin) S H order
    (fun ℓ h => ((hmo ℓ).1 h).2.1) (fun ℓ h => (hD ℓ (htwo ℓ h)).1)
  have hsz : (gs.spaces.length : Int) - 1 = s.ds.maxCol := by have := S.size; omega
  have hrun : gs.getBestMatch s.ds ratio (q.map fin) = (match st.2 with
      | none => .error (.ub "null pointer dereference")
      | some (sp, g) =>
        match sp.groups[g]? with
        | none => .error (.ub "dangling group")
        | some g => sp.getBestMatch s.ds ratio (warpedOf m) (q.map fin) g) := by
    unfold GSpace.getBestMatch
    rw [if_neg (by rw [List.length_map]; omega), U.warped]
    simp only [List.length_map, hsz, ho, bind, Except.bind, e]
    rfl
  have hfinite : ∀ ℓ, Considered s.ds.maxCol whole ratio q.length ℓ → ∀ c, SubAt (rows.map (·.map (fin : K → Dbl K))) ℓ c →
      distTo PE rows ℓ c < .inf ∧ distTo PD rows ℓ c < .inf := by
    intro ℓ hc c hsub
    have h2 := considered_two hq hN hc
    obtain ⟨-, hlen, -⟩ := ptsAt_fin hsub
    obtain ⟨x, hx⟩ := hd.finE (finPts rows ℓ c) (by omega) (by rw [hlen]; exact hc.2)
    obtain ⟨y, hy⟩ := hd.finD (finPts rows ℓ c) (by omega) (by rw [hlen]; exact hc.2)
    rw [hd.eqE hx, hd.eqD hy]
    simp
  rcases hinv with ⟨rfl, h⟩ | ⟨ℓ, hℓ, hdom, j, a, ha, rfl, h1, h2⟩
  · refine Or.inl ⟨?_, hrun⟩
    rintro ⟨ℓ, i, p, y, hc, r, hr', hle, -⟩
    obtain ⟨h1, h2⟩ := (hcons ℓ).2 hc
    have hsub : SubAt (rows.map (·.map (fin : K → Dbl K))) ℓ (i, p) := subAt_fin.2 ⟨r, hr', hle⟩
    have := (U.all ℓ h2 (i, p)).2 hsub
    obtain ⟨a, ha, -⟩ := List.mem_flatMap.1 this
    obtain ⟨n, -, R⟩ := S.rep ℓ h2
    have h3 := h ℓ h1 h2 a ha
    have h4 := (hfinite ℓ hc _ (R.reps a ha)).1
    exact absurd (Dbl.lt_of_lt_of_le h4 h3) (Dbl.lt_irrefl _)
  · have hc := (hcons ℓ).1 ⟨hℓ, hdom⟩
    refine Or.inr ⟨ℓ, hc, j, a, ha, ?_, ?_⟩
    · intro ℓ' hc' a' ha'
      obtain ⟨g1, g2⟩ := (hcons ℓ').2 hc'
      exact h2 ℓ' g1 g2 a' ha'
    · obtain ⟨n, hn, R⟩ := S.rep ℓ hdom
      have hj : j < (SP ℓ).groups.length := by rw [R.num]; exact (List.getElem?_eq_some_iff.1 ha).1
      have hg := List.getElem?_eq_getElem hj
      rw [hrun]
      simp only [hg]
      have hrep := U.repMem ℓ hdom a (List.mem_of_getElem? ha)
      have h2' := htwo ℓ hdom
      exact R.getBestMatch (by omega) hn H hg ha (hD ℓ h2').1 ⟨a.rep, hrep, (hfinite ℓ hc _ (R.reps a (List.mem_of_getElem? ha))).2⟩

/-- A query longer than the longest possible series reads outside the vector of spaces; one with fewer than two points is
refused. -/
theorem best_other [Arith K] {s : GSet K} {gs : GSpace K} [BandOps] (ratio : ℚ) (w : DistRef) (hw : gs.warped = some w)
    (hsz : (gs.spaces.length : Int) = s.ds.maxCol + 1) (query : List (Dbl K)) :
    (query.length ≤ 1 → ∃ msg, gs.getBestMatch s.ds ratio query = .error (.genex msg)) ∧
    (2 ≤ query.length → s.ds.maxCol < query.length →
      gs.getBestMatch s.ds ratio query = .error (.ub "localLengthGroupSpace index out of bounds") ∨
      gs.getBestMatch s.ds ratio query = .error .diverge) := by
  unfold GSpace.getBestMatch
  constructor
  · intro h
    rw [if_pos h]
    exact ⟨_, rfl⟩
  · intro h h'
    rw [if_neg (by omega), hw]
    simp only
    cases e : generateTraverseOrder ratio query.length ((gs.spaces.length : Int) - 1) with
    | error f =>
      right
      rw [order_error _ _ _ _ e]
      rfl
    | ok l =>
      left
      have hh := order_head _ _ _ _ e
      cases l with
      | nil => cases hh
      | cons x xs =>
        simp only [List.head?_cons, Option.some.injEq] at hh
        subst hh
        simp only [bind, Except.bind, List.foldlM_cons, GSpace.bestStep, GSpace.spaceAt]
        rw [if_neg (by omega), Int.toNat_natCast, List.getElem?_eq_none (by omega)]

/-! ## C34 -/

section
variable (z : GSet K) (rows : List (List K)) [BandOps] (ratio : ℚ) (hr : 0 ≤ ratio) (m : Metric) (hm : m ≠ .sorensen ∧ m ≠ .cosine)
    (hs : m = .euclidean → LawfulSqrt K) (t : Dbl K) (whole : Bool)
    (hz : Ready (rows.map (·.map fin)) (metricName m) t whole z)

include hr hm hs hz

/-- C34: what `getBestMatch` returns is a subsequence of the dataset of a length considered, with its DTW distance, which is
finite. -/
theorem C34_best_match (q : List K) (c : Cand K) (hc : z.getBestMatch ratio (q.map fin) = .ok c) :
    ∃ ℓ i p y x, Considered z.ds.maxCol whole ratio q.length ℓ ∧ SubOf rows ℓ i p y ∧
      c.view = subView z.ds.maxCol i p ℓ ∧ z.ds.points c.view = .ok (y.map fin) ∧
      Dtw m ratio q y c.dist ∧ c.dist = fin x := by
  obtain ⟨H, hmax, -, m', gs, SP, ABS, hname, hgs, U⟩ := hz.usable
  obtain rfl := metricName_inj hname
  simp only [GSet.getBestMatch, hgs] at hc
  have hoth := best_other (s := z) ratio _ U.warped U.spaces.size (q.map fin)
  rw [List.length_map] at hoth
  by_cases hq : 2 ≤ q.length
  · by_cases hle : (q.length : Int) ≤ z.ds.maxCol
    · obtain ⟨-, h⟩ | ⟨ℓ, hℓ, j, a, ha, -, c', hc', h, -⟩ :=
        best_cases H ratio hr m t whole U q (dists_exact m hm hs ratio hr q (by omega)) hq hle
      · rw [h] at hc; cases hc
      · rw [h, Except.ok.injEq] at hc
        subst hc
        have h2 := considered_two hq hle hℓ
        obtain ⟨n, hn, R⟩ := U.spaces.rep ℓ hℓ.1
        have hsub := R.mems a (List.mem_of_getElem? ha) c' hc'
        obtain ⟨g1, g2, g3⟩ := ptsAt_fin hsub
        have hd := ((dists_exact m hm hs ratio hr q (by omega)).distAt rows h2 (by omega)).2 c' hsub |>.2
        obtain ⟨x, hx⟩ := (comparable_finite m hm hs ratio hr q (finPts rows ℓ c') hq (by omega)).1 (by rw [g2]; exact hℓ.2)
        refine ⟨ℓ, c'.1, c'.2, _, x, hℓ, g3, viewAt_eq _ _ _, ?_, hd, dtwTo_eq hx⟩
        rw [← g1]
        exact hsub.points H
    · rcases hoth.2 hq (by omega) with h | h <;> rw [h] at hc <;> cases hc
  · obtain ⟨msg, h⟩ := hoth.1 (by omega)
    rw [h] at hc; cases hc

/-- C34: and it does return, when the query has at least two points and all lengths are grouped and some series is at least
as long as the query, or in general when there is a subsequence of a length considered. -/
theorem C34_returns (q : List K) (hq : 2 ≤ q.length)
    (hex : (whole = false ∧ ∃ r ∈ rows, q.length ≤ r.length) ∨ ((q.length : Int) ≤ z.ds.maxCol ∧
      ∃ ℓ i p y, Considered z.ds.maxCol whole ratio q.length ℓ ∧ SubOf rows ℓ i p y)) :
    ∃ c, z.getBestMatch ratio (q.map fin) = .ok c := by
  obtain ⟨H, hmax, -, m', gs, SP, ABS, hname, hgs, U⟩ := hz.usable
  obtain rfl := metricName_inj hname
  simp only [GSet.getBestMatch, hgs]
  have hex' : (q.length : Int) ≤ z.ds.maxCol ∧
      ∃ ℓ i p y, Considered z.ds.maxCol whole ratio q.length ℓ ∧ SubOf rows ℓ i p y := by
    rcases hex with ⟨rfl, r, hr', hle⟩ | h
    · obtain ⟨i, hi⟩ := List.mem_iff_getElem?.1 hr'
      have hfit := H.fits i (r.map fin) (by rw [List.getElem?_map, hi]; rfl)
      rw [List.length_map] at hfit
      refine ⟨by omega, q.length, i, 0, _, ⟨⟨by omega, by simpa using hq⟩, ?_⟩, r, hi, by omega, rfl⟩
      unfold Comparable
      constructor <;> omega
    · exact h
  obtain ⟨hle, hex'⟩ := hex'
  obtain ⟨h, -⟩ | ⟨ℓ, hℓ, j, a, ha, -, c', hc', h, -⟩ :=
    best_cases H ratio hr m t whole U q (dists_exact m hm hs ratio hr q (by omega)) hq hle
  · exact absurd hex' h
  · exact ⟨_, h⟩

/-! ## C35 -/

/-- C35: the distance returned is at most the DTW distance from the query to the representative of every group of every
length considered; it is the smallest over the members of a group whose representative is nearest among those. -/
theorem C35_best (q : List K) (c : Cand K) (hc : z.getBestMatch ratio (q.map fin) = .ok c) :
    ∃ gs, z.groups = some gs ∧
      (∀ ℓ sp g, Considered z.ds.maxCol whole ratio q.length ℓ → gs.spaces[ℓ]? = some (some sp) → g ∈ sp.groups →
        ∃ i p y d, g.centroid = .view (subView z.ds.maxCol i p ℓ) ∧ SubOf rows ℓ i p y ∧ Dtw m ratio q y d ∧ c.dist ≤ d) ∧
      ∃ ℓ sp g members i p x d, Considered z.ds.maxCol whole ratio q.length ℓ ∧ gs.spaces[ℓ]? = some (some sp) ∧
        g ∈ sp.groups ∧ g.centroid = .view (subView z.ds.maxCol i p ℓ) ∧ SubOf rows ℓ i p x ∧ Dtw m ratio q x d ∧
        LocalSpace.getMembers z.ds sp g = .ok members ∧ c.view ∈ members ∧
        (∀ i' p' y d', subView z.ds.maxCol i' p' ℓ ∈ members → SubOf rows ℓ i' p' y → Dtw m ratio q y d' → c.dist ≤ d') ∧
        ∀ ℓ' sp' g' i' p' y d', Considered z.ds.maxCol whole ratio q.length ℓ' → gs.spaces[ℓ']? = some (some sp') →
          g' ∈ sp'.groups → g'.centroid = .view (subView z.ds.maxCol i' p' ℓ') → SubOf rows ℓ' i' p' y →
          Dtw m ratio q y d' → d ≤ d' := by
  obtain ⟨H, hmax, -, m', gs, SP, ABS, hname, hgs, U⟩ := hz.usable
  obtain rfl := metricName_inj hname
  refine ⟨gs, hgs, ?_⟩
  simp only [GSet.getBestMatch, hgs] at hc
  have hoth := best_other (s := z) ratio _ U.warped U.spaces.size (q.map fin)
  rw [List.length_map] at hoth
  by_cases hq : 2 ≤ q.length
  · by_cases hle : (q.length : Int) ≤ z.ds.maxCol
    · obtain ⟨-, h⟩ | ⟨ℓ, hℓ, j, a, ha, hmin, c', hc', h, hleast⟩ :=
        best_cases H ratio hr m t whole U q (dists_exact m hm hs ratio hr q (by omega)) hq hle
      · rw [h] at hc; cases hc
      · rw [h, Except.ok.injEq] at hc
        subst hc
        have hrepmem := U.repMem
        -- a group of a considered length and its abstraction
        have hgrp : ∀ ℓ sp g, Considered z.ds.maxCol whole ratio q.length ℓ → gs.spaces[ℓ]? = some (some sp) →
            g ∈ sp.groups → ∃ a ∈ ABS ℓ, SubOf rows ℓ a.rep.1 a.rep.2 (finPts rows ℓ a.rep) ∧
              g.centroid = .view (subView z.ds.maxCol a.rep.1 a.rep.2 ℓ) ∧
              Dtw m ratio q (finPts rows ℓ a.rep) (distTo (Dtw m ratio q) rows ℓ a.rep) := by
          intro ℓ sp g hcon hsp hg
          have hon := U.spaces.on ℓ hcon.1
          rw [hsp, Option.some.injEq, Option.some.injEq] at hon
          subst hon
          obtain ⟨n, hn, R⟩ := U.spaces.rep ℓ hcon.1
          obtain ⟨j, hj⟩ := List.mem_iff_getElem?.1 hg
          have hlt : j < (ABS ℓ).length := by rw [← R.num]; exact (List.getElem?_eq_some_iff.1 hj).1
          have ha := List.getElem?_eq_getElem hlt
          have hmem := List.mem_of_getElem? ha
          have hsub := R.reps _ hmem
          obtain ⟨-, g2, g3⟩ := ptsAt_fin hsub
          have h2 := considered_two hq hle hcon
          refine ⟨_, hmem, g3, ?_, (((dists_exact m hm hs ratio hr q (by omega)).distAt rows h2 (by omega)).2 _ hsub).2⟩
          rw [(R.grp j g _ hj ha).centroid, viewAt_eq]
        have hle1 : distTo (Dtw m ratio q) rows ℓ c' ≤ distTo (Dtw m ratio q) rows ℓ a.rep :=
          hleast _ (hrepmem ℓ hℓ.1 a (List.mem_of_getElem? ha))
        refine ⟨?_, ?_⟩
        · intro ℓ' sp g hcon hsp hg
          obtain ⟨a', ha', h1, h2, h3⟩ := hgrp ℓ' sp g hcon hsp hg
          exact ⟨_, _, _, _, h2, h1, h3, Dbl.le_trans hle1 (hmin ℓ' hcon a' ha')⟩
        · obtain ⟨n, hn, R⟩ := U.spaces.rep ℓ hℓ.1
          have h2 := considered_two hq hle hℓ
          have hj : j < (SP ℓ).groups.length := by rw [R.num]; exact (List.getElem?_eq_some_iff.1 ha).1
          have hg := List.getElem?_eq_getElem hj
          have hmem := List.mem_of_getElem? ha
          have hsub := R.reps a hmem
          have hdist := fun c hc => (((dists_exact m hm hs ratio hr q (by omega)).distAt rows h2 (by omega)).2 c hc).2
          refine ⟨ℓ, SP ℓ, _, _, a.rep.1, a.rep.2, _, _, hℓ, U.spaces.on ℓ hℓ.1, List.getElem_mem hj, ?_, (ptsAt_fin hsub).2.2,
            hdist _ hsub, R.getMembers (by omega) hn H hg ha, List.mem_map.2 ⟨c', hc', rfl⟩, ?_, ?_⟩
          · rw [(R.grp j _ _ hg ha).centroid, viewAt_eq]
          · intro i' p' y d' hv hy hd'
            obtain ⟨c'', hc'', e⟩ := List.mem_map.1 hv
            rw [viewAt_eq] at e
            obtain ⟨rfl, rfl⟩ := subView_inj e
            have hsub'' := R.mems a hmem c'' hc''
            have hy' := (ptsAt_fin hsub'').2.2
            rw [subOf_unique hy hy'] at hd'
            rw [← dtwTo_eq hd']
            exact hleast c'' hc''
          · intro ℓ' sp' g' i' p' y d' hcon hsp hg' hcen hy hd'
            obtain ⟨a', ha', h1, h2', h3⟩ := hgrp ℓ' sp' g' hcon hsp hg'
            rw [hcen, Centroid.view.injEq] at h2'
            obtain ⟨e1, e2⟩ := subView_inj h2'
            subst e1 e2
            rw [subOf_unique hy h1] at hd'
            rw [← dtwTo_eq hd']
            exact hmin ℓ' hcon a' ha'
    · rcases hoth.2 hq (by omega) with h | h <;> rw [h] at hc <;> cases hc
  · obtain ⟨msg, h⟩ := hoth.1 (by omega)
    rw [h] at hc; cases hc

/-! ## C36 -/

/-- C36, as far as it holds: `getBestMatch` returns or throws exactly for queries with fewer than two points and for queries
not longer than the width of the dataset for which there is a subsequence of a length considered.

Missing: all other queries, where the claim is false, see `C36_long_false` and `C36_whole_false`. -/
theorem C36_partial (q : List K) :
    ((∃ c, z.getBestMatch ratio (q.map fin) = .ok c) ∨
      ∃ msg, z.getBestMatch ratio (q.map fin) = .error (.genex msg)) ↔
    (q.length ≤ 1 ∨ ((q.length : Int) ≤ z.ds.maxCol ∧
      ∃ ℓ i p y, Considered z.ds.maxCol whole ratio q.length ℓ ∧ SubOf rows ℓ i p y)) := by
  obtain ⟨H, hmax, -, m', gs, SP, ABS, hname, hgs, U⟩ := hz.usable
  obtain rfl := metricName_inj hname
  simp only [GSet.getBestMatch, hgs]
  have hoth := best_other (s := z) ratio _ U.warped U.spaces.size (q.map fin)
  rw [List.length_map] at hoth
  by_cases hq : 2 ≤ q.length
  · by_cases hle : (q.length : Int) ≤ z.ds.maxCol
    · obtain ⟨h, e⟩ | ⟨ℓ, hℓ, j, a, ha, -, c', hc', h, -⟩ :=
        best_cases H ratio hr m t whole U q (dists_exact m hm hs ratio hr q (by omega)) hq hle
      · rw [e]
        constructor
        · rintro (⟨c, hc⟩ | ⟨msg, hc⟩)
          · cases hc
          · simp at hc
        · rintro (h' | ⟨-, h'⟩)
          · omega
          · exact absurd h' h
      · rw [h]
        refine ⟨fun _ => Or.inr ⟨hle, ℓ, c'.1, c'.2, finPts rows ℓ c', hℓ, ?_⟩, fun _ => Or.inl ⟨_, rfl⟩⟩
        obtain ⟨n, hn, R⟩ := U.spaces.rep ℓ hℓ.1
        exact (ptsAt_fin (R.mems a (List.mem_of_getElem? ha) c' hc')).2.2
    · constructor
      · rintro (⟨c, hc⟩ | ⟨msg, hc⟩) <;> rcases hoth.2 hq (by omega) with h | h <;> rw [h] at hc <;> simp at hc
      · rintro (h | ⟨h, -⟩)
        · omega
        · exact absurd h hle
  · obtain ⟨msg, h⟩ := hoth.1 (by omega)
    exact ⟨fun _ => Or.inl (by omega), fun _ => Or.inr ⟨msg, h⟩⟩

end

/-! ### Examples and the cases where C36 is false -/

theorem exGrouped_ready : Ready ([[7, 2, 3], [4, 12]].map (·.map (fin : ℚ → Dbl ℚ))) (metricName .manhattan) (fin 10) false
    exGrouped.1 :=
  .grouped exSet exSet_holds exSet_max (1 / 10) (fun _ => false) 1 exGrouped exGrouped_run 3 exGrouped_ok

/-- The hypotheses are met by a grouped dataset and a query of two points. -/
example := C34_best_match exGrouped.1 [[7, 2, 3], [4, 12]] (1 / 2) (by norm_num) .manhattan (by simp) (by simp) (fin 10)
  false exGrouped_ready [3, 2] ⟨⟨0, 0, 0, 3⟩, fin (5 / 6)⟩
  (by decide +kernel)
example := C35_best exGrouped.1 [[7, 2, 3], [4, 12]] (1 / 2) (by norm_num) .manhattan (by simp) (by simp) (fin 10)
  false exGrouped_ready [3, 2] ⟨⟨0, 0, 0, 3⟩, fin (5 / 6)⟩
  (by decide +kernel)
example := C34_returns exGrouped.1 [[7, 2, 3], [4, 12]] (1 / 2) (by norm_num) .manhattan (by simp) (by simp) (fin 10)
  false exGrouped_ready [3, 2] (by simp)
  (Or.inl ⟨rfl, [7, 2, 3], by simp, by simp⟩)
example := C36_partial exGrouped.1 [[7, 2, 3], [4, 12]] (1 / 2) (by norm_num) .manhattan (by simp) (by simp) (fin 10)
  false exGrouped_ready [3, 2]

/-- C36 is false: a query with more points than the longest series. -/
theorem C36_long_false : ∃ (s : GSet ℚ) (rows : List (List ℚ)) (out : GSet ℚ × Res Int) (N : Int) (q : List ℚ),
    Holds s.ds (rows.map (·.map fin)) ∧
    GSet.GroupAll (1 / 10) (fun _ => false) "manhattan" (fin 10) false 1 s out ∧ out.2 = .ok N ∧ 2 ≤ q.length ∧
    out.1.getBestMatch (1 / 10) (q.map fin) = .error (.ub "localLengthGroupSpace index out of bounds") :=
  ⟨exSet, [[7, 2, 3], [4, 12]], exGrouped, 3, [1, 2, 3, 4], exSet_holds, exGrouped_run, exGrouped_ok, by simp,
    by decide +kernel⟩

/-- The same dataset grouped by whole series only. -/
def exWhole : GSet ℚ × Res Int :=
  exSet.groupAllLengths (GSpace.group exData (1 / 10) (fun _ => false) "manhattan" (fin 10) true) (fun _ => (GSpace.fresh, .ok 0)) 1

theorem exWhole_run : GSet.GroupAll (1 / 10) (fun _ => false) "manhattan" (fin 10) true 1 exSet exWhole :=
  ⟨(GSpace.fresh, .ok 0), fun h => absurd h (by decide), rfl⟩

theorem exWhole_ok : exWhole.2 = .ok 1 := by decide +kernel

/-- C36 is false: only whole series are grouped, and the query is too short to be compared with them. -/
theorem C36_whole_false : ∃ (s : GSet ℚ) (rows : List (List ℚ)) (out : GSet ℚ × Res Int) (N : Int) (q : List ℚ),
    Holds s.ds (rows.map (·.map fin)) ∧
    GSet.GroupAll (1 / 10) (fun _ => false) "manhattan" (fin 10) true 1 s out ∧ out.2 = .ok N ∧ 2 ≤ q.length ∧
    (q.length : Int) ≤ s.ds.maxCol ∧
    out.1.getBestMatch (1 / 10) (q.map fin) = .error (.ub "null pointer dereference") :=
  ⟨exSet, [[7, 2, 3], [4, 12]], exWhole, 1, [3, 2], exSet_holds, exWhole_run, exWhole_ok, by simp, by decide +kernel,
    by decide +kernel⟩

example := C01_least (K := ℚ) .manhattan (by decide) (by simp) (1 / 4) (by norm_num) [1] [0, 1, 2, 5] (by simp) (by simp)
example : warpedValue (manhattan ℚ) (1 / 2) [fin 1] [fin 0, fin 1, fin 2, fin 5] .inf = .ok (fin (3 / 4)) ∧
    warpedValue (manhattan ℚ) (1 / 4) [fin 1] [fin 0, fin 1, fin 2, fin 5] .inf = .ok .inf := by decide +kernel

end Genex.Props
