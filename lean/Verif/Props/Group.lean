import Verif.Lemmas.GroupDist
import Verif.Props.Dataset

/-!
# C27-C30, C33: grouping
-/

set_option linter.unusedSectionVars false

namespace Genex.Props

open Dbl Spec

theorem range_pos {α : Type} {maxCol : Int} {rows : List α} {whole : Bool} (hw : whole = true → rows ≠ [] → 1 ≤ maxCol)
    (hne : rows ≠ []) {ℓ : ℕ} (hℓ : InRange maxCol whole ℓ) : 1 ≤ ℓ := by
  unfold InRange at hℓ
  cases whole
  · simp at hℓ; omega
  · have := hw rfl hne; simp at hℓ; omega

/-- The dataset `7 2 3`, `4 12`, not grouped. -/
def exSet : GSet ℚ := ⟨exData, none⟩

/-- Grouped with threshold 10 by one thread. -/
def exGrouped : GSet ℚ × Res Int :=
  exSet.groupAllLengths (GSpace.group exData (1 / 10) (fun _ => false) "manhattan" (fin 10) false) (fun _ => (GSpace.fresh, .ok 0)) 1

theorem exGrouped_run : GSet.GroupAll (1 / 10) (fun _ => false) "manhattan" (fin 10) false 1 exSet exGrouped :=
  ⟨(GSpace.fresh, .ok 0), fun h => absurd h (by decide), rfl⟩

theorem exGrouped_ok : exGrouped.2 = .ok 3 := by decide +kernel

theorem exSet_holds : Holds exSet.ds [[fin 7, fin 2, fin 3], [fin 4, fin 12]] := exData_holds

theorem exSet_max : 0 ≤ exSet.ds.maxCol := by decide +kernel

/-- What is in the groups of length `ℓ`. -/
def exMembers (r : GSet ℚ × Res Int) (ℓ : ℕ) : Option (Res (List (List View))) :=
  match r.1.groups with
  | none => none
  | some gs => match gs.spaces[ℓ]? with
    | some (some sp) => some (sp.groups.mapM (LocalSpace.getMembers r.1.ds sp))
    | _ => none

/-! ## C27 -/

/-- What C27 says, for any arithmetic. -/
theorem partition_for {K : Type} [Field K] [LinearOrder K] [HasSqrt K] [Arith K] [PairwiseEvals K] (s : GSet K) (rows : List (List (Dbl K)))
    (H : Holds s.ds rows) (hmax : 0 ≤ s.ds.maxCol) [BandOps] (ratio : ℚ) (name : String) (t : Dbl K) (whole : Bool) (log : ℕ → Bool)
    (numThreads : Int) (out : GSet K × Res Int) (ho : GSet.GroupAll ratio log name t whole numThreads s out) (N : Int)
    (hN : out.2 = .ok N) :
    ∃ gs, out.1 = { s with groups := some gs } ∧
      (∀ ℓ, InRange s.ds.maxCol whole ℓ → ∃ sp members, gs.spaces[ℓ]? = some (some sp) ∧
        sp.groups.mapM (LocalSpace.getMembers s.ds sp) = .ok members ∧
        (∀ M ∈ members, M ≠ []) ∧
        sp.groups.map Group.count = members.map (fun M => (M.length : Int)) ∧
        members.flatten.Nodup ∧
        (∀ v, v ∈ members.flatten ↔ ∃ i p y, SubOf rows ℓ i p y ∧ v = subView s.ds.maxCol i p ℓ) ∧
        (members.map List.length).sum = subsOfLength rows ℓ) ∧
      (∀ ℓ sp, gs.spaces[ℓ]? = some (some sp) → InRange s.ds.maxCol whole ℓ) := by
  obtain ⟨m, gs, rfl, rfl, rfl, G, hw⟩ := groupAll_success H hmax ho hN
  refine ⟨gs, rfl, ?_, ?_⟩
  · intro ℓ hℓ
    obtain ⟨sp, abs, hsp, D⟩ := G.at_range ℓ hℓ
    obtain ⟨n, hn, R⟩ := D.rep
    have hl : rows ≠ [] → 1 ≤ ℓ := fun h => range_pos hw h hℓ
    refine ⟨sp, abs.map (fun a => a.mem.map (viewAt s.ds ℓ)), hsp, ?_, ?_, ?_, ?_, ?_, ?_⟩
    · let g : Group K → List View := fun x => match abs[x.groupIndex]? with
        | some a => a.mem.map (viewAt s.ds ℓ)
        | none => []
      have hg : ∀ (j : ℕ) x (a : AG), sp.groups[j]? = some x → abs[j]? = some a → g x = a.mem.map (viewAt s.ds ℓ) := by
        intro j x a hx ha
        simp only [g, (R.grp j x a hx ha).index, ha]
      have hboth : ∀ (j : ℕ) x, sp.groups[j]? = some x → ∃ a, abs[j]? = some a := by
        intro j x hx
        have : j < abs.length := by rw [← R.num]; exact (List.getElem?_eq_some_iff.1 hx).1
        exact ⟨_, List.getElem?_eq_getElem this⟩
      rw [mapM_ok (LocalSpace.getMembers s.ds sp) g]
      · congr 1
        apply List.ext_getElem?
        intro j
        rw [List.getElem?_map, List.getElem?_map]
        cases hj : sp.groups[j]? with
        | none =>
          have : abs[j]? = none := by
            rw [List.getElem?_eq_none_iff] at hj ⊢
            rw [← R.num]; exact hj
          rw [this]; rfl
        | some x =>
          obtain ⟨a, ha⟩ := hboth j x hj
          rw [ha]
          simp only [Option.map_some, hg j x a hj ha]
      · intro x hx
        obtain ⟨j, hj⟩ := List.mem_iff_getElem?.1 hx
        obtain ⟨a, ha⟩ := hboth j x hj
        rw [R.getMembers (hl (R.reps a (List.mem_of_getElem? ha)).ne) hn H hj ha, hg j x a hj ha]
    · intro M hM
      obtain ⟨a, ha, rfl⟩ := List.mem_map.1 hM
      have := List.mem_of_getLast? (D.repIn a ha).1
      intro h
      rw [List.map_eq_nil_iff] at h
      rw [h] at this
      simp at this
    · apply List.ext_getElem?
      intro j
      simp only [List.getElem?_map, List.map_map]
      cases hj : sp.groups[j]? with
      | none =>
        have : abs[j]? = none := by
          rw [List.getElem?_eq_none_iff] at hj ⊢
          rw [← R.num]; exact hj
        rw [this]; rfl
      | some x =>
        have : j < abs.length := by rw [← R.num]; exact (List.getElem?_eq_some_iff.1 hj).1
        have ha := List.getElem?_eq_getElem this
        rw [ha]
        simp only [Option.map_some, (R.grp j x _ hj ha).count, Function.comp_apply, List.length_map]
    · have : (abs.map (fun a => a.mem.map (viewAt s.ds ℓ))).flatten = (abs.flatMap AG.mem).map (viewAt s.ds ℓ) := by
        rw [List.map_flatMap, List.flatMap_def]
      rw [this]
      exact List.Nodup.map (fun a b h => viewAt_inj h) R.nodup
    · intro v
      have : (abs.map (fun a => a.mem.map (viewAt s.ds ℓ))).flatten = (abs.flatMap AG.mem).map (viewAt s.ds ℓ) := by
        rw [List.map_flatMap, List.flatMap_def]
      rw [this, List.mem_map]
      constructor
      · rintro ⟨c, hc, rfl⟩
        obtain ⟨r, hr, hle⟩ := (D.all c).1 hc
        exact ⟨c.1, c.2, _, ⟨r, hr, hle, rfl⟩, viewAt_eq _ _ _⟩
      · rintro ⟨i, p, y, ⟨r, hr, hle, -⟩, rfl⟩
        exact ⟨(i, p), (D.all (i, p)).2 ⟨r, hr, hle⟩, viewAt_eq _ _ _⟩
    · have hp : (abs.flatMap AG.mem).Perm (subList rows ℓ) := by
        rw [List.perm_ext_iff_of_nodup R.nodup (subList_nodup rows ℓ)]
        intro c; rw [D.all c, mem_subList]
      rw [← subList_length, ← hp.length_eq, List.length_flatMap]
      simp only [List.map_map, Function.comp_def, List.length_map]
  · intro ℓ sp hsp
    by_contra hr
    have hlt : ℓ < gs.spaces.length := (List.getElem?_eq_some_iff.1 hsp).1
    have := G.size
    rw [G.off_range ℓ (by omega) hr] at hsp
    cases hsp

/-- C27: whenever grouping returns, whatever the data, the metric, the threshold, the clock and the number of threads, then
for every length in range the groups are not empty, their recorded sizes are right, no subsequence occurs twice, and exactly
the subsequences of the data occur.  (That it does return: `C33_partial`.) -/
theorem C27_partition {K : Type} [Field K] [LinearOrder K] [HasSqrt K] (s : GSet K) (rows : List (List (Dbl K)))
    (H : Holds s.ds rows) (hmax : 0 ≤ s.ds.maxCol) [BandOps] (ratio : ℚ) (name : String) (t : Dbl K) (whole : Bool) (log : ℕ → Bool)
    (numThreads : Int) (out : GSet K × Res Int) (ho : GSet.GroupAll ratio log name t whole numThreads s out) (N : Int)
    (hN : out.2 = .ok N) :
    ∃ gs, out.1 = { s with groups := some gs } ∧
      (∀ ℓ, InRange s.ds.maxCol whole ℓ → ∃ sp members, gs.spaces[ℓ]? = some (some sp) ∧
        sp.groups.mapM (LocalSpace.getMembers s.ds sp) = .ok members ∧
        (∀ M ∈ members, M ≠ []) ∧
        sp.groups.map Group.count = members.map (fun M => (M.length : Int)) ∧
        members.flatten.Nodup ∧
        (∀ v, v ∈ members.flatten ↔ ∃ i p y, SubOf rows ℓ i p y ∧ v = subView s.ds.maxCol i p ℓ) ∧
        (members.map List.length).sum = subsOfLength rows ℓ) ∧
      (∀ ℓ sp, gs.spaces[ℓ]? = some (some sp) → InRange s.ds.maxCol whole ℓ) :=
  partition_for s rows H hmax ratio name t whole log numThreads out ho N hN

example := C27_partition exSet _ exSet_holds exSet_max _ _ _ _ _ _ _ exGrouped_run 3 exGrouped_ok

/-- Two groups with two points each: `2 3` with `7 2`, and `4 12`. -/
example : exMembers exGrouped 2 = some (.ok [[subView 3 0 1 2, subView 3 0 0 2], [subView 3 1 0 2]]) ∧
    exMembers exGrouped 3 = some (.ok [[subView 3 0 0 3]]) := by decide +kernel

section finite

variable {K : Type} [Field K] [LinearOrder K] [IsStrictOrderedRing K] [HasSqrt K]

theorem half_fin (τ : K) : (fin τ / fin 2 : Dbl K) = fin (τ / 2) := Dbl.fin_div_fin (by norm_num)

/-- For any arithmetic with distance `F`, given up below `E`: for every length in range the groups with the points of representative and members. -/
theorem grouped_for [Arith K] {s : GSet K} {rows : List (List K)} (H : Holds s.ds (rows.map (·.map fin))) [BandOps] (ratio : ℚ) (m : Metric)
    (F E : List K → List K → K) (τ : K) (whole : Bool) {gs : GSpace K}
    (G : GroupedAll s.ds (rows.map (·.map fin)) ratio m (fin τ) whole gs)
    (hw : whole = true → rows.map (·.map (fin : K → Dbl K)) ≠ [] → 1 ≤ s.ds.maxCol) (ℓ : ℕ)
    (hℓ : InRange s.ds.maxCol whole ℓ)
    (hF : 1 ≤ ℓ → GNear (rows.map (·.map fin)) ℓ ratio (.pairwise m) (fun r c => fin (F (finPts rows ℓ r) (finPts rows ℓ c)))
      (fun r c => fin (E (finPts rows ℓ r) (finPts rows ℓ c)))) :
    ∃ sp abs, gs.spaces[ℓ]? = some (some sp) ∧ sp.groups.length = abs.length ∧
      (∀ (j : ℕ) g a, sp.groups[j]? = some g → abs[j]? = some a →
        g.centroid = .view (subView s.ds.maxCol a.rep.1 a.rep.2 ℓ) ∧
        SubOf rows ℓ a.rep.1 a.rep.2 (finPts rows ℓ a.rep) ∧
        LocalSpace.getMembers s.ds sp g = .ok (a.mem.map (fun c => subView s.ds.maxCol c.1 c.2 ℓ)) ∧
        (∀ c ∈ a.mem, SubOf rows ℓ c.1 c.2 (finPts rows ℓ c)) ∧ a.rep ∈ a.mem ∧
        (∀ c ∈ a.mem, c ≠ a.rep → Before a.rep c)) ∧
      GInv (fun r c => fin (F (finPts rows ℓ r) (finPts rows ℓ c))) (fun r c => fin (E (finPts rows ℓ r) (finPts rows ℓ c)))
        (fin (τ / 2)) abs := by
  obtain ⟨sp, abs, hsp, D⟩ := G.at_range ℓ hℓ
  obtain ⟨n, hn, R⟩ := D.rep
  refine ⟨sp, abs, hsp, R.num, ?_, ?_⟩
  · intro j g a hg ha
    have ha' := List.mem_of_getElem? ha
    refine ⟨by rw [(R.grp j g a hg ha).centroid, viewAt_eq], (ptsAt_fin (R.reps a ha')).2.2, ?_, ?_, ?_,
      fun c hc hne => D.repIn.earlier ha' hc hne⟩
    · rw [R.getMembers (range_pos hw (R.reps a ha').ne hℓ) hn H hg ha]
      congr 1
    · intro c hc
      exact (ptsAt_fin (R.mems a ha' c hc)).2.2
    · exact List.mem_of_getLast? (D.repIn a ha').1
  · by_cases hne : rows.map (·.map (fin : K → Dbl K)) = []
    · have : abs = [] := by
        rw [List.eq_nil_iff_forall_not_mem]
        intro a ha
        exact (R.reps a ha).ne hne
      rw [this]
      exact ⟨by simp, by simp, by simp⟩
    · rw [← half_fin]
      exact D.inv _ _ (hF (range_pos hw hne hℓ)) (by rw [half_fin]; simp)

/-- What C28 and C29 share: for every length in range the groups with the points of representative and members. -/
theorem grouped_finite {s : GSet K} {rows : List (List K)} (H : Holds s.ds (rows.map (·.map fin))) [BandOps] (ratio : ℚ) (m : Metric)
    (hm : m ≠ .sorensen ∧ m ≠ .cosine) (hs : m = .euclidean → LawfulSqrt K) (τ : K) (whole : Bool) {gs : GSpace K}
    (G : GroupedAll s.ds (rows.map (·.map fin)) ratio m (fin τ) whole gs)
    (hw : whole = true → rows.map (·.map (fin : K → Dbl K)) ≠ [] → 1 ≤ s.ds.maxCol) (ℓ : ℕ)
    (hℓ : InRange s.ds.maxCol whole ℓ) :
    ∃ sp abs, gs.spaces[ℓ]? = some (some sp) ∧ sp.groups.length = abs.length ∧
      (∀ (j : ℕ) g a, sp.groups[j]? = some g → abs[j]? = some a →
        g.centroid = .view (subView s.ds.maxCol a.rep.1 a.rep.2 ℓ) ∧
        SubOf rows ℓ a.rep.1 a.rep.2 (finPts rows ℓ a.rep) ∧
        LocalSpace.getMembers s.ds sp g = .ok (a.mem.map (fun c => subView s.ds.maxCol c.1 c.2 ℓ)) ∧
        (∀ c ∈ a.mem, SubOf rows ℓ c.1 c.2 (finPts rows ℓ c)) ∧ a.rep ∈ a.mem ∧
        (∀ c ∈ a.mem, c ≠ a.rep → Before a.rep c)) ∧
      GInv (fun r c => fin (textbook m (finPts rows ℓ r) (finPts rows ℓ c)))
        (fun r c => fin (textbook m (finPts rows ℓ r) (finPts rows ℓ c))) (fin (τ / 2)) abs := by
  exact grouped_for H ratio m (textbook m) (textbook m) τ whole G hw ℓ hℓ (fun h => gNear_fin m hm hs ratio rows ℓ h)

theorem subOf_unique {α : Type} {rows : List (List α)} {ℓ i p : ℕ} {x y : List α} (h : SubOf rows ℓ i p x)
    (h' : SubOf rows ℓ i p y) : x = y := by
  obtain ⟨r, h1, -, rfl⟩ := h
  obtain ⟨r', h2, -, rfl⟩ := h'
  rw [h1, Option.some.injEq] at h2
  rw [h2]

theorem subOf_length {α : Type} {rows : List (List α)} {ℓ i p : ℕ} {x : List α} (h : SubOf rows ℓ i p x) : x.length = ℓ := by
  obtain ⟨r, -, h2, rfl⟩ := h
  rw [List.length_take, List.length_drop]; omega

theorem subView_inj {maxCol : Int} {i p i' p' ℓ : ℕ} (h : subView maxCol i p ℓ = subView maxCol i' p' ℓ) : i = i' ∧ p = p' := by
  simp only [subView, View.mk.injEq, Nat.cast_inj] at h
  exact ⟨h.2.1, h.2.2.1⟩

/-! ## C28 -/

/-- C28: in every group the representative is a subsequence of the data, every member is at most half the threshold away from
it, and any two members are at most the threshold apart (`textbook m` is the textbook distance of the metric). -/
theorem C28_radius (s : GSet K) (rows : List (List K)) (H : Holds s.ds (rows.map (·.map fin)))
    (hmax : 0 ≤ s.ds.maxCol) [BandOps] (ratio : ℚ) (m : Metric) (hm : m ≠ .sorensen ∧ m ≠ .cosine) (hs : m = .euclidean → LawfulSqrt K)
    (τ : K) (hτ : 0 ≤ τ) (whole : Bool) (log : ℕ → Bool) (numThreads : Int) (out : GSet K × Res Int)
    (ho : GSet.GroupAll ratio log (metricName m) (fin τ) whole numThreads s out) (N : Int) (hN : out.2 = .ok N) :
    ∃ gs, out.1 = { s with groups := some gs } ∧
      ∀ ℓ sp g, gs.spaces[ℓ]? = some (some sp) → g ∈ sp.groups →
        ∃ ri rp x members, g.centroid = .view (subView s.ds.maxCol ri rp ℓ) ∧ SubOf rows ℓ ri rp x ∧
          LocalSpace.getMembers s.ds sp g = .ok members ∧ subView s.ds.maxCol ri rp ℓ ∈ members ∧
          (∀ v ∈ members, ∃ i p y, v = subView s.ds.maxCol i p ℓ ∧ SubOf rows ℓ i p y ∧ textbook m x y ≤ τ / 2) ∧
          (∀ i p y i' p' y', subView s.ds.maxCol i p ℓ ∈ members → subView s.ds.maxCol i' p' ℓ ∈ members →
            SubOf rows ℓ i p y → SubOf rows ℓ i' p' y' → textbook m y y' ≤ τ) := by
  obtain ⟨m', gs, hname, rfl, rfl, G, hw⟩ := groupAll_success H hmax ho hN
  obtain rfl := metricName_inj hname
  refine ⟨gs, rfl, ?_⟩
  intro ℓ sp g hsp hg
  have hℓ : InRange s.ds.maxCol whole ℓ := by
    by_contra hr
    have hlt : ℓ < gs.spaces.length := (List.getElem?_eq_some_iff.1 hsp).1
    have := G.size
    rw [G.off_range ℓ (by omega) hr] at hsp
    cases hsp
  obtain ⟨sp', abs, hsp', hnum, hgrp, I⟩ := grouped_finite H ratio m hm hs τ whole G hw ℓ hℓ
  rw [hsp, Option.some.injEq, Option.some.injEq] at hsp'
  subst hsp'
  obtain ⟨j, hj⟩ := List.mem_iff_getElem?.1 hg
  obtain ⟨a, ha⟩ : ∃ a, abs[j]? = some a := by
    have : j < abs.length := by rw [← hnum]; exact (List.getElem?_eq_some_iff.1 hj).1
    exact ⟨_, List.getElem?_eq_getElem this⟩
  obtain ⟨h1, h2, h3, h4, h5, h6⟩ := hgrp j g a hj ha
  have hl : 1 ≤ ℓ := range_pos hw (by
    obtain ⟨r, hr, -⟩ := h2
    rintro h
    rw [List.map_eq_nil_iff] at h
    simp [h] at hr) hℓ
  have hM := textbook_metric (K := K) m hm hs ℓ hl
  have hrad : ∀ c ∈ a.mem, textbook m (finPts rows ℓ a.rep) (finPts rows ℓ c) ≤ τ / 2 := by
    intro c hc
    rcases I.radius a (List.mem_of_getElem? ha) c hc with rfl | h
    · rw [(hM.zero _ _ (subOf_length h2) (subOf_length h2)).2 rfl]
      linarith
    · simpa using h
  refine ⟨a.rep.1, a.rep.2, _, _, h1, h2, h3, List.mem_map.2 ⟨a.rep, h5, rfl⟩, ?_, ?_⟩
  · intro v hv
    obtain ⟨c, hc, rfl⟩ := List.mem_map.1 hv
    exact ⟨c.1, c.2, _, rfl, h4 c hc, hrad c hc⟩
  · intro i p y i' p' y' hv hv' hy hy'
    obtain ⟨c, hc, e⟩ := List.mem_map.1 hv
    obtain ⟨c', hc', e'⟩ := List.mem_map.1 hv'
    obtain ⟨rfl, rfl⟩ := subView_inj e
    obtain ⟨rfl, rfl⟩ := subView_inj e'
    rw [subOf_unique hy (h4 c hc), subOf_unique hy' (h4 c' hc')]
    have t1 := hM.triangle _ _ _ (subOf_length (h4 c hc)) (subOf_length h2) (subOf_length (h4 c' hc'))
    rw [hM.symm _ _ (subOf_length (h4 c hc)) (subOf_length h2)] at t1
    have := hrad c hc
    have := hrad c' hc'
    linarith


example := C28_radius exSet [[7, 2, 3], [4, 12]] exSet_holds exSet_max (1 / 10) .manhattan (by decide) (by simp) 10 (by norm_num) false _ _ _
  exGrouped_run 3 exGrouped_ok

/-! ## C29 -/

/-- C29: the representatives of two groups of one length are more than half the threshold apart, and a member other than the
representative is at least as near to its own representative as to every representative inserted before it. -/
theorem C29_separation (s : GSet K) (rows : List (List K)) (H : Holds s.ds (rows.map (·.map fin)))
    (hmax : 0 ≤ s.ds.maxCol) [BandOps] (ratio : ℚ) (m : Metric) (hm : m ≠ .sorensen ∧ m ≠ .cosine) (hs : m = .euclidean → LawfulSqrt K)
    (τ : K) (whole : Bool) (log : ℕ → Bool) (numThreads : Int) (out : GSet K × Res Int)
    (ho : GSet.GroupAll ratio log (metricName m) (fin τ) whole numThreads s out) (N : Int) (hN : out.2 = .ok N) :
    ∃ gs, out.1 = { s with groups := some gs } ∧
      ∀ ℓ sp, gs.spaces[ℓ]? = some (some sp) → ∀ (j j' : ℕ) g g', sp.groups[j]? = some g → sp.groups[j']? = some g' → j ≠ j' →
        ∃ ri rp x ri' rp' x' members, g.centroid = .view (subView s.ds.maxCol ri rp ℓ) ∧ SubOf rows ℓ ri rp x ∧
          g'.centroid = .view (subView s.ds.maxCol ri' rp' ℓ) ∧ SubOf rows ℓ ri' rp' x' ∧
          τ / 2 < textbook m x x' ∧
          LocalSpace.getMembers s.ds sp g = .ok members ∧
          (∀ v ∈ members, v ≠ subView s.ds.maxCol ri rp ℓ → ∃ i p y, v = subView s.ds.maxCol i p ℓ ∧ SubOf rows ℓ i p y ∧
            Earlier ri rp i p ∧ (Earlier ri' rp' i p → textbook m x y ≤ textbook m x' y)) := by
  obtain ⟨m', gs, hname, rfl, rfl, G, hw⟩ := groupAll_success H hmax ho hN
  obtain rfl := metricName_inj hname
  refine ⟨gs, rfl, ?_⟩
  intro ℓ sp hsp j j' g g' hj hj' hjj
  have hℓ : InRange s.ds.maxCol whole ℓ := by
    by_contra hr
    have hlt : ℓ < gs.spaces.length := (List.getElem?_eq_some_iff.1 hsp).1
    have := G.size
    rw [G.off_range ℓ (by omega) hr] at hsp
    cases hsp
  obtain ⟨sp', abs, hsp', hnum, hgrp, I⟩ := grouped_finite H ratio m hm hs τ whole G hw ℓ hℓ
  rw [hsp, Option.some.injEq, Option.some.injEq] at hsp'
  subst hsp'
  have hab : ∀ (j : ℕ) g, sp.groups[j]? = some g → ∃ a, abs[j]? = some a := by
    intro j g hj
    have : j < abs.length := by rw [← hnum]; exact (List.getElem?_eq_some_iff.1 hj).1
    exact ⟨_, List.getElem?_eq_getElem this⟩
  obtain ⟨a, ha⟩ := hab j g hj
  obtain ⟨a', ha'⟩ := hab j' g' hj'
  obtain ⟨h1, h2, h3, h4, h5, h6⟩ := hgrp j g a hj ha
  obtain ⟨h1', h2', -, -, -, -⟩ := hgrp j' g' a' hj' ha'
  have hl : 1 ≤ ℓ := range_pos hw (by
    obtain ⟨r, hr, -⟩ := h2
    rintro h
    rw [List.map_eq_nil_iff] at h
    simp [h] at hr) hℓ
  have hM := textbook_metric (K := K) m hm hs ℓ hl
  have hsep : ∀ (u v : ℕ) b b', u < v → abs[u]? = some b → abs[v]? = some b' →
      τ / 2 < textbook m (finPts rows ℓ b.rep) (finPts rows ℓ b'.rep) := by
    intro u v b b' huv hb hb'
    have := List.pairwise_iff_getElem.1 I.sep u v (List.getElem?_eq_some_iff.1 hb).1 (List.getElem?_eq_some_iff.1 hb').1 huv
    rw [(List.getElem?_eq_some_iff.1 hb).2, (List.getElem?_eq_some_iff.1 hb').2] at this
    simpa using this
  refine ⟨a.rep.1, a.rep.2, _, a'.rep.1, a'.rep.2, _, _, h1, h2, h1', h2', ?_, h3, ?_⟩
  · rcases Nat.lt_or_gt_of_ne hjj with h | h
    · exact hsep j j' a a' h ha ha'
    · rw [hM.symm _ _ (subOf_length h2) (subOf_length h2')]
      exact hsep j' j a' a h ha' ha
  · intro v hv hne'
    obtain ⟨c, hc, rfl⟩ := List.mem_map.1 hv
    have hcr : c ≠ a.rep := by rintro rfl; exact hne' rfl
    refine ⟨c.1, c.2, _, rfl, h4 c hc, ?_, ?_⟩
    · exact h6 c hc hcr
    · intro hE
      have := I.near a (List.mem_of_getElem? ha) c hc hcr a' (List.mem_of_getElem? ha') hE
      simpa using this


example := C29_separation exSet [[7, 2, 3], [4, 12]] exSet_holds exSet_max (1 / 10) .manhattan (by decide) (by simp) 10 false _ _ _
  exGrouped_run 3 exGrouped_ok

/-- The distances behind it: `2 3` is 3 away from `7 2`, and `4 12` is 13/2 away. -/
example : textbook .manhattan [7, 2] [2, 3] = (3 : ℚ) ∧ textbook .manhattan [7, 2] [4, 12] = (13 / 2 : ℚ) := by decide +kernel

/-- With the euclidean metric, over the reals. -/
example (s : GSet ℝ) (rows : List (List ℝ)) := C28_radius s rows (ratio := 1) (m := .euclidean) (hm := by decide) (hs := fun _ => inferInstance)

end finite

/-! ## C30 -/

/-- C30: the number returned is the number of groups over all lengths, and `getTotalNumberOfGroups` says the same afterwards. -/
theorem C30_count {K : Type} [Field K] [LinearOrder K] [HasSqrt K] (s : GSet K) (rows : List (List (Dbl K)))
    (H : Holds s.ds rows) (hmax : 0 ≤ s.ds.maxCol) [BandOps] (ratio : ℚ) (name : String) (t : Dbl K) (whole : Bool) (log : ℕ → Bool)
    (numThreads : Int) (out : GSet K × Res Int) (ho : GSet.GroupAll ratio log name t whole numThreads s out) (N : Int)
    (hN : out.2 = .ok N) :
    ∃ gs, out.1 = { s with groups := some gs } ∧ gs.total = N ∧
      N = ((List.range gs.spaces.length).map (fun ℓ => match gs.spaces[ℓ]? with
        | some (some sp) => (sp.groups.length : Int)
        | _ => 0)).sum := by
  obtain ⟨m, gs, rfl, rfl, rfl, G, -⟩ := groupAll_success H hmax ho hN
  refine ⟨gs, rfl, rfl, ?_⟩
  rw [G.total, Nat.cast_list_sum, List.map_map]
  congr 1
  apply List.ext_getElem?
  intro j
  rw [List.getElem?_map, List.getElem?_map]
  by_cases hj : j < gs.spaces.length
  · rw [List.getElem?_range hj, List.getElem?_eq_getElem hj]
    simp only [Option.map_some, List.getElem?_eq_getElem hj, Function.comp_apply]
    cases gs.spaces[j] <;> rfl
  · rw [List.getElem?_eq_none (by simpa using hj), List.getElem?_eq_none (by simpa using hj)]
    rfl

example := C30_count exSet _ exSet_holds exSet_max _ _ _ _ _ _ _ exGrouped_run 3 exGrouped_ok

/-! ## C33 -/

/-- C33, as far as it holds: whatever the data, the metric and the number of threads, grouping returns or throws a
`GenexException`, if no length with fewer than five places (start positions times series) logs its progress, and if half the
threshold is less than infinity or else the data are finite and the metric is one of the three whose distances are then finite.

Missing: the clock (`C33_clock_false`), and infinite or undefined thresholds with infinite or undefined distances
(`C33_threshold_false`). -/
theorem C33_partial {K : Type} [Field K] [LinearOrder K] [IsStrictOrderedRing K] [HasSqrt K] (s : GSet K)
    (rows : List (List (Dbl K))) (H : Holds s.ds rows) (hmax : 0 ≤ s.ds.maxCol) [BandOps] (ratio : ℚ) (name : String) (t : Dbl K)
    (whole : Bool) (log : ℕ → Bool)
    (ht : t / fin 2 < .inf ∨ ((∃ R : List (List K), rows = R.map (·.map fin)) ∧ name ≠ "sorensen" ∧ name ≠ "cosine" ∧
      (name = "euclidean" → LawfulSqrt K)))
    (hlog : ∀ ℓ, InRange s.ds.maxCol whole ℓ → log ℓ = true → 5 ≤ (s.ds.maxCol - ℓ + 1) * rows.length)
    (numThreads : Int) (out : GSet K × Res Int) (ho : GSet.GroupAll ratio log name t whole numThreads s out) :
    (∃ N, out.2 = .ok N) ∨ ∃ e, out.2 = .error (.genex e) := by
  refine (groupAll_safe H hmax ?_ hlog ho).symm
  rintro m rfl ℓ hℓ -
  rcases ht with ht | ⟨⟨R, rfl⟩, h1, h2, h3⟩
  · exact Or.inl ht
  · refine Or.inr ⟨_, gNear_fin m ⟨?_, ?_⟩ (fun h => h3 (by rw [h]; rfl)) ratio R ℓ hℓ, by simp⟩
    · rintro rfl; exact h1 rfl
    · rintro rfl; exact h2 rfl

/-- C33, when it returns: under the same conditions, exactly if data is loaded, the number of threads is positive, the name is one
of the five metrics, and there is no attempt to group whole series without points. -/
theorem C33_returns {K : Type} [Field K] [LinearOrder K] [IsStrictOrderedRing K] [HasSqrt K] (s : GSet K)
    (rows : List (List (Dbl K))) (H : Holds s.ds rows) (hmax : 0 ≤ s.ds.maxCol) [BandOps] (ratio : ℚ) (name : String) (t : Dbl K)
    (whole : Bool) (log : ℕ → Bool)
    (ht : t / fin 2 < .inf ∨ ((∃ R : List (List K), rows = R.map (·.map fin)) ∧ name ≠ "sorensen" ∧ name ≠ "cosine" ∧
      (name = "euclidean" → LawfulSqrt K)))
    (hlog : ∀ ℓ, InRange s.ds.maxCol whole ℓ → log ℓ = true → 5 ≤ (s.ds.maxCol - ℓ + 1) * rows.length)
    (numThreads : Int) (out : GSet K × Res Int) (ho : GSet.GroupAll ratio log name t whole numThreads s out) :
    (∃ N, out.2 = .ok N) ↔ s.ds.data ≠ none ∧ 1 ≤ numThreads ∧
      name ∈ ["euclidean", "manhattan", "chebyshev", "sorensen", "cosine"] ∧ (whole = true → rows ≠ [] → 1 ≤ s.ds.maxCol) := by
  have hnames : name ∈ ["euclidean", "manhattan", "chebyshev", "sorensen", "cosine"] ↔ ∃ m, name = metricName m := by
    simp only [List.mem_cons, List.not_mem_nil, or_false]
    constructor
    · rintro (h | h | h | h | h)
      exacts [⟨.euclidean, h⟩, ⟨.manhattan, h⟩, ⟨.chebyshev, h⟩, ⟨.sorensen, h⟩, ⟨.cosine, h⟩]
    · rintro ⟨m, rfl⟩
      cases m <;> simp [metricName]
  rw [hnames]
  constructor
  · rintro ⟨N, hN⟩
    obtain ⟨m, gs, h1, -, -, -, hw⟩ := groupAll_success H hmax ho hN
    rcases groupAll_cases ho with ⟨e, h⟩ | ⟨_, h, -⟩ | ⟨h2, h3, -⟩
    · rw [hN] at h; cases h
    · rw [hN] at h; cases h
    · exact ⟨h3, h2, ⟨m, h1⟩, hw⟩
  · rintro ⟨hd, hn, ⟨m, rfl⟩, h0⟩
    refine groupAll_returns H hmax ?_ hlog ho hd hn h0
    rintro ℓ hℓ -
    rcases ht with ht | ⟨⟨R, rfl⟩, h1, h2, h3⟩
    · exact Or.inl ht
    · refine Or.inr ⟨_, gNear_fin m ⟨?_, ?_⟩ (fun h => h3 (by rw [h]; rfl)) ratio R ℓ hℓ, by simp⟩
      · rintro rfl; exact h1 rfl
      · rintro rfl; exact h2 rfl

example := C33_returns exSet _ exSet_holds exSet_max (1 / 10) "sorensen" (fin 10) true (fun _ => false)
  (Or.inl (by decide +kernel)) (by simp) 4

example := C33_partial exSet _ exSet_holds exSet_max (1 / 10) "sorensen" (fin 10) true (fun _ => false)
  (Or.inl (by decide +kernel)) (by simp) 4

example := C33_partial exSet _ exSet_holds exSet_max (1 / 10) "manhattan" .inf false (fun _ => false)
  (Or.inr ⟨⟨[[7, 2, 3], [4, 12]], rfl⟩, by decide, by decide, by simp⟩) (by simp) 4

/-- Two places of length 3: one line of progress divides by zero. -/
theorem C33_clock_false : ¬ ∀ (s : GSet ℚ) (log : ℕ → Bool) (out : GSet ℚ × Res Int), s.ds.data ≠ none →
    GSet.GroupAll (1 / 10) log "manhattan" (fin 10) false 1 s out → ∀ u, out.2 ≠ .error (.ub u) := by
  intro h
  exact h exSet (fun _ => true) _ (by decide +kernel) ⟨(GSpace.fresh, .ok 0), fun h => absurd h (by decide), rfl⟩
    "division by zero" (by decide +kernel)

/-- Two series of two zeros. -/
def exZeros : GSet ℚ :=
  ⟨(Dataset.loadData exParse (some "a 0 0\nb 0 0\n".toList) [] 0 0 [' '] true Dataset.fresh).1, none⟩

/-- The sorensen distance of zeros is undefined, so no group is nearest; an infinite threshold asks for one all the same. -/
theorem C33_threshold_false : ¬ ∀ (s : GSet ℚ) (t : Dbl ℚ) (out : GSet ℚ × Res Int), s.ds.data ≠ none →
    GSet.GroupAll (1 / 10) (fun _ => false) "sorensen" t false 1 s out → ∀ u, out.2 ≠ .error (.ub u) := by
  intro h
  exact h exZeros .inf _ (by decide +kernel) ⟨(GSpace.fresh, .ok 0), fun h => absurd h (by decide), rfl⟩
    "bestSoFarIndex not initialised" (by decide +kernel)

end Genex.Props
