import Verif.Props.Search

/-!
# C41-C45, C56, C57: saving and loading groups
-/

set_option linter.unusedSectionVars false

namespace Genex

open Dbl Spec Props

variable {K : Type} [Field K] [LinearOrder K] [IsStrictOrderedRing K] [HasSqrt K]

/-- Two groupings with the same groups up to the order of the members. -/
theorem Usable.same {ds ds' : Dataset K} {rows : List (List (Dbl K))} {m : Metric} {t : Dbl K} {whole : Bool}
    {gs gs' : GSpace K} {SP SP' : ℕ → LocalSpace K} {ABS : ℕ → List AG} (H : Holds ds rows) (H' : Holds ds' rows)
    (hmax : ds'.maxCol = ds.maxCol) (hpos : rows ≠ [] → ∀ ℓ, InRange ds.maxCol whole ℓ → 1 ≤ ℓ)
    (U : Usable ds rows m t whole gs SP ABS) (U' : Usable ds' rows m t whole gs' SP' (fun ℓ => (ABS ℓ).map AG.rev))
    (ht : gs'.total = gs.total) : SameGrouping ds ds' gs gs' := by
  have hsz := U.spaces.size
  have hsz' := U'.spaces.size
  refine ⟨by rw [U.name, U'.name], by rw [U.pairwise, U'.pairwise], by rw [U.warped, U'.warped],
    by rw [U.threshold, U'.threshold], ht, by omega, ?_, ?_⟩
  · intro ℓ hℓ
    have hlt := (List.getElem?_eq_some_iff.1 hℓ).1
    refine U'.spaces.off ℓ (by omega) ?_
    intro hd
    rw [hmax] at hd
    rw [U.spaces.on ℓ hd] at hℓ
    cases hℓ
  · intro ℓ sp hℓ
    have hlt := (List.getElem?_eq_some_iff.1 hℓ).1
    have hd : InRange ds.maxCol whole ℓ := by
      by_contra hd
      rw [U.spaces.off ℓ (by omega) hd] at hℓ
      cases hℓ
    have hd' : InRange ds'.maxCol whole ℓ := by rw [hmax]; exact hd
    rw [U.spaces.on ℓ hd, Option.some.injEq, Option.some.injEq] at hℓ
    subst hℓ
    obtain ⟨n, hn, R⟩ := U.spaces.rep ℓ hd
    obtain ⟨n', hn', R'⟩ := U'.spaces.rep ℓ hd'
    refine ⟨SP' ℓ, U'.spaces.on ℓ hd', by rw [R.len, R'.len], by rw [R.num, R'.num, List.length_map], ?_⟩
    intro j g g' hg hg'
    have hj : j < (ABS ℓ).length := by rw [← R.num]; exact (List.getElem?_eq_some_iff.1 hg).1
    have ha := List.getElem?_eq_getElem hj
    have ha' : ((ABS ℓ).map AG.rev)[j]? = some ((ABS ℓ)[j]).rev := by rw [List.getElem?_map, ha]; rfl
    have G := R.grp j g _ hg ha
    have G' := R'.grp j g' _ hg' ha'
    have hl : 1 ≤ ℓ := hpos (R.reps _ (List.mem_of_getElem? ha)).ne ℓ hd
    refine ⟨by rw [G.index, G'.index], ?_, ?_, _, _, R.getMembers hl hn H hg ha, R'.getMembers hl hn' H' hg' ha', ?_⟩
    · rw [G.centroid, G'.centroid]
      simp only [AG.rev, viewAt, hmax]
    · rw [G.count, G'.count]
      simp [AG.rev]
    · have : viewAt ds' ℓ = viewAt ds ℓ := by funext c; simp only [viewAt, hmax]
      rw [this]
      exact (List.reverse_perm _).map _

end Genex

namespace Genex.Props

open Dbl Spec

variable {K : Type} [Field K] [LinearOrder K] [IsStrictOrderedRing K] [HasSqrt K]

/-! ## C41 -/

/-- C41 for any arithmetic: saving succeeds; loading the file into any object with the same series (whatever groups it has) succeeds, leaves its
data alone and gives the same grouping. -/
theorem round_trip_for [Arith K] [PairwiseEvals K] (rows : List (List (Dbl K))) (name : String) (t : Dbl K) (whole : Bool) (z : GSet K)
    (hz : Ready rows name t whole z) (hw : ∀ gs, z.groups = some gs → gs.whole = whole) (dst : GSet K)
    (Hd : Holds dst.ds rows) (hmax : dst.ds.maxCol = z.ds.maxCol) :
    z.save.2 = .ok () ∧ ∃ gs gs', z.groups = some gs ∧ dst.load z.save.1 = (⟨dst.ds, some gs'⟩, .ok ()) ∧
      SameGrouping z.ds dst.ds gs gs' ∧ (dst.load z.save.1).1.totalGroups = z.totalGroups := by
  obtain ⟨H, hm, hpos, m, gs, SP, ABS, rfl, hgs, U⟩ := hz.usable
  obtain ⟨⟨gs', SP', U', -, -, ht, e⟩, -⟩ := U.load hm (hw gs hgs) H hpos dst Hd hmax
  have hs := U.save hm (hw gs hgs) H
  have hz' : z = ⟨z.ds, some gs⟩ := by rw [← hgs]
  have hs' : z.save = (tokAll z.ds gs m t ABS, .ok ()) := by rw [hz']; exact hs
  rw [hs']
  refine ⟨rfl, gs, gs', hgs, e, U.same H Hd hmax hpos U' ht, ?_⟩
  simp only [e, GSet.totalGroups, hgs, ht]

/-- C41: saving succeeds; loading the file into any object with the same series (whatever groups it has) succeeds, leaves its
data alone and gives the same grouping. -/
theorem C41_round_trip [BandOps] (rows : List (List (Dbl K))) (name : String) (t : Dbl K) (whole : Bool) (z : GSet K)
    (hz : Ready rows name t whole z) (hw : ∀ gs, z.groups = some gs → gs.whole = whole) (dst : GSet K)
    (Hd : Holds dst.ds rows) (hmax : dst.ds.maxCol = z.ds.maxCol) :
    z.save.2 = .ok () ∧ ∃ gs gs', z.groups = some gs ∧ dst.load z.save.1 = (⟨dst.ds, some gs'⟩, .ok ()) ∧
      SameGrouping z.ds dst.ds gs gs' ∧ (dst.load z.save.1).1.totalGroups = z.totalGroups :=
  round_trip_for rows name t whole z hz hw dst Hd hmax

/-- C41 for a dataset just grouped, by one or several threads. -/
theorem C41_grouped (s : GSet K) (rows : List (List (Dbl K))) (H : Holds s.ds rows) (hmax : 0 ≤ s.ds.maxCol) [BandOps] (ratio : ℚ)
    (log : ℕ → Bool) (name : String) (t : Dbl K) (whole : Bool) (numThreads : Int) (out : GSet K × Res Int)
    (ho : GSet.GroupAll ratio log name t whole numThreads s out) (N : Int) (hN : out.2 = .ok N) (dst : GSet K)
    (Hd : Holds dst.ds rows) (hd : dst.ds.maxCol = s.ds.maxCol) :
    out.1.save.2 = .ok () ∧ ∃ gs gs', out.1.groups = some gs ∧ dst.load out.1.save.1 = (⟨dst.ds, some gs'⟩, .ok ()) ∧
      SameGrouping s.ds dst.ds gs gs' ∧ (dst.load out.1.save.1).1.totalGroups = N := by
  have hR : Ready rows name t whole out.1 := .grouped s H hmax ratio log numThreads out ho N hN
  obtain ⟨m, gs, rfl, hNt, hout, G, -⟩ := groupAll_success H hmax ho hN
  have hds : out.1.ds = s.ds := by rw [hout]
  have hgs : out.1.groups = some gs := by rw [hout]
  have := C41_round_trip rows _ t whole out.1 hR (by
    intro gs' h
    rw [hgs, Option.some.injEq] at h
    rw [← h]
    exact G.isWhole) dst Hd (by rw [hds, hd])
  rw [hds] at this
  obtain ⟨h1, gs1, gs', h2, h3, h4, h5⟩ := this
  refine ⟨h1, gs1, gs', h2, h3, h4, ?_⟩
  rw [h5, GSet.totalGroups, hgs, hNt]

/-! ## C42 -/

/-- C42: a file that was saved, by whatever object, with another number of series or another maximal length is refused, and
nothing changes. -/
theorem C42_incompatible (z dst : GSet K) (hz : z.save.2 = .ok ())
    (hne : z.ds.itemCount ≠ dst.ds.itemCount ∨ z.ds.maxCol ≠ dst.ds.maxCol) :
    ∃ msg, dst.load z.save.1 = (dst, .error (.genex msg)) := by
  have hhead : ∃ ts, z.save.1 = .int z.ds.itemCount :: .int z.ds.maxCol :: ts := by
    unfold GSet.save at hz ⊢
    cases hg : z.groups with
    | none => rw [hg] at hz; cases hz
    | some gs =>
      simp only [Wr.all]
      cases gs.save.2 <;> exact ⟨_, rfl⟩
  obtain ⟨ts, e⟩ := hhead
  rw [e]
  simp only [GSet.load, rdInt]
  by_cases h1 : (z.ds.itemCount : Int) ≠ dst.ds.itemCount
  · rw [if_pos h1]
    exact ⟨_, rfl⟩
  · rw [if_neg h1, if_pos]
    · exact ⟨_, rfl⟩
    · rcases hne with h | h
      · exact absurd (by exact_mod_cast h) h1
      · exact h

/-! ## C43 -/

/-- C43: of a file that was saved, no shorter beginning is accepted. -/
theorem C43_truncated (rows : List (List (Dbl K))) (name : String) (t : Dbl K) (whole : Bool) (z : GSet K)
    (hz : Ready rows name t whole z) (hw : ∀ gs, z.groups = some gs → gs.whole = whole) (dst : GSet K)
    (Hd : Holds dst.ds rows) (hmax : dst.ds.maxCol = z.ds.maxCol) (n : ℕ) (hn : n < z.save.1.length) :
    ∃ msg, (dst.load (z.save.1.take n)).2 = .error (.std msg) := by
  obtain ⟨H, hm, hpos, m, gs, SP, ABS, rfl, hgs, U⟩ := hz.usable
  obtain ⟨-, hcut⟩ := U.load hm (hw gs hgs) H hpos dst Hd hmax
  have hs := U.save hm (hw gs hgs) H
  have hz' : z = ⟨z.ds, some gs⟩ := by rw [← hgs]
  have hs' : z.save = (tokAll z.ds gs m t ABS, .ok ()) := by rw [hz']; exact hs
  rw [hs'] at hn ⊢
  refine ⟨_, hcut _ (List.take_prefix _ _) ?_⟩
  intro h
  have := congrArg List.length h
  rw [List.length_take] at this
  simp only at hn
  omega

/-! ## C44 -/

/-- C44, as far as it holds: if all lengths were grouped, then after loading the groups can be saved again; the new file loads
into the same grouping; loading and saving once more gives the original file, value for value.

Missing: groupings of whole series, see `C44_false`. -/
theorem C44_partial (rows : List (List (Dbl K))) (name : String) (t : Dbl K) (z : GSet K)
    (hz : Ready rows name t false z) (hw : ∀ gs, z.groups = some gs → gs.whole = false) (d₁ d₂ : GSet K)
    (H₁ : Holds d₁.ds rows) (hmax₁ : d₁.ds.maxCol = z.ds.maxCol) (H₂ : Holds d₂.ds rows)
    (hmax₂ : d₂.ds.maxCol = z.ds.maxCol) :
    let y := (d₁.load z.save.1).1
    let x := (d₂.load y.save.1).1
    y.save.2 = .ok () ∧ (d₂.load y.save.1).2 = .ok () ∧
      (∃ gs gs', z.groups = some gs ∧ x.groups = some gs' ∧ SameGrouping z.ds x.ds gs gs') ∧
      y.save.1.length = z.save.1.length ∧ x.save = z.save := by
  obtain ⟨H, hm, hpos, m, gs, SP, ABS, rfl, hgs, U⟩ := hz.usable
  obtain ⟨⟨gs1, SP1, U1, hw1, hl1, ht1, e1⟩, -⟩ := U.load hm (hw gs hgs) H hpos d₁ H₁ hmax₁
  have hm1 : 0 ≤ d₁.ds.maxCol := by omega
  obtain ⟨⟨gs2, SP2, U2, hw2, hl2, ht2, e2⟩, -⟩ := U1.load hm1 hw1 H₁ (by rw [hmax₁]; exact hpos) d₂ H₂ (by omega)
  have hs := U.save hm (hw gs hgs) H
  have hs1 := U1.save hm1 hw1 H₁
  have hm2 : 0 ≤ d₂.ds.maxCol := by omega
  have hs2 := U2.save hm2 hw2 H₂
  have hz' : z = ⟨z.ds, some gs⟩ := by rw [← hgs]
  have hsz : z.save = (tokAll z.ds gs m t ABS, .ok ()) := by rw [hz']; exact hs
  have hrr : (fun ℓ => (((ABS ℓ).map AG.rev).map AG.rev)) = ABS := by
    funext ℓ
    rw [List.map_map]
    have : AG.rev ∘ AG.rev = id := by funext a; simp [AG.rev]
    rw [this, List.map_id]
  have hminl : ∀ g : GSpace K, g.whole = false → g.minLength = 2 := by
    intro g h; unfold GSpace.minLength; rw [h]; rfl
  have hlens : ∀ g g' : GSpace K, g.whole = false → g'.whole = false → g'.spaces.length = g.spaces.length →
      g'.lengths = g.lengths := by
    intro g g' h h' hl
    unfold GSpace.lengths
    rw [hminl g h, hminl g' h', hl]
  have hc1 : (z.ds.itemCount : Int) = d₁.ds.itemCount := by rw [H.count, H₁.count]
  have hc2 : (z.ds.itemCount : Int) = d₂.ds.itemCount := by rw [H.count, H₂.count]
  have htok : ∀ (D : Dataset K) (g : GSpace K) (A : ℕ → List AG), (D.itemCount : Int) = z.ds.itemCount → D.maxCol = z.ds.maxCol →
      g.whole = false → g.spaces.length = gs.spaces.length → tokAll D g m t A = tokAll z.ds gs m t A := by
    intro D g A hc hmx hwg hlg
    unfold tokAll
    rw [hc, hmx, hlg, hminl g hwg, hminl gs (hw gs hgs), hlens gs g (hw gs hgs) hwg hlg]
  have hlen : ∀ A B : ℕ → List AG, (∀ ℓ, (tokSp (K := K) (A ℓ)).length = (tokSp (K := K) (B ℓ)).length) →
      (tokAll z.ds gs m t A).length = (tokAll z.ds gs m t B).length := by
    intro A B h
    unfold tokAll
    rw [List.length_append, List.length_append, List.length_flatMap, List.length_flatMap]
    congr 2
    exact List.map_congr_left (fun ℓ _ => h ℓ)
  intro y x
  have hy : y = ⟨d₁.ds, some gs1⟩ := by
    show (d₁.load z.save.1).1 = _
    rw [hsz, e1]
  have hsy : y.save = (tokAll d₁.ds gs1 m t (fun ℓ => (ABS ℓ).map AG.rev), .ok ()) := by rw [hy]; exact hs1
  have hx : (d₂.load y.save.1) = (⟨d₂.ds, some gs2⟩, .ok ()) := by rw [hsy]; exact e2
  have hx1 : x = ⟨d₂.ds, some gs2⟩ := by show (d₂.load y.save.1).1 = _; rw [hx]
  refine ⟨by rw [hsy], by rw [hx], ⟨gs, gs2, hgs, by rw [hx1], ?_⟩, ?_, ?_⟩
  · have hxds : x.ds = d₂.ds := by rw [hx1]
    rw [hxds]
    have s1 := U.same H H₁ hmax₁ hpos U1 ht1
    have s2 := U1.same H₁ H₂ (by omega) (by rw [hmax₁]; exact hpos) U2 ht2
    refine ⟨s2.name.trans s1.name, s2.pairwise.trans s1.pairwise, s2.warped.trans s1.warped, s2.threshold.trans s1.threshold,
      s2.total.trans s1.total, s2.size.trans s1.size, fun ℓ h => s2.off ℓ (s1.off ℓ h), ?_⟩
    intro ℓ sp hsp
    obtain ⟨sp1, g1, g2, g3, g4⟩ := s1.on ℓ sp hsp
    obtain ⟨sp2, k1, k2, k3, k4⟩ := s2.on ℓ sp1 g1
    refine ⟨sp2, k1, k2.trans g2, k3.trans g3, ?_⟩
    intro j g g' hg hg'
    have hj : j < sp1.groups.length := by rw [g3]; exact (List.getElem?_eq_some_iff.1 hg).1
    have hmid := List.getElem?_eq_getElem hj
    obtain ⟨p1, p2, p3, M, M', p4, p5, p6⟩ := g4 j g _ hg hmid
    obtain ⟨r1, r2, r3, M1, M1', r4, r5, r6⟩ := k4 j _ g' hmid hg'
    rw [p5, Except.ok.injEq] at r4
    subst r4
    exact ⟨r1.trans p1, r2.trans p2, r3.trans p3, M, M1', p4, r5, r6.trans p6⟩
  · rw [hsy, hsz]
    simp only
    rw [htok d₁.ds gs1 _ hc1.symm hmax₁ hw1 hl1]
    apply hlen
    intro ℓ
    unfold tokSp
    rw [List.length_cons, List.length_cons, List.length_flatMap, List.length_flatMap, List.map_map]
    congr 2
    apply List.map_congr_left
    intro a _
    simp [tokG, AG.rev, List.length_flatMap, tokC]
  · have hsx : x.save = (tokAll d₂.ds gs2 m t (fun ℓ => ((ABS ℓ).map AG.rev).map AG.rev), .ok ()) := by rw [hx1]; exact hs2
    rw [hsx, hsz]
    simp only [hrr]
    rw [htok d₂.ds gs2 _ hc2.symm hmax₂ hw2 (by omega)]

/-- C44 is false: a grouping of whole series, saved and loaded, cannot be saved again. -/
theorem C44_false : ∃ (s : GSet ℚ) (rows : List (List ℚ)) (out : GSet ℚ × Res Int) (N : Int),
    Holds s.ds (rows.map (·.map fin)) ∧
    GSet.GroupAll (1 / 10) (fun _ => false) "manhattan" (fin 10) true 1 s out ∧ out.2 = .ok N ∧ out.1.save.2 = .ok () ∧
    (s.load out.1.save.1).2 = .ok () ∧
    (s.load out.1.save.1).1.save.2 = .error (.ub "null pointer dereference") :=
  ⟨exSet, [[7, 2, 3], [4, 12]], exWhole, 1, exSet_holds, exWhole_run, exWhole_ok, by decide +kernel, by decide +kernel,
    by decide +kernel⟩

/-! ## C45 -/

/-- C45, as far as it holds: the series are never changed; nothing at all is changed when there is no data, when the file cannot
be opened, or when it ends before or differs in the number of series and the maximal length.

Missing: all other failures, see `C45_group_false` and `C45_load_false`. -/
theorem C45_partial (s : GSet K) :
    (∀ ratio log name t whole numThreads (out : GSet K × Res Int), GSet.GroupAll ratio log name t whole numThreads s out →
      out.1.ds = s.ds ∧ (s.ds.data = none → out.1 = s ∧ ∃ msg, out.2 = .error (.genex msg))) ∧
    (∀ file, (s.loadFromFile file).1.ds = s.ds) ∧
    (∀ file, (file = none ∨ ∃ ts, file = some ts ∧ (ts.length < 2 ∨ ¬ ∃ ts', ts = .int s.ds.itemCount :: .int s.ds.maxCol :: ts')) →
      (s.loadFromFile file).1 = s ∧ ∃ e, (s.loadFromFile file).2 = .error e) := by
  refine ⟨?_, ?_, ?_⟩
  · rintro ratio log name t whole numThreads out ⟨multi, -, rfl⟩
    unfold GSet.groupAllLengths
    constructor
    · cases s.ds.data with
      | none => rfl
      | some x =>
        simp only
        split
        · rfl
        · split <;> rfl
    · intro h
      rw [h]
      exact ⟨rfl, _, rfl⟩
  · intro file
    cases file with
    | none => rfl
    | some ts =>
      simp only [GSet.loadFromFile, GSet.load]
      cases rdInt ts with
      | error e => rfl
      | ok p =>
        simp only
        cases rdInt p.2 with
        | error e => rfl
        | ok p' =>
          simp only
          split
          · rfl
          · split <;> rfl
  · rintro file (rfl | ⟨ts, rfl, h⟩)
    · exact ⟨rfl, _, rfl⟩
    · simp only [GSet.loadFromFile, GSet.load]
      match ts, h with
      | [], _ => exact ⟨rfl, _, rfl⟩
      | [.int n], _ => exact ⟨rfl, _, rfl⟩
      | .size n :: _, _ => exact ⟨rfl, _, rfl⟩
      | .str n :: _, _ => exact ⟨rfl, _, rfl⟩
      | .dbl n :: _, _ => exact ⟨rfl, _, rfl⟩
      | .int n :: .size _ :: _, _ => exact ⟨rfl, _, rfl⟩
      | .int n :: .str _ :: _, _ => exact ⟨rfl, _, rfl⟩
      | .int n :: .dbl _ :: _, _ => exact ⟨rfl, _, rfl⟩
      | .int n :: .int l :: ts, h =>
        simp only [rdInt]
        split
        · exact ⟨rfl, _, rfl⟩
        · split
          · exact ⟨rfl, _, rfl⟩
          · rename_i h1 h2
            push Not at h1 h2
            rcases h with h | h
            · simp at h
            · exact absurd ⟨ts, by rw [h1, h2]⟩ h

/-- C45 is false: asking for zero threads, or for a distance that does not exist, throws, but a dataset that was not grouped
then reports that it is grouped, and searching it calls through an uninitialised pointer. -/
theorem C45_group_false : ∃ (s : GSet ℚ) (rows : List (List ℚ)) (out out' : GSet ℚ × Res Int) (msg msg' : String),
    Holds s.ds (rows.map (·.map fin)) ∧ s.isGrouped = false ∧
    GSet.GroupAll (1 / 10) (fun _ => false) "manhattan" (fin 10) false 0 s out ∧ out.2 = .error (.genex msg) ∧
    out.1.isGrouped = true ∧
    out.1.getBestMatch (1 / 10) [fin 3, fin 2] = .error (.ub "call through an uninitialised function pointer") ∧
    GSet.GroupAll (1 / 10) (fun _ => false) "hamming" (fin 10) false 1 s out' ∧ out'.2 = .error (.genex msg') ∧
    out'.1.isGrouped = true ∧
    out'.1.getBestMatch (1 / 10) [fin 3, fin 2] = .error (.ub "call through an uninitialised function pointer") :=
  ⟨exSet, [[7, 2, 3], [4, 12]],
    exSet.groupAllLengths (GSpace.group exSet.ds (1 / 10) (fun _ => false) "manhattan" (fin 10) false)
      (fun _ => (GSpace.fresh, .ok 0)) 0,
    exSet.groupAllLengths (GSpace.group exSet.ds (1 / 10) (fun _ => false) "hamming" (fin 10) false)
      (fun _ => (GSpace.fresh, .ok 0)) 1,
    "Number of threads must be positive", "Cannot find distance with name: hamming", exSet_holds, rfl,
    ⟨(GSpace.fresh, .ok 0), fun h => absurd h (by decide), rfl⟩, by decide +kernel, by decide +kernel, by decide +kernel,
    ⟨(GSpace.fresh, .ok 0), fun h => absurd h (by decide), rfl⟩, by decide +kernel, by decide +kernel, by decide +kernel⟩

/-- C45 is false: loading the first six values of a saved file into a grouped dataset throws; the groups it had are gone, and
searching dereferences a null pointer. -/
theorem C45_load_false : ∃ (s : GSet ℚ) (rows : List (List ℚ)) (out : GSet ℚ × Res Int) (N : Int) (msg : String),
    Holds s.ds (rows.map (·.map fin)) ∧
    GSet.GroupAll (1 / 10) (fun _ => false) "manhattan" (fin 10) false 1 s out ∧ out.2 = .ok N ∧
    (∃ c, out.1.getBestMatch (1 / 10) [fin 3, fin 2] = .ok c) ∧
    (out.1.load (out.1.save.1.take 6)).2 = .error (.std msg) ∧
    (out.1.load (out.1.save.1.take 6)).1.totalGroups = 0 ∧
    (out.1.load (out.1.save.1.take 6)).1.getBestMatch (1 / 10) [fin 3, fin 2] = .error (.ub "null pointer dereference") :=
  ⟨exSet, [[7, 2, 3], [4, 12]], exGrouped, 3, "archive_exception: input stream error", exSet_holds, exGrouped_run,
    exGrouped_ok, ⟨⟨⟨0, 0, 1, 3⟩, fin (1 / 2)⟩, by decide +kernel⟩, by decide +kernel, by decide +kernel, by decide +kernel⟩

/-! ## C56 -/

/-- C56, as far as it holds: a file that cannot be opened for writing is not changed; otherwise the file holds what was written,
which is everything if saving succeeds.

Missing: saving that fails after the file was opened, see `C56_false`. -/
theorem C56_partial (s : GSet K) (old : Option (List (Tok K))) :
    ((s.saveToFile old false).1 = old ∧ ∃ msg, (s.saveToFile old false).2 = .error (.genex msg)) ∧
    ((s.saveToFile old true).2 = .ok () → (s.saveToFile old true).1 = some s.save.1 ∧ s.save.2 = .ok ()) :=
  ⟨⟨rfl, _, rfl⟩, fun h => ⟨rfl, h⟩⟩

/-- C56 is false: saving a dataset that is not grouped throws, and a good file at that path is replaced by an empty archive, which
can no longer be loaded. -/
theorem C56_false : ∃ (s : GSet ℚ) (out : GSet ℚ × Res Int) (N : Int) (msg msg' : String),
    GSet.GroupAll (1 / 10) (fun _ => false) "manhattan" (fin 10) false 1 s out ∧ out.2 = .ok N ∧
    (s.loadFromFile (some out.1.save.1)).2 = .ok () ∧
    (s.saveToFile (some out.1.save.1) true).2 = .error (.genex msg) ∧
    (s.loadFromFile (s.saveToFile (some out.1.save.1) true).1).2 = .error (.std msg') :=
  ⟨exSet, exGrouped, 3, "No group found", "archive_exception: input stream error", exGrouped_run, exGrouped_ok,
    by decide +kernel, by decide +kernel, by decide +kernel⟩

/-! ## C57 -/

/-- C57: grouping a loaded dataset gives the same outcome and the same groups whatever the groups before were. -/
theorem C57_group (ds : Dataset K) (hd : ds.data ≠ none) (g g' : Option (GSpace K)) [BandOps] (ratio : ℚ) (log : ℕ → Bool)
    (name : String) (t : Dbl K) (whole : Bool) (numThreads : Int) (out : GSet K × Res Int) :
    GSet.GroupAll ratio log name t whole numThreads ⟨ds, g⟩ out ↔ GSet.GroupAll ratio log name t whole numThreads ⟨ds, g'⟩ out := by
  have : ∀ f h n, GSet.groupAllLengths f h n (⟨ds, g⟩ : GSet K) = GSet.groupAllLengths f h n ⟨ds, g'⟩ := by
    intro f h n
    unfold GSet.groupAllLengths
    cases hdata : ds.data with
    | none => exact absurd hdata hd
    | some x => rfl
  unfold GSet.GroupAll
  simp only [this]

/-- C57: loading a file has the same outcome, and if it succeeds the same groups, whatever the groups before were. -/
theorem C57_load (ds : Dataset K) (g g' : Option (GSpace K)) (ts : List (Tok K)) :
    (GSet.load ⟨ds, g⟩ ts).2 = (GSet.load ⟨ds, g'⟩ ts).2 ∧
    ((GSet.load ⟨ds, g⟩ ts).2 = .ok () → (GSet.load ⟨ds, g⟩ ts).1 = (GSet.load ⟨ds, g'⟩ ts).1) := by
  unfold GSet.load
  cases rdInt ts with
  | error e => exact ⟨rfl, fun h => by cases h⟩
  | ok p =>
    simp only
    cases rdInt p.2 with
    | error e => exact ⟨rfl, fun h => by cases h⟩
    | ok p' =>
      simp only
      split
      · exact ⟨rfl, fun h => by cases h⟩
      · split
        · exact ⟨rfl, fun h => by cases h⟩
        · exact ⟨rfl, fun _ => rfl⟩

/-! ### Examples -/

theorem exGrouped_notWhole : ∀ gs, exGrouped.1.groups = some gs → gs.whole = false := by
  intro gs h
  have : exGrouped.1.groups.map GSpace.whole = some false := by decide +kernel
  rw [h] at this
  simpa using this

/-- A grouped dataset is saved and loaded into itself, and into the dataset that is not grouped. -/
example := C41_round_trip _ _ _ _ exGrouped.1 exGrouped_ready exGrouped_notWhole exSet exSet_holds (by decide +kernel)
example := C41_grouped exSet _ exSet_holds exSet_max (1 / 10) _ _ _ _ _ _ exGrouped_run 3 exGrouped_ok exGrouped.1
  exSet_holds rfl
example := C43_truncated _ _ _ _ exGrouped.1 exGrouped_ready exGrouped_notWhole exSet exSet_holds (by decide +kernel) 17
  (by decide +kernel)
example := C44_partial _ _ _ exGrouped.1 exGrouped_ready exGrouped_notWhole exSet exSet exSet_holds (by decide +kernel)
  exSet_holds (by decide +kernel)

/-- The file of the example: two groups of length 2 with two members and one, one group of length 3. -/
example : exGrouped.1.save.1 = [.int 2, .int 3, .size 2, .size 4, .str "manhattan", .dbl (fin 10),
    .size 2, .int 0, .int 0, .int 2, .int 0, .int 1, .int 0, .int 0, .int 1, .int 0, .int 1, .int 1, .int 0,
    .size 1, .int 0, .int 0, .int 1, .int 0, .int 0] := by decide +kernel

/-- One series of two points. -/
def exOther : GSet ℚ := ⟨⟨some [fin 1, fin 2], [], [2], 1, 2, [], false⟩, none⟩

/-- The file does not fit it. -/
example := C42_incompatible exGrouped.1 exOther (by decide +kernel) (Or.inr (by decide +kernel))

/-- Searching after loading: C34 and C35 apply to the loaded groups. -/
theorem exLoaded_ready : Ready ([[7, 2, 3], [4, 12]].map (·.map (fin : ℚ → Dbl ℚ))) (metricName .manhattan) (fin 10) false
    (exSet.load exGrouped.1.save.1).1 :=
  .loaded exGrouped.1 exGrouped_ready exGrouped_notWhole exSet exSet_holds (by decide +kernel)
example := C35_best _ [[7, 2, 3], [4, 12]] (1 / 2) (by norm_num) .manhattan (by simp) (by simp) (fin 10)
  false exLoaded_ready [3, 2] ⟨⟨0, 0, 0, 3⟩, fin (5 / 6)⟩ (by decide +kernel)

end Genex.Props
