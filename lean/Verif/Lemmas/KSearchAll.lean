import Verif.Props.Search

/-!
# The groups and candidates of a grouped k-best search
-/

set_option linter.unusedSectionVars false

namespace Genex

open Dbl Spec Props

variable {K : Type} [Field K] [LinearOrder K] [IsStrictOrderedRing K] [HasSqrt K]

theorem groupsAt_cands (ds : Dataset K) (ABS : ℕ → List AG) (E D : ℕ → ℕ × ℕ → Dbl K) (ℓ : ℕ) :
    (groupsAt ABS E ℓ).flatMap (candsOf ds ABS D) = ((ABS ℓ).flatMap AG.mem).map (candAt ds D ℓ) := by
  have h1 : (groupsAt ABS E ℓ).flatMap (candsOf ds ABS D) =
      (ABS ℓ).zipIdx.flatMap (fun p => p.1.mem.map (candAt ds D ℓ)) := by
    unfold groupsAt
    rw [List.flatMap_map]
    rw [List.flatMap_def, List.flatMap_def]
    congr 1
    apply List.map_congr_left
    rintro ⟨a, j⟩ h
    exact candsOf_eq (List.mem_zipIdx_iff_getElem?.1 h) _ _
  rw [h1, List.map_flatMap]
  conv_rhs => rw [← List.zipIdx_map_fst 0 (ABS ℓ), List.flatMap_map]

/-- The groups that a k-best search may use, with distances `PE` of representatives and `PD` of members. -/
structure KAll [Arith K] (PE PD : List K → Dbl K → Prop) (ds : Dataset K) (rows : List (List K)) (whole : Bool) [BandOps] (ratio : ℚ)
    (q : List K) (gs : GSpace K) (ABS : ℕ → List AG) (all : List (GIdx K)) : Prop where
  nodup : ((all.flatMap (candsOf ds ABS (distTo PD rows))).map Cand.view).Nodup
  cand : ∀ c, c ∈ all.flatMap (candsOf ds ABS (distTo PD rows)) ↔
    FoundFor PD rows ds.maxCol whole ratio q.length c.view c.dist
  pts : ∀ c ∈ all.flatMap (candsOf ds ABS (distTo PD rows)), ∃ ℓ i p x, SubOf rows ℓ i p x ∧
    Considered ds.maxCol whole ratio q.length ℓ ∧ c.view = subView ds.maxCol i p ℓ ∧ PD x c.dist ∧
    ds.points c.view = .ok (x.map fin) ∧ ∃ v, c.dist = fin v
  sum : memSum all = available rows ds.maxCol whole ratio q.length
  len : ∀ x ∈ all, ((candsOf ds ABS (distTo PD rows) x).length : Int) = x.members
  grp : ∀ M d, GroupFor PE ds gs rows whole ratio q.length M d ↔
    ∃ x ∈ all, M = (candsOf ds ABS (distTo PD rows) x).map Cand.view ∧ d = x.dist
  ne : ∀ x ∈ all, candsOf ds ABS (distTo PD rows) x ≠ []
  found : ∀ (A : Algos (Cand K)), SortsApart A → ∀ (B : Algos (GIdx K)), B.Lawful GIdx.lt → ∀ h : ℕ, 0 < h →
    Separated (all.flatMap (candsOf ds ABS (distTo PD rows))) →
    ∃ res, gs.getKBestMatches A B ds ratio (q.map fin) h = .ok res ∧ Collected ds ABS (distTo PD rows) h all res

instance (maxCol : Int) (whole : Bool) : DecidablePred (InRange maxCol whole) := by
  intro ℓ; unfold InRange; infer_instance

theorem kAll_order [Arith K] {PE PD : List K → Dbl K → Prop} {s : GSet K} {rows : List (List K)} (H : Holds s.ds (rows.map (·.map fin))) [BandOps] (ratio : ℚ)
    (hr : 0 ≤ ratio) (m : Metric)
    (t : Dbl K) (whole : Bool) {gs : GSpace K}
    {SP : ℕ → LocalSpace K} {ABS : ℕ → List AG} (U : Usable s.ds (rows.map (·.map fin)) m t whole gs SP ABS) (q : List K)
    (hdists : Dists ratio m q PE PD) (hq : 1 ≤ q.length) (hN : (q.length : Int) ≤ s.ds.maxCol) (hwide : 2 ≤ s.ds.maxCol) :
    ∃ order : List ℕ, generateTraverseOrder ratio q.length s.ds.maxCol = .ok (order.map Nat.cast) ∧
      (∀ ℓ ∈ order, 1 ≤ ℓ ∧ (ℓ : Int) ≤ s.ds.maxCol) ∧
      (∀ ℓ, 2 ≤ ℓ → (ℓ ∈ order ↔ (ℓ : Int) ≤ s.ds.maxCol ∧ Comparable ratio q.length ℓ)) ∧
      KAll PE PD s.ds rows whole ratio q gs ABS (allGroups (InRange s.ds.maxCol whole) ABS (distTo PE rows) order) := by
  have S := U.spaces
  obtain ⟨order, ho, hnd, hrange, hmo⟩ := order_any hr hq hN
  have htwo : ∀ ℓ, InRange s.ds.maxCol whole ℓ → 2 ≤ ℓ := by
    rintro ℓ ⟨-, h⟩
    split at h
    · omega
    · exact h
  have hcons : ∀ ℓ, (ℓ ∈ order ∧ InRange s.ds.maxCol whole ℓ) ↔ Considered s.ds.maxCol whole ratio q.length ℓ := by
    intro ℓ
    constructor
    · rintro ⟨h1, h2⟩; exact ⟨h2, ((hmo ℓ (htwo ℓ h2)).1 h1).2⟩
    · intro h
      exact ⟨(hmo ℓ (considered_wide hwide h)).2 ⟨h.1.1, h.2⟩, h.1⟩
  have hD := fun ℓ (h : Considered s.ds.maxCol whole ratio q.length ℓ) => hdists.distAt rows (considered_wide hwide h) (fun _ => h.2)
  set E := distTo PE rows with hEdef
  set D := distTo PD rows with hDdef
  set lens := order.filter (fun ℓ => decide (InRange s.ds.maxCol whole ℓ)) with hlens
  have hmlens : ∀ ℓ, ℓ ∈ lens ↔ Considered s.ds.maxCol whole ratio q.length ℓ := by
    intro ℓ; rw [hlens, List.mem_filter, decide_eq_true_eq, hcons]
  have hall : (allGroups (InRange s.ds.maxCol whole) ABS E order).flatMap (candsOf s.ds ABS D) =
      lens.flatMap (fun ℓ => ((ABS ℓ).flatMap AG.mem).map (candAt s.ds D ℓ)) := by
    unfold allGroups
    rw [List.flatMap_assoc]
    simp only [groupsAt_cands]
    rfl
  have hmem : ∀ c, c ∈ (allGroups (InRange s.ds.maxCol whole) ABS E order).flatMap (candsOf s.ds ABS D) ↔
      ∃ ℓ, Considered s.ds.maxCol whole ratio q.length ℓ ∧ ∃ p, SubAt (rows.map (·.map (fin : K → Dbl K))) ℓ p ∧
        c = candAt s.ds D ℓ p := by
    intro c
    rw [hall, List.mem_flatMap]
    constructor
    · rintro ⟨ℓ, h1, h2⟩
      obtain ⟨p, hp, rfl⟩ := List.mem_map.1 h2
      have h1' := (hmlens ℓ).1 h1
      exact ⟨ℓ, h1', p, (U.all ℓ h1'.1 p).1 hp, rfl⟩
    · rintro ⟨ℓ, h1, p, hp, rfl⟩
      exact ⟨ℓ, (hmlens ℓ).2 h1, List.mem_map.2 ⟨p, (U.all ℓ h1.1 p).2 hp, rfl⟩⟩
  have hlen1 : ∀ ℓ, Considered s.ds.maxCol whole ratio q.length ℓ → ((ABS ℓ).flatMap AG.mem).length = subsOfLength rows ℓ := by
    intro ℓ hc
    obtain ⟨n, -, R⟩ := S.rep ℓ hc.1
    have hp : ((ABS ℓ).flatMap AG.mem).Perm (subList (rows.map (·.map (fin : K → Dbl K))) ℓ) := by
      rw [List.perm_ext_iff_of_nodup R.nodup (subList_nodup _ ℓ)]
      intro c; rw [U.all ℓ hc.1 c, mem_subList]
    rw [hp.length_eq, subList_length]
    unfold subsOfLength
    simp only [List.map_map, Function.comp_def, List.length_map]
  refine ⟨order, ho, hrange, hmo, ?_, ?_, ?_, ?_, ?_, ?_, ?_, ?_⟩
  · rw [hall, List.map_flatMap, List.nodup_flatMap]
    constructor
    · intro ℓ hℓ
      obtain ⟨n, -, R⟩ := S.rep ℓ ((hmlens ℓ).1 hℓ).1
      rw [List.map_map]
      exact List.Nodup.map (fun a b h => viewAt_inj h) R.nodup
    · refine List.Pairwise.imp_of_mem ?_ (hnd.filter _)
      intro ℓ ℓ' _ _ hne
      rw [Function.onFun, List.disjoint_left]
      intro v hv hv'
      simp only [List.map_map, List.mem_map, Function.comp_apply, candAt] at hv hv'
      obtain ⟨p, -, rfl⟩ := hv
      obtain ⟨p', -, e⟩ := hv'
      simp only [viewAt, viewOf, View.mk.injEq, Nat.cast_inj] at e
      omega
  · intro c
    rw [hmem]
    constructor
    · rintro ⟨ℓ, h1, p, hp, rfl⟩
      refine ⟨ℓ, p.1, p.2, finPts rows ℓ p, h1, (ptsAt_fin hp).2.2, viewAt_eq _ _ _, ?_⟩
      exact ((hD ℓ h1).2 p hp).2
    · rintro ⟨ℓ, i, p, x, h1, hx, hv, hd⟩
      obtain ⟨r, hr', hle, -⟩ := id hx
      have hsub : SubAt (rows.map (·.map (fin : K → Dbl K))) ℓ (i, p) := subAt_fin.2 ⟨r, hr', hle⟩
      refine ⟨ℓ, h1, (i, p), hsub, ?_⟩
      have := (ptsAt_fin hsub).2.2
      rw [subOf_unique hx this] at hd
      obtain ⟨v, d⟩ := c
      simp only at hv hd
      rw [hv, ← hdists.eqD hd, candAt, viewAt_eq]
  · intro c hc
    obtain ⟨ℓ, h1, p, hp, rfl⟩ := (hmem c).1 hc
    have h2 := considered_wide hwide h1
    obtain ⟨g1, g2, g3⟩ := ptsAt_fin hp
    refine ⟨ℓ, p.1, p.2, finPts rows ℓ p, g3, h1, viewAt_eq _ _ _, ((hD ℓ h1).2 p hp).2, ?_, ?_⟩
    · rw [← g1]; exact hp.points H
    · obtain ⟨x, hx⟩ := hdists.finD (finPts rows ℓ p) (by omega) (by rw [g2]; exact h1.2)
      exact ⟨x, hdists.eqD hx⟩
  · have e1 : memSum (allGroups (InRange s.ds.maxCol whole) ABS E order) =
        (((allGroups (InRange s.ds.maxCol whole) ABS E order).flatMap (candsOf s.ds ABS D)).length : Int) := by
      rw [List.length_flatMap]
      unfold memSum
      rw [Nat.cast_list_sum, List.map_map]
      congr 1
      apply List.map_congr_left
      intro x hx
      exact (candsOf_length order hx).symm
    rw [e1, hall, List.length_flatMap]
    unfold available
    have e2 : lens.Perm ((List.range (s.ds.maxCol.toNat + 1)).filter
        (fun ℓ => decide (Considered s.ds.maxCol whole ratio q.length ℓ))) := by
      rw [List.perm_ext_iff_of_nodup (hnd.filter _) (List.nodup_range.filter _)]
      intro ℓ
      rw [hmlens, List.mem_filter, decide_eq_true_eq, List.mem_range]
      refine ⟨fun h => ⟨?_, h⟩, fun h => h.2⟩
      have := h.1.1
      omega
    rw [← (e2.map _).sum_eq]
    congr 2
    apply List.map_congr_left
    intro ℓ hℓ
    rw [List.length_map, hlen1 ℓ ((hmlens ℓ).1 hℓ)]
  · intro x hx
    exact candsOf_length order hx
  · intro M d
    constructor
    · rintro ⟨ℓ, sp, g, i, p, x, hc, hsp, hg, hcen, hx, hd, hM⟩
      have hon := S.on ℓ hc.1
      rw [hsp, Option.some.injEq, Option.some.injEq] at hon
      subst hon
      obtain ⟨n, hn, R⟩ := S.rep ℓ hc.1
      obtain ⟨j, hj⟩ := List.mem_iff_getElem?.1 hg
      have hlt : j < (ABS ℓ).length := by rw [← R.num]; exact (List.getElem?_eq_some_iff.1 hj).1
      have ha := List.getElem?_eq_getElem hlt
      have hamem := List.mem_of_getElem? ha
      have h2 := considered_wide hwide hc
      rw [R.getMembers (by omega) hn H hj ha, Except.ok.injEq] at hM
      refine ⟨⟨ℓ, j, _, E ℓ (ABS ℓ)[j].rep⟩, mem_allGroups.2 ⟨ℓ, ((hcons ℓ).2 hc).1, hc.1, j, _, ha, rfl⟩, ?_, ?_⟩
      · rw [candsOf_eq ha, ← hM, List.map_map]
        rfl
      · rw [(R.grp j g _ hj ha).centroid, viewAt_eq, Centroid.view.injEq] at hcen
        obtain ⟨e1, e2⟩ := subView_inj hcen
        subst e1 e2
        have := (ptsAt_fin (R.reps _ hamem)).2.2
        rw [subOf_unique hx this] at hd
        exact (hdists.eqE hd).symm
    · rintro ⟨x, hx, rfl, rfl⟩
      obtain ⟨ℓ, hℓ, hd, j, a, ha, rfl⟩ := mem_allGroups.1 hx
      obtain ⟨n, hn, R⟩ := S.rep ℓ hd
      have hc := (hcons ℓ).1 ⟨hℓ, hd⟩
      have h2 := considered_wide hwide hc
      have hj : j < (SP ℓ).groups.length := by rw [R.num]; exact (List.getElem?_eq_some_iff.1 ha).1
      have hg := List.getElem?_eq_getElem hj
      have hsub := R.reps a (List.mem_of_getElem? ha)
      refine ⟨ℓ, SP ℓ, _, a.rep.1, a.rep.2, _, hc, S.on ℓ hd, List.getElem_mem hj, ?_, (ptsAt_fin hsub).2.2,
        ((hD ℓ hc).2 _ hsub).1, ?_⟩
      · rw [(R.grp j _ _ hg ha).centroid, viewAt_eq]
      · rw [R.getMembers (by omega) hn H hg ha, candsOf_eq ha, List.map_map]
        rfl
  · intro x hx
    obtain ⟨ℓ, hℓ, hd, j, a, ha, rfl⟩ := mem_allGroups.1 hx
    rw [candsOf_eq ha]
    have := U.repMem ℓ hd a (List.mem_of_getElem? ha)
    intro h
    rw [List.map_eq_nil_iff] at h
    rw [h] at this
    simp at this
  · intro A hA B hB h hh hS
    have hsz : (gs.spaces.length : Int) - 1 = s.ds.maxCol := by have := S.size; omega
    exact kSearch_ok hA hB hh S H U.warped (by rw [U.threshold]; rfl) order (by rw [List.length_map, hsz]; exact ho)
      (fun ℓ hℓ => by have := hrange ℓ hℓ; exact ⟨by omega, this.2⟩)
      (fun ℓ hℓ hd => (hD ℓ ((hcons ℓ).1 ⟨hℓ, hd⟩)).1) hS

theorem kAll_ok [Arith K] {PE PD : List K → Dbl K → Prop} {s : GSet K} {rows : List (List K)} (H : Holds s.ds (rows.map (·.map fin))) [BandOps] (ratio : ℚ)
    (hr : 0 ≤ ratio) (m : Metric)
    (t : Dbl K) (whole : Bool) {gs : GSpace K}
    {SP : ℕ → LocalSpace K} {ABS : ℕ → List AG} (U : Usable s.ds (rows.map (·.map fin)) m t whole gs SP ABS) (q : List K)
    (hdists : Dists ratio m q PE PD) (hq : 1 ≤ q.length) (hN : (q.length : Int) ≤ s.ds.maxCol) (hwide : 2 ≤ s.ds.maxCol) :
    ∃ all, KAll PE PD s.ds rows whole ratio q gs ABS all := by
  obtain ⟨order, -, -, -, h⟩ := kAll_order H ratio hr m t whole U q hdists hq hN hwide
  exact ⟨_, h⟩

/-- Subsequences of a well spaced dataset. -/
theorem KAll.separated [Arith K] {PE PD : List K → Dbl K → Prop} {ds : Dataset K} {rows : List (List K)} {whole : Bool} [BandOps] {ratio : ℚ} {q : List K}
    {gs : GSpace K} {ABS : ℕ → List AG} {all : List (GIdx K)} (k : KAll PE PD ds rows whole ratio q gs ABS all)
    (hwide : 2 ≤ ds.maxCol)
    (hW : SpacedFor PD rows) :
    Separated (all.flatMap (candsOf ds ABS (distTo PD rows))) := by
  refine ⟨fun c hc => by obtain ⟨-, -, -, -, -, -, -, -, -, h⟩ := k.pts c hc; exact Or.inr h, ?_⟩
  intro c hc c' hc' u v hu hv hne
  obtain ⟨ℓ, i, p, x, h1, ⟨r, g1, g2, rfl⟩, -, hd⟩ := (k.cand c).1 hc
  obtain ⟨ℓ', i', p', x', h1', ⟨r', g1', g2', rfl⟩, -, hd'⟩ := (k.cand c').1 hc'
  have h2 := considered_wide hwide h1
  have h2' := considered_wide hwide h1'
  rw [hu] at hd
  rw [hv] at hd'
  have := hW i p (p + ℓ) _ i' p' (p' + ℓ') _ u v ⟨r, g1, by omega, g2, rfl⟩ ⟨r', g1', by omega, g2', rfl⟩
    (by rw [Nat.add_sub_cancel_left]; exact hd) (by rw [Nat.add_sub_cancel_left]; exact hd') hne
  unfold eps
  norm_num at this ⊢
  exact this

section
variable [Arith K] [PairwiseEvals K] {PE PD : List K → Dbl K → Prop} (z : GSet K) (rows : List (List K)) [BandOps] (ratio : ℚ)
    (hr : 0 ≤ ratio) (m : Metric) (t : Dbl K) (whole : Bool)
    (hz : Ready (rows.map (·.map fin)) (metricName m) t whole z)
    (A : Algos (Cand K)) (hA : SortsApart A) (B : Algos (GIdx K)) (hB : B.Lawful GIdx.lt)
    (q : List K) (hdists : Dists ratio m q PE PD) (hq : 1 ≤ q.length) (hle : (q.length : Int) ≤ z.ds.maxCol) (hwide : 2 ≤ z.ds.maxCol)
    (hW : SpacedFor PD rows)

include hr hz hA hB hdists hq hle hwide hW

/-- What the k-best search collects. -/
theorem kbest_collect (h : ℕ) (hh : 1 ≤ h) :
    ∃ gs res, z.groups = some gs ∧ gs.getKBestMatches A B z.ds ratio (q.map fin) h = .ok res ∧
      res.length = min h (available rows z.ds.maxCol whole ratio q.length) ∧
      (res.map Cand.view).Nodup ∧
      (∀ c ∈ res, FoundFor PD rows z.ds.maxCol whole ratio q.length c.view c.dist) ∧
      (∀ M d M' d', GroupFor PE z.ds gs rows whole ratio q.length M d → GroupFor PE z.ds gs rows whole ratio q.length M' d' →
        (∃ v ∈ M, v ∈ res.map Cand.view) → (∀ v ∈ M', v ∉ res.map Cand.view) → d ≤ d') ∧
      (∀ M d, GroupFor PE z.ds gs rows whole ratio q.length M d → (∃ v ∈ M, v ∈ res.map Cand.view) →
        (∃ v ∈ M, v ∉ res.map Cand.view) →
        (∀ M' d', GroupFor PE z.ds gs rows whole ratio q.length M' d' → (∃ v ∈ M', v ∈ res.map Cand.view) →
          d' ≤ d ∧ (M' = M ∨ ∀ v ∈ M', v ∈ res.map Cand.view)) ∧
        ∀ c ∈ res, c.view ∈ M → ∀ v ∈ M, v ∉ res.map Cand.view → ∀ e, FoundFor PD rows z.ds.maxCol whole ratio q.length v e →
          c.dist ≤ e) := by
  obtain ⟨H, hmax, -, m', gs, SP, ABS, hname, hgs, U⟩ := hz.usable
  obtain rfl := metricName_inj hname
  obtain ⟨all, k⟩ := kAll_ok H ratio hr m t whole U q hdists hq hle hwide
  obtain ⟨res, e, C⟩ := k.found A hA B hB h hh (k.separated hwide hW)
  have hlen0 := k.sum
  have hlensum : ∀ l : List (GIdx K), (∀ x ∈ l, x ∈ all) →
      ((l.flatMap (candsOf z.ds ABS (distTo PD rows))).length : Int) = memSum l := by
    intro l hl
    rw [List.length_flatMap]
    unfold memSum
    rw [Nat.cast_list_sum, List.map_map]
    congr 1
    apply List.map_congr_left
    intro x hx
    exact k.len x (hl x hx)
  refine ⟨gs, res, hgs, e, ?_⟩
  cases C with
  | everything h1 hp =>
    have hin : ∀ v, v ∈ res.map Cand.view ↔ v ∈ (all.flatMap (candsOf z.ds ABS (distTo PD rows))).map Cand.view :=
      fun v => (hp.map _).mem_iff
    have hevery : ∀ x ∈ all, ∀ v ∈ (candsOf z.ds ABS (distTo PD rows) x).map Cand.view, v ∈ res.map Cand.view := by
      intro x hx v hv
      rw [hin]
      obtain ⟨c, hc, rfl⟩ := List.mem_map.1 hv
      exact List.mem_map.2 ⟨c, List.mem_flatMap.2 ⟨x, hx, hc⟩, rfl⟩
    refine ⟨?_, ?_, ?_, ?_, ?_⟩
    · have := hlensum all (fun _ h => h)
      have h2 := hp.length_eq
      omega
    · rw [(hp.map _).nodup_iff]; exact k.nodup
    · intro c hc; exact (k.cand c).1 (hp.mem_iff.1 hc)
    · intro M d M' d' _ hM' _ hnone
      obtain ⟨x, hx, rfl, -⟩ := (k.grp M' d').1 hM'
      obtain ⟨c, hc⟩ := List.exists_mem_of_ne_nil _ (k.ne x hx)
      have hv := List.mem_map_of_mem (f := Cand.view) hc
      exact absurd (hevery x hx _ hv) (hnone _ hv)
    · intro M d hM _ hmiss
      obtain ⟨x, hx, rfl, -⟩ := (k.grp M d).1 hM
      obtain ⟨v, hv, hv'⟩ := hmiss
      exact absurd (hevery x hx _ hv) hv'
  | trimmed tt l rest tin tout hp hler hmax' ht htl htle hlen hres =>
    have hmemall : ∀ x, x ∈ all ↔ x = tt ∨ x ∈ l ∨ x ∈ rest := by
      intro x
      rw [← hp.mem_iff]
      simp
    -- all views are different
    have hnd := k.nodup
    rw [← ((hp.flatMap_right _).map Cand.view).nodup_iff, List.cons_append, List.flatMap_cons, List.flatMap_append,
      ← ((ht.append_right _).map Cand.view).nodup_iff] at hnd
    simp only [List.map_append, List.append_assoc] at hnd
    rw [List.nodup_append] at hnd
    obtain ⟨hnd1, hnd2, hd1⟩ := hnd
    rw [List.nodup_append] at hnd2
    obtain ⟨hnd3, hnd4, hd2⟩ := hnd2
    rw [List.nodup_append] at hnd4
    obtain ⟨hnd5, hnd6, hd3⟩ := hnd4
    have hin : ∀ v, v ∈ res.map Cand.view ↔ v ∈ tin.map Cand.view ∨
        v ∈ (l.flatMap (candsOf z.ds ABS (distTo PD rows))).map Cand.view := by
      intro v
      rw [(hres.map _).mem_iff, List.map_append, List.mem_append]
    have hvl : ∀ {x : GIdx K} {l' : List (GIdx K)} {v : View}, x ∈ l' →
        v ∈ (candsOf z.ds ABS (distTo PD rows) x).map Cand.view →
        v ∈ (l'.flatMap (candsOf z.ds ABS (distTo PD rows))).map Cand.view := by
      intro x l' v hx hv
      obtain ⟨c, hc, rfl⟩ := List.mem_map.1 hv
      exact List.mem_map.2 ⟨c, List.mem_flatMap.2 ⟨x, hx, hc⟩, rfl⟩
    have hvt : ∀ v, v ∈ (candsOf z.ds ABS (distTo PD rows) tt).map Cand.view ↔
        v ∈ tin.map Cand.view ∨ v ∈ tout.map Cand.view := by
      intro v
      rw [← (ht.map _).mem_iff, List.map_append, List.mem_append]
    -- groups touched
    have htouch : ∀ x ∈ all, (∃ v ∈ (candsOf z.ds ABS (distTo PD rows) x).map Cand.view, v ∈ res.map Cand.view) →
        x ∈ tt :: l := by
      rintro x hx ⟨v, hv, hv'⟩
      rcases (hmemall x).1 hx with rfl | h | h
      · simp
      · simp [h]
      · exfalso
        have h3 := hvl h hv
        rcases (hin v).1 hv' with h4 | h4
        · exact hd1 v h4 v (by simp only [List.mem_append]; exact Or.inr (Or.inr h3)) rfl
        · exact hd3 v h4 v h3 rfl
    have hfull : ∀ x ∈ l, ∀ v ∈ (candsOf z.ds ABS (distTo PD rows) x).map Cand.view, v ∈ res.map Cand.view :=
      fun x hx v hv => (hin v).2 (Or.inr (hvl hx hv))
    refine ⟨?_, ?_, ?_, ?_, ?_⟩
    · have h1 := hlensum l (fun x hx => (hmemall x).2 (Or.inr (Or.inl hx)))
      have h2 := hres.length_eq
      rw [List.length_append] at h2
      have h3 := memSum_perm hp
      rw [List.cons_append, memSum_cons, memSum_append] at h3
      have h4 := ht.length_eq
      rw [List.length_append] at h4
      have h5 := k.len tt ((hmemall tt).2 (Or.inl rfl))
      have h6 := hlensum rest (fun x hx => (hmemall x).2 (Or.inr (Or.inr hx)))
      omega
    · rw [(hres.map _).nodup_iff, List.map_append, List.nodup_append]
      exact ⟨hnd1, hnd5, fun a ha b hb => hd1 a ha b (by simp only [List.mem_append]; exact Or.inr (Or.inl hb))⟩
    · intro c hc
      apply (k.cand c).1
      rw [List.mem_flatMap]
      rcases List.mem_append.1 (hres.mem_iff.1 hc) with h1 | h1
      · exact ⟨tt, (hmemall tt).2 (Or.inl rfl), ht.mem_iff.1 (List.mem_append.2 (Or.inl h1))⟩
      · obtain ⟨x, hx, hcx⟩ := List.mem_flatMap.1 h1
        exact ⟨x, (hmemall x).2 (Or.inr (Or.inl hx)), hcx⟩
    · intro M d M' d' hM hM' htou hnone
      obtain ⟨x, hx, rfl, rfl⟩ := (k.grp M d).1 hM
      obtain ⟨x', hx', rfl, rfl⟩ := (k.grp M' d').1 hM'
      refine hler x (htouch x hx htou) x' ?_
      rcases (hmemall x').1 hx' with rfl | h | h
      · exfalso
        obtain ⟨c, hc⟩ := List.exists_mem_of_ne_nil _ htl
        have hv := List.mem_map_of_mem (f := Cand.view) hc
        exact hnone _ ((hvt _).2 (Or.inl hv)) ((hin _).2 (Or.inl hv))
      · exfalso
        obtain ⟨c, hc⟩ := List.exists_mem_of_ne_nil _ (k.ne x' hx')
        have hv := List.mem_map_of_mem (f := Cand.view) hc
        exact hnone _ hv (hfull x' h _ hv)
      · exact h
    · intro M d hM htou hmiss
      obtain ⟨x, hx, rfl, rfl⟩ := (k.grp M d).1 hM
      have hxt : x = tt := by
        rcases List.mem_cons.1 (htouch x hx htou) with h | h
        · exact h
        · obtain ⟨v, hv, hv'⟩ := hmiss
          exact absurd (hfull x h v hv) hv'
      subst hxt
      refine ⟨?_, ?_⟩
      · intro M' d' hM' htou'
        obtain ⟨x', hx', rfl, rfl⟩ := (k.grp M' d').1 hM'
        have h1 := htouch x' hx' htou'
        refine ⟨hmax' x' h1, ?_⟩
        rcases List.mem_cons.1 h1 with rfl | h
        · exact Or.inl rfl
        · exact Or.inr (hfull x' h)
      · intro c hc hcv v hv hv' e hfound
        have hvout : v ∈ tout.map Cand.view := by
          rcases (hvt v).1 hv with h | h
          · exact absurd ((hin v).2 (Or.inl h)) hv'
          · exact h
        obtain ⟨c', hc', rfl⟩ := List.mem_map.1 hvout
        have hcin : c ∈ tin := by
          rcases List.mem_append.1 (hres.mem_iff.1 hc) with h | h
          · exact h
          · exfalso
            have h3 : c.view ∈ (l.flatMap (candsOf z.ds ABS (distTo PD rows))).map Cand.view :=
              List.mem_map.2 ⟨c, h, rfl⟩
            rcases (hvt _).1 hcv with h4 | h4
            · exact hd1 _ h4 _ (by simp only [List.mem_append]; exact Or.inr (Or.inl h3)) rfl
            · exact hd2 _ h4 _ (by simp only [List.mem_append]; exact Or.inl h3) rfl
        have h1 : c' ∈ candsOf z.ds ABS (distTo PD rows) x := ht.mem_iff.1 (List.mem_append.2 (Or.inr hc'))
        obtain ⟨ℓ, i, p, y, -, hy, hvw, hd⟩ := (k.cand c').1 (List.mem_flatMap.2 ⟨x, hx, h1⟩)
        obtain ⟨ℓ', i', p', y', -, hy', hvw', hd'⟩ := hfound
        rw [hvw] at hvw'
        simp only [subView, View.mk.injEq, Nat.cast_inj] at hvw'
        obtain ⟨-, rfl, rfl, e2⟩ := hvw'
        have hℓ : ℓ = ℓ' := by omega
        subst hℓ
        rw [subOf_unique hy hy'] at hd
        replace hd' := hdists.uniqD _ _ _ hd hd'
        rw [← hd']
        exact htle c hcin c' hc'

/-- What the k-best search returns. -/
theorem kbest_return (k h : ℕ) (hh : 1 ≤ h) (hkh : k ≤ h) :
    ∃ res : List (Cand K), z.getKBestMatches A B ratio (q.map fin) k h =
        .ok (res.map GSet.Entry.cand ++ List.replicate (k - available rows z.ds.maxCol whole ratio q.length) .pad) ∧
      res.length = min k (available rows z.ds.maxCol whole ratio q.length) ∧
      (res.map Cand.view).Nodup ∧
      (∀ c ∈ res, FoundFor PD rows z.ds.maxCol whole ratio q.length c.view c.dist) ∧
      res.Pairwise (fun c c' => c.dist ≤ c'.dist) ∧
      (available rows z.ds.maxCol whole ratio q.length ≤ h → ∀ v d, FoundFor PD rows z.ds.maxCol whole ratio q.length v d →
        v ∉ res.map Cand.view → ∀ c ∈ res, c.dist ≤ d) := by
  obtain ⟨gs, col, hgs, e, hlen, hnd, hf, -, -⟩ :=
    kbest_collect z rows ratio hr m t whole hz A hA B hB q hdists hq hle hwide hW h hh
  obtain ⟨H, hmax, -, m', gs', SP, ABS, hname, hgs', U⟩ := hz.usable
  obtain rfl := metricName_inj hname
  rw [hgs', Option.some.injEq] at hgs
  subst hgs
  obtain ⟨all, kA⟩ := kAll_ok H ratio hr m t whole U q hdists hq hle hwide
  have hS := kA.separated hwide hW
  have hsub : ∀ c ∈ col, c ∈ all.flatMap (candsOf z.ds ABS (distTo PD rows)) :=
    fun c hc => (kA.cand c).2 (hf c hc)
  have hSc := hS.mono hsub
  obtain ⟨hp, hpw⟩ := hA.sort col hSc
  have hSs : Separated (A.sort col) := hSc.mono (fun a ha => hp.mem_iff.1 ha)
  have hpw' : (A.sort col).Pairwise (fun c c' => c.dist ≤ c'.dist) :=
    hpw.imp_of_mem (fun ha hb h => hSs.le_of_not_lt hb ha h)
  have hnds : ((A.sort col).map Cand.view).Nodup := ((hp.map _).nodup_iff).2 hnd
  have hl' := hp.length_eq
  refine ⟨(A.sort col).take k, ?_, ?_, ?_, ?_, ?_, ?_⟩
  · unfold GSet.getKBestMatches
    simp only [hgs']
    rw [if_neg (by omega), e]
    simp only [bind, Except.bind]
    rw [if_neg (by omega), Int.toNat_natCast, List.length_map, ← List.map_take]
    congr 3
    omega
  · rw [List.length_take]; omega
  · exact hnds.sublist ((List.take_sublist _ _).map _)
  · intro c hc
    exact hf c (hp.mem_iff.1 (List.mem_of_mem_take hc))
  · exact hpw'.sublist (List.take_sublist _ _)
  · intro hav v d hfd hv c hc
    -- everything was collected
    have hfull : (⟨v, d⟩ : Cand K) ∈ col := by
      have hsubp : (col.map Cand.view).Subperm ((all.flatMap (candsOf z.ds ABS (distTo PD rows))).map Cand.view) := by
        refine List.subperm_of_subset hnd ?_
        intro w hw
        obtain ⟨c, hc, rfl⟩ := List.mem_map.1 hw
        exact List.mem_map_of_mem (f := Cand.view) (hsub c hc)
      have hlen2 : ((all.flatMap (candsOf z.ds ABS (distTo PD rows))).length : Int) =
          available rows z.ds.maxCol whole ratio q.length := by
        rw [← kA.sum, List.length_flatMap]
        unfold memSum
        rw [Nat.cast_list_sum, List.map_map]
        congr 1
        exact List.map_congr_left (fun x hx => kA.len x hx)
      have hperm := hsubp.perm_of_length_le (by rw [List.length_map, List.length_map]; omega)
      have hin := (kA.cand ⟨v, d⟩).2 hfd
      have hv' : v ∈ col.map Cand.view := hperm.mem_iff.2 (List.mem_map_of_mem (f := Cand.view) hin)
      obtain ⟨c', hc', e'⟩ := List.mem_map.1 hv'
      have h2 := hf c' hc'
      rw [e'] at h2
      obtain ⟨v', d'⟩ := c'
      simp only at e' h2
      subst e'
      obtain ⟨ℓ, i, p, x, -, hx, hvw, hd⟩ := hfd
      obtain ⟨ℓ', i', p', x', -, hx', hvw', hd'⟩ := h2
      rw [hvw] at hvw'
      simp only [subView, View.mk.injEq, Nat.cast_inj] at hvw'
      obtain ⟨-, rfl, rfl, e2⟩ := hvw'
      have hℓ : ℓ = ℓ' := by omega
      subst hℓ
      rw [subOf_unique hx hx'] at hd
      replace hd' := hdists.uniqD _ _ _ hd hd'
      rw [hd']
      exact hc'
    have hin := hp.mem_iff.2 hfull
    rw [← List.take_append_drop k (A.sort col), List.mem_append] at hin
    rcases hin with h1 | h1
    · exact absurd (List.mem_map_of_mem (f := Cand.view) h1) hv
    · rw [← List.take_append_drop k (A.sort col), List.pairwise_append] at hpw'
      exact hpw'.2.2 c hc _ h1

end

end Genex
