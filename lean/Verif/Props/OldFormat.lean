import Verif.Lemmas.OldFormatSearch
import Verif.Spec.Decimal
import Verif.Props.KSearch
import Verif.Props.Serialize

/-!
# C76: the text format of groups
-/

set_option linter.unusedSectionVars false

namespace Genex

open Dbl Spec Props

variable {K : Type} [Field K] [LinearOrder K] [IsStrictOrderedRing K] [HasSqrt K]

/-- Loading the text of a dataset with groups, compared with loading its archive. -/
theorem Spec.Ready.text [Arith K] [PairwiseEvals K] {rows : List (List (Dbl K))} {name : String} {t : Dbl K} {whole : Bool} {z : GSet K}
    (hz : Ready rows name t whole z) (hw : ∀ gs, z.groups = some gs → gs.whole = whole) (dst : GSet K)
    (Hd : Holds dst.ds rows) (hmax : dst.ds.maxCol = z.ds.maxCol) (P : Printer K) (f : Dbl K → Dbl K) (hP : ReadsBack P rows f)
    (hlow : numberOf (P.low t) ≠ none) (old : Option (List (Lex K))) :
    ∃ m gs gs' gs'' SP SP' ABS file, name = metricName m ∧ z.groups = some gs ∧ Usable z.ds rows m t whole gs SP ABS ∧
      Usable dst.ds rows m t whole gs' SP' (fun ℓ => (ABS ℓ).map AG.rev) ∧
      gs'.total = gs.total ∧ z.saveOld P false old true = (some file, .ok ()) ∧
      dst.load z.save.1 = (⟨dst.ds, some gs'⟩, .ok ()) ∧ dst.loadOld (some file) = (⟨dst.ds, some gs''⟩, .ok gs''.total) ∧
      CopyGS f dst.ds gs' gs'' ∧ gs''.threshold = none ∧ gs'.whole = false := by
  obtain ⟨H, hm, hpos, m, gs, SP, ABS, rfl, hgs, U⟩ := hz.usable
  obtain ⟨⟨gs', SP', U', hw', -, ht, e⟩, -⟩ := U.load hm (hw gs hgs) H hpos dst Hd hmax
  have hs := U.save hm (hw gs hgs) H
  have ho := U.saveOld hm (hw gs hgs) H P old
  obtain ⟨gs'', e', hc, hth⟩ := U.loadOld hm (hw gs hgs) H hpos dst Hd hmax hP hlow gs' e
  have hz' : z = ⟨z.ds, some gs⟩ := by rw [← hgs]
  refine ⟨m, gs, gs', gs'', SP, SP', ABS, _, rfl, hgs, U, U', ht, by rw [hz']; exact ho, ?_, e', hc, hth, hw'⟩
  rw [hz', hs]
  exact e

/-- What a search that returns has found, whatever the groups. -/
theorem getBestMatch_chosen [Arith K] {ds : Dataset K} {gs : GSpace K} [BandOps] {ratio : ℚ} {query : List (Dbl K)} {c : Cand K}
    (h : gs.getBestMatch ds ratio query = .ok c) : ∃ w order i sp, ∃ (j : ℕ) (g : Group K), gs.warped = some w ∧
      generateTraverseOrder ratio query.length ((gs.spaces.length : Int) - 1) = .ok order ∧ i ∈ order ∧
      gs.spaceAt i = .ok (some sp) ∧ sp.groups[j]? = some g ∧ sp.getBestMatch ds ratio w query g = .ok c := by
  unfold GSpace.getBestMatch at h
  split at h
  · cases h
  · cases hw : gs.warped with
    | none => rw [hw] at h; cases h
    | some w =>
      rw [hw] at h
      simp only [bind, Except.bind] at h
      cases ho : generateTraverseOrder ratio query.length ((gs.spaces.length : Int) - 1) with
      | error e => rw [ho] at h; cases h
      | ok order =>
        rw [ho] at h
        simp only at h
        have inv : ∀ (l : List Int) (st st' : Dbl K × Option (LocalSpace K × ℕ)), (∀ x ∈ l, x ∈ order) →
            (∀ sp j, st.2 = some (sp, j) → ∃ i ∈ order, gs.spaceAt i = .ok (some sp)) →
            l.foldlM (GSpace.bestStep ds ratio w query gs) st = .ok st' →
            ∀ sp j, st'.2 = some (sp, j) → ∃ i ∈ order, gs.spaceAt i = .ok (some sp) := by
          intro l
          induction l with
          | nil =>
            intro st st' _ hst e
            simp only [List.foldlM_nil, pure, Except.pure, Except.ok.injEq] at e
            subst e
            exact hst
          | cons x l ih =>
            intro st st' hsub hst e
            rw [List.foldlM_cons] at e
            cases hx : GSpace.bestStep ds ratio w query gs st x with
            | error e' => rw [hx] at e; cases e
            | ok st1 =>
              rw [hx] at e
              refine ih st1 st' (fun y hy => hsub y (by simp [hy])) ?_ e
              unfold GSpace.bestStep at hx
              cases hsp : gs.spaceAt x with
              | error e' => rw [hsp] at hx; cases hx
              | ok s =>
                rw [hsp] at hx
                simp only [bind, Except.bind] at hx
                cases s with
                | none =>
                  simp only [Except.ok.injEq] at hx
                  subst hx
                  exact hst
                | some sp =>
                  simp only at hx
                  cases hb : sp.getBestGroup ds ratio w query st.1 with
                  | error e' => rw [hb] at hx; cases hx
                  | ok b =>
                    rw [hb] at hx
                    simp only [Except.ok.injEq] at hx
                    subst hx
                    intro sp' j' hs'
                    split at hs'
                    · cases hb2 : b.2 with
                      | none => rw [hb2] at hs'; cases hs'
                      | some k =>
                        rw [hb2] at hs'
                        simp only [Option.map_some, Option.some.injEq, Prod.mk.injEq] at hs'
                        obtain ⟨rfl, -⟩ := hs'
                        exact ⟨x, hsub x (by simp), hsp⟩
                    · exact hst sp' j' hs'
        cases hf : order.foldlM (GSpace.bestStep ds ratio w query gs) ((.inf : Dbl K), none) with
        | error e => rw [hf] at h; cases h
        | ok st =>
          rw [hf] at h
          simp only at h
          cases hst : st.2 with
          | none => rw [hst] at h; cases h
          | some p =>
            obtain ⟨sp, j⟩ := p
            rw [hst] at h
            simp only at h
            obtain ⟨i, hi, hsp⟩ := inv order _ _ (fun _ hx => hx) (fun _ _ h => by cases h) hf sp j hst
            cases hg : sp.groups[j]? with
            | none => rw [hg] at h; cases h
            | some g =>
              rw [hg] at h
              exact ⟨w, order, i, sp, j, g, rfl, rfl, hi, hsp, hg, h⟩

end Genex

namespace Genex.Props

open Dbl Spec

variable {K : Type} [Field K] [LinearOrder K] [IsStrictOrderedRing K] [HasSqrt K]

section

variable [Arith K] [PairwiseEvals K] (rows : List (List (Dbl K))) (name : String) (t : Dbl K) (whole : Bool) (z : GSet K)
    (hz : Ready rows name t whole z) (hw : ∀ gs, z.groups = some gs → gs.whole = whole) (P : Printer K)

include hz hw

/-- C76: what is written when only the sizes are: a header, and for each length grouped the number of groups and the number of members
of each, which add up to the number of subsequences of that length. -/
theorem C76_sizes (old : Option (List (Lex K))) : ∃ (gs : GSpace K) (sizes : ℕ → List ℕ), z.groups = some gs ∧
    z.saveOld P true old true = (some ([.int 1, P.low t, .int z.ds.itemCount, .int z.ds.maxCol,
      .int (if whole = true then z.ds.maxCol else 2), .int (z.ds.maxCol + 1), .word name] ++
      ((List.range (z.ds.maxCol + 1).toNat).filter (fun ℓ : ℕ => if whole = true then (ℓ : Int) = z.ds.maxCol else 2 ≤ ℓ)).flatMap
        (fun ℓ => .int (sizes ℓ).length :: (sizes ℓ).map (fun n => .int n))), .ok ()) ∧
    ∀ ℓ : ℕ, InRange z.ds.maxCol whole ℓ → (∃ sp, gs.spaces[ℓ]? = some (some sp) ∧ sp.groups.map (·.count) = (sizes ℓ).map Nat.cast) ∧
      (sizes ℓ).sum = subsOfLength rows ℓ := by
  obtain ⟨H, hm, hpos, m, gs, SP, ABS, rfl, hgs, U⟩ := hz.usable
  have hsz := U.spaces.size
  have hmin : gs.minLength = if whole = true then z.ds.maxCol else 2 := by
    unfold GSpace.minLength
    rw [hw gs hgs]
    cases whole <;> simp
    omega
  have hlen : gs.lengths = (List.range (z.ds.maxCol + 1).toNat).filter
      (fun ℓ : ℕ => if whole = true then (ℓ : Int) = z.ds.maxCol else 2 ≤ ℓ) := by
    unfold GSpace.lengths
    rw [hmin, if_neg (by split <;> omega), show gs.spaces.length = (z.ds.maxCol + 1).toNat by omega]
    apply List.filter_congr
    intro ℓ hℓ
    rw [List.mem_range] at hℓ
    cases whole
    · simp only [Bool.false_eq_true, if_false, decide_eq_decide]
      omega
    · simp only [if_true, decide_eq_decide]
      omega
  refine ⟨gs, fun ℓ => (ABS ℓ).map (fun a => a.mem.length), hgs, ?_, ?_⟩
  · have hz' : z = ⟨z.ds, some gs⟩ := by rw [← hgs]
    unfold GSet.saveOld
    rw [hgs]
    simp only [Bool.true_eq_false, if_false, U.threshold]
    rw [U.saveTextBody (P := P) hm (hw gs hgs) true (fun ℓ => .int (ABS ℓ).length :: (ABS ℓ).map (fun a => .int a.mem.length))
      (fun ℓ hℓ => by
        obtain ⟨n, hn, R⟩ := U.spaces.rep ℓ hℓ
        exact R.saveSizes P z.ds)]
    simp only [groupFileVersion, hmin, hlen, hsz, List.length_map, List.map_map, Function.comp_def, List.cons_append, List.nil_append]
  · intro ℓ hℓ
    obtain ⟨n, -, R⟩ := U.spaces.rep ℓ hℓ
    refine ⟨⟨SP ℓ, U.spaces.on ℓ hℓ, ?_⟩, ?_⟩
    · apply List.ext_getElem?
      intro j
      rw [List.getElem?_map, List.map_map, List.getElem?_map]
      cases hj : (SP ℓ).groups[j]? with
      | none =>
        have : (ABS ℓ)[j]? = none := by
          rw [List.getElem?_eq_none_iff] at hj ⊢
          rw [← R.num]; exact hj
        rw [this]; rfl
      | some g =>
        have hlt : j < (ABS ℓ).length := by rw [← R.num]; exact (List.getElem?_eq_some_iff.1 hj).1
        have ha := List.getElem?_eq_getElem hlt
        rw [ha]
        simp only [Option.map_some, Function.comp_apply, (R.grp j g _ hj ha).count]
    · have hp : ((ABS ℓ).flatMap AG.mem).Perm (subList rows ℓ) := by
        rw [List.perm_ext_iff_of_nodup R.nodup (subList_nodup _ ℓ)]
        intro c; rw [U.all ℓ hℓ c, mem_subList]
      rw [← subList_length, ← hp.length_eq, List.length_flatMap]

/-- C76: groups saved as text and loaded into an object with the same series are the same, except that the centroids are copies with
the values that were read, that the threshold is not initialised, and that whole series are forgotten.  The number of groups is
returned. -/
theorem C76_round_trip_partial (dst : GSet K) (Hd : Holds dst.ds rows) (hmax : dst.ds.maxCol = z.ds.maxCol) (f : Dbl K → Dbl K)
    (hP : ReadsBack P rows f) (hlow : numberOf (P.low t) ≠ none) (old : Option (List (Lex K))) :
    (z.saveOld P false old true).2 = .ok () ∧ ∃ gs gs', z.groups = some gs ∧
      dst.loadOld (z.saveOld P false old true).1 = (⟨dst.ds, some gs'⟩, .ok gs.total) ∧
      SameButCopies f z.ds dst.ds gs gs' := by
  obtain ⟨H, -, hpos, -⟩ := hz.usable
  obtain ⟨m, gs, gs', gs'', SP, SP', ABS, file, rfl, hgs, U, U', ht, hs, e, e', hc, hth, hw'⟩ := hz.text hw dst Hd hmax P f hP hlow old
  have S := U.same H Hd hmax hpos U' ht
  rw [hs]
  refine ⟨rfl, gs, gs'', hgs, by rw [e', hc.total, ht], ?_⟩
  refine ⟨by rw [hc.name, S.name], by rw [hc.pairwise, S.pairwise], by rw [hc.warped, S.warped], hth, by rw [hc.whole, hw'],
    by rw [hc.total, S.total], by rw [← hc.spaces.length_eq, S.size], ?_, ?_⟩
  · intro ℓ hℓ
    obtain ⟨b, hb, hr⟩ := forall₂_get_some hc.spaces (S.off ℓ hℓ)
    cases hr
    exact hb
  · intro ℓ sp hsp
    obtain ⟨sp', h1, h2, h3, h4⟩ := S.on ℓ sp hsp
    obtain ⟨b, hb, hr⟩ := forall₂_get_some hc.spaces h1
    cases hr with
    | @some _ sp'' hcs =>
      refine ⟨sp'', hb, by rw [hcs.len, h2], by rw [← hcs.groups.length_eq, h3], ?_⟩
      intro j g g'' hg hg''
      have hj : j < sp'.groups.length := by rw [h3]; exact (List.getElem?_eq_some_iff.1 hg).1
      obtain ⟨g', hg'⟩ : ∃ g', sp'.groups[j]? = some g' := ⟨_, List.getElem?_eq_getElem hj⟩
      obtain ⟨k1, k2, k3, ms, ms', k4, k5, k6⟩ := h4 j g g' hg hg'
      obtain ⟨x, hx, hcg⟩ := forall₂_get_some hcs.groups hg'
      rw [hg'', Option.some.injEq] at hx
      subst hx
      refine ⟨by rw [hcg.index, k1], by rw [hcg.count, k3], ?_, ms, ms', k4, by rw [hcs.getMembers hcg]; exact k5, k6⟩
      have hlt := (List.getElem?_eq_some_iff.1 hsp).1
      have hd : InRange z.ds.maxCol whole ℓ := by
        by_contra hd
        rw [U.spaces.off ℓ (by have := U.spaces.size; omega) hd] at hsp
        cases hsp
      rw [U.spaces.on ℓ hd, Option.some.injEq, Option.some.injEq] at hsp
      subst hsp
      obtain ⟨n, hn, R⟩ := U.spaces.rep ℓ hd
      have hja : j < (ABS ℓ).length := by rw [← R.num]; exact (List.getElem?_eq_some_iff.1 hg).1
      have ha := List.getElem?_eq_getElem hja
      have G := R.grp j g _ hg ha
      have hsub := R.reps _ (List.mem_of_getElem? ha)
      refine ⟨_, _, G.centroid, hsub.points H, ?_⟩
      obtain ⟨pts, p1, p2⟩ := hcg.centroid
      rw [p2]
      unfold Group.centroidPts at p1
      rw [k2, G.centroid] at p1
      have hv : viewAt z.ds ℓ (ABS ℓ)[j].rep = viewAt dst.ds ℓ (ABS ℓ)[j].rep := by simp only [viewAt, hmax]
      simp only [hv, hsub.points Hd, Except.ok.injEq] at p1
      rw [p1]

/-- C76: if sixteen digits are enough for the points of the series, searching gives the same as with the groups loaded from an archive,
to which C34 to C40 apply; for several matches, whatever value the threshold that is not initialised happens to have. -/
theorem C76_search_partial (dst : GSet K) (Hd : Holds dst.ds rows) (hmax : dst.ds.maxCol = z.ds.maxCol)
    (hP : ReadsBack P rows id) (hlow : numberOf (P.low t) ≠ none) (old : Option (List (Lex K))) [BandOps] (ratio : ℚ) (query : List (Dbl K)) :
    (dst.loadOld (z.saveOld P false old true).1).1.getBestMatch ratio query = (dst.load z.save.1).1.getBestMatch ratio query ∧
    ∀ (v : Dbl K) (A : Algos (Cand K)) (B : Algos (GIdx K)) (k h : Int),
      (leftover v (dst.loadOld (z.saveOld P false old true).1).1).getKBestMatches A B ratio query k h =
        (dst.load z.save.1).1.getKBestMatches A B ratio query k h := by
  obtain ⟨m, gs, gs', gs'', SP, SP', ABS, file, rfl, hgs, U, U', ht, hs, e, e', hc, hth, hw'⟩ := hz.text hw dst Hd hmax P id hP hlow old
  rw [hs, e, e']
  refine ⟨?_, ?_⟩
  · simp only [GSet.getBestMatch]
    exact hc.getBestMatch ratio query
  · intro v A B k h
    have hc' : CopyGS id dst.ds gs' { gs'' with threshold := some (gs''.threshold.getD v) } :=
      ⟨hc.name, hc.pairwise, hc.warped, hc.total, hc.whole, hc.spaces⟩
    simp only [GSet.getKBestMatches, leftover, Option.map_some, hc'.getKBestMatches (by rw [U'.threshold]; rfl)]

end

/-- C76: even if sixteen digits are not enough, a match that is returned is a subsequence of the dataset of a length considered, with its
DTW distance. -/
theorem C76_sound (z : GSet K) (rows : List (List K)) [BandOps] (ratio : ℚ) (hr : 0 ≤ ratio) (m : Metric) (hm : m ≠ .sorensen ∧ m ≠ .cosine)
    (hs : m = .euclidean → LawfulSqrt K) (t : Dbl K) (whole : Bool)
    (hz : Ready (rows.map (·.map fin)) (metricName m) t whole z) (hw : ∀ gs, z.groups = some gs → gs.whole = whole) (P : Printer K)
    (dst : GSet K) (Hd : Holds dst.ds (rows.map (·.map fin))) (hmax : dst.ds.maxCol = z.ds.maxCol) (f : Dbl K → Dbl K)
    (hP : ReadsBack P (rows.map (·.map fin)) f) (hlow : numberOf (P.low t) ≠ none) (old : Option (List (Lex K))) (q : List K) (c : Cand K)
    (hc : (dst.loadOld (z.saveOld P false old true).1).1.getBestMatch ratio (q.map fin) = .ok c) :
    ∃ ℓ i p y x, Considered dst.ds.maxCol whole ratio q.length ℓ ∧ SubOf rows ℓ i p y ∧
      c.view = subView dst.ds.maxCol i p ℓ ∧ dst.ds.points c.view = .ok (y.map fin) ∧
      Dtw m ratio q y c.dist ∧ c.dist = fin x := by
  obtain ⟨m', gs, gs', gs'', SP, SP', ABS, file, hname, hgs, U, U', ht, hsv, e, e', hcp, hth, hw'⟩ :=
    hz.text hw dst Hd hmax P f hP hlow old
  obtain rfl := metricName_inj hname
  rw [hsv, e'] at hc
  simp only [GSet.getBestMatch] at hc
  have hsz : (gs''.spaces.length : Int) = dst.ds.maxCol + 1 := by rw [← hcp.spaces.length_eq]; exact U'.spaces.size
  have hoth := best_other (s := dst) ratio _ (by rw [hcp.warped]; exact U'.warped) hsz (q.map fin)
  rw [List.length_map] at hoth
  by_cases hq : 2 ≤ q.length
  · by_cases hle : (q.length : Int) ≤ dst.ds.maxCol
    · obtain ⟨w, order, i, sp, j, g, h1, h2, h3, h4, h5, h6⟩ := getBestMatch_chosen hc
      rw [hcp.warped, U'.warped, Option.some.injEq] at h1
      subst h1
      obtain ⟨ord, ho, -, hmo⟩ := order_ok hr hq hle
      rw [List.length_map, show (gs''.spaces.length : Int) - 1 = dst.ds.maxCol by omega, ho, Except.ok.injEq] at h2
      subst h2
      obtain ⟨ℓ, hℓ, rfl⟩ := List.mem_map.1 h3
      obtain ⟨g2, gle, gcomp⟩ := (hmo ℓ).1 hℓ
      have hrel := hcp.spaceAt ℓ
      rw [h4] at hrel
      cases hsp : gs'.spaceAt ℓ with
      | error x => rw [hsp] at hrel; exact hrel.elim
      | ok s =>
        rw [hsp] at hrel
        change Option.Rel (CopyS f dst.ds) s (some sp) at hrel
        cases hrel with
        | @some sp0 _ hcs =>
          have hd : InRange dst.ds.maxCol whole ℓ := by
            by_contra hd
            rw [U'.spaces.at_off gle hd] at hsp
            cases hsp
          rw [U'.spaces.at_dom hd, Except.ok.injEq, Option.some.injEq] at hsp
          subst hsp
          obtain ⟨n, hn, R⟩ := U'.spaces.rep ℓ hd
          have hj : j < (SP' ℓ).groups.length := by rw [hcs.groups.length_eq]; exact (List.getElem?_eq_some_iff.1 h5).1
          have hg0 := List.getElem?_eq_getElem hj
          obtain ⟨x, hx, hcg⟩ := forall₂_get_some hcs.groups hg0
          rw [h5, Option.some.injEq] at hx
          subst hx
          rw [hcs.getBestMatch hcg] at h6
          have hja : j < ((ABS ℓ).map AG.rev).length := by rw [← R.num]; exact hj
          have ha := List.getElem?_eq_getElem hja
          have hmem := List.mem_of_getElem? ha
          have hrep := U'.repMem ℓ hd _ hmem
          have hdd := dists_exact m hm hs ratio hr q (by omega)
          have hcon : Considered dst.ds.maxCol whole ratio q.length ℓ := ⟨hd, gcomp⟩
          have hfin : ∀ c', SubAt (rows.map (·.map (fin : K → Dbl K))) ℓ c' → ∃ x, Dtw m ratio q (finPts rows ℓ c') (fin x) := by
            intro c' hsub
            obtain ⟨-, hlen, -⟩ := ptsAt_fin hsub
            exact (comparable_finite m hm hs ratio hr q (finPts rows ℓ c') hq (by omega)).1 (by rw [hlen]; exact gcomp)
          obtain ⟨c', hc', h7, -⟩ := R.getBestMatch (by omega) hn Hd hg0 ha (hdd.distAt rows g2 (by omega)).1 ⟨_, hrep, by
            obtain ⟨x, hx⟩ := hfin _ (R.mems _ hmem _ hrep)
            rw [dtwTo_eq hx]
            simp⟩
          rw [h7, Except.ok.injEq] at h6
          subst h6
          have hsub := R.mems _ hmem c' hc'
          obtain ⟨k1, k2, k3⟩ := ptsAt_fin hsub
          obtain ⟨x, hx⟩ := hfin c' hsub
          refine ⟨ℓ, c'.1, c'.2, _, x, hcon, k3, viewAt_eq _ _ _, ?_, ((hdd.distAt rows g2 (by omega)).2 c' hsub).2, dtwTo_eq hx⟩
          rw [← k1]
          exact hsub.points Hd
    · rcases hoth.2 hq (by omega) with h | h <;> rw [h] at hc <;> cases hc
  · obtain ⟨msg, h⟩ := hoth.1 (by omega)
    rw [h] at hc; cases hc

/-! ### Refused files -/

/-- C76: a file that cannot be opened, one of another version and one for another number of series are refused, and the object is as
before; saving without groups or to a file that cannot be opened is refused, and the file is as before. -/
theorem C76_refused_partial (s : GSet K) (P : Printer K) (sizeOnly : Bool) (old : Option (List (Lex K))) :
    (∃ msg, s.loadOld none = (s, .error (.genex msg))) ∧
    (∀ (v n len : Int) (p : Lex K) rest, numberOf p ≠ none → (v ≠ 1 ∨ n ≠ s.ds.itemCount) →
      ∃ msg, s.loadOld (some (.int v :: p :: .int n :: .int len :: rest)) = (s, .error (.genex msg))) ∧
    (s.groups = none → ∀ opens, ∃ msg, s.saveOld P sizeOnly old opens = (old, .error (.genex msg))) ∧
    ∃ msg, s.saveOld P sizeOnly old false = (old, .error (.genex msg)) := by
  refine ⟨⟨_, rfl⟩, ?_, ?_, ?_⟩
  · intro v n len p rest hp h
    obtain ⟨tv, htv⟩ := Option.ne_none_iff_exists'.1 hp
    simp only [GSet.loadOld, In.int_ok, In.num_ok _ _ _ _ htv, useVar, groupFileVersion]
    by_cases hv : v ≠ 1
    · rw [if_pos hv]; exact ⟨_, rfl⟩
    · rw [if_neg hv, if_pos (by tauto)]; exact ⟨_, rfl⟩
  · intro h opens
    unfold GSet.saveOld
    rw [h]
    exact ⟨_, rfl⟩
  · unfold GSet.saveOld
    cases s.groups with
    | none => exact ⟨_, rfl⟩
    | some gs => exact ⟨_, rfl⟩

/-! ### Examples -/

theorem doublePrinter_low_ten : numberOf (doublePrinter.low (fin 10)) ≠ none := by decide +kernel

/-- Sixteen digits are enough for the points of the example. -/
theorem exSet_readsBack : ReadsBack doublePrinter ([[7, 2, 3], [4, 12]].map (·.map (fin : ℚ → Dbl ℚ))) id := by
  unfold ReadsBack
  decide +kernel

example := C76_sizes _ _ _ _ exGrouped.1 exGrouped_ready exGrouped_notWhole doublePrinter none
example := C76_round_trip_partial _ _ _ _ exGrouped.1 exGrouped_ready exGrouped_notWhole doublePrinter exSet exSet_holds (by decide +kernel) id
  exSet_readsBack doublePrinter_low_ten none
example := C76_search_partial _ _ _ _ exGrouped.1 exGrouped_ready exGrouped_notWhole doublePrinter exSet exSet_holds (by decide +kernel)
  exSet_readsBack doublePrinter_low_ten none (1 / 2) [fin 3, fin 2]
example := C76_sound exGrouped.1 [[7, 2, 3], [4, 12]] (1 / 2) (by norm_num) .manhattan (by simp) (by simp) (fin 10) false
  exGrouped_ready exGrouped_notWhole doublePrinter exSet exSet_holds (by decide +kernel) id exSet_readsBack doublePrinter_low_ten none
  [3, 2] ⟨⟨0, 0, 0, 3⟩, fin (5 / 6)⟩ (by decide +kernel)
example := C76_refused_partial exGrouped.1 doublePrinter false none

/-- The text of the example and the sizes. -/
example : (exGrouped.1.saveOld doublePrinter false none true).1 = some [.int 1, .int 10, .int 2, .int 3, .int 2, .int 4, .word "manhattan",
    .int 2, .int 7, .int 2, .int 2, .int 0, .int 1, .int 0, .int 0, .int 4, .int 12, .int 1, .int 1, .int 0,
    .int 1, .int 7, .int 2, .int 3, .int 1, .int 0, .int 0] := by decide +kernel
example : (exGrouped.1.saveOld doublePrinter true none true).1 = some [.int 1, .int 10, .int 2, .int 3, .int 2, .int 4, .word "manhattan",
    .int 2, .int 2, .int 1, .int 1, .int 1] := by decide +kernel

/-! ### What does not hold -/

/-- Two equal series of two points. -/
def exTwin : GSet ℚ := ⟨⟨some [fin 1, fin 1, fin 1, fin 1], [], [2, 2], 2, 2, [], false⟩, none⟩

theorem exTwin_holds : Holds exTwin.ds [[fin 1, fin 1], [fin 1, fin 1]] := by
  refine ⟨rfl, rfl, ?_, ?_⟩
  · intro i r h
    match i with
    | 0 => simp at h; subst h; decide +kernel
    | 1 => simp at h; subst h; decide +kernel
    | i + 2 => simp at h
  · intro i r h j x hx
    match i, j with
    | 0, 0 => simp at h; subst h; simp at hx; subst hx; decide +kernel
    | 0, 1 => simp at h; subst h; simp at hx; subst hx; decide +kernel
    | 0, j + 2 => simp at h; subst h; simp at hx
    | 1, 0 => simp at h; subst h; simp at hx; subst hx; decide +kernel
    | 1, 1 => simp at h; subst h; simp at hx; subst hx; decide +kernel
    | 1, j + 2 => simp at h; subst h; simp at hx
    | i + 2, _ => simp at h

def exTwinGrouped (t : Dbl ℚ) : GSet ℚ × Res Int :=
  exTwin.groupAllLengths (GSpace.group exTwin.ds (1 / 10) (fun _ => false) "manhattan" t false) (fun _ => (GSpace.fresh, .ok 0)) 1

theorem exTwinGrouped_run (t : Dbl ℚ) : GSet.GroupAll (1 / 10) (fun _ => false) "manhattan" t false 1 exTwin (exTwinGrouped t) :=
  ⟨(GSpace.fresh, .ok 0), fun h => absurd h (by decide), rfl⟩

/-- C76 is false: the threshold in the text is not put into the groups, and saving them again reads a variable that was never set. -/
theorem C76_threshold_false : ∃ (s : GSet ℚ) (rows : List (List (Dbl ℚ))) (out : GSet ℚ × Res Int) (N : Int) (msg : String),
    Holds s.ds rows ∧ GSet.GroupAll (1 / 10) (fun _ => false) "manhattan" (fin 10) false 1 s out ∧ out.2 = .ok N ∧
    (s.loadOld (out.1.saveOld doublePrinter false none true).1).2 = .ok N ∧
    (s.loadOld (out.1.saveOld doublePrinter false none true).1).1.save.2 = .error (.ub msg) ∧
    ((s.loadOld (out.1.saveOld doublePrinter false none true).1).1.saveOld doublePrinter false none true).2 = .error (.ub msg) :=
  ⟨exTwin, _, exTwinGrouped (fin 10), 1, "threshold not initialised", exTwin_holds, exTwinGrouped_run _, by decide +kernel,
    by decide +kernel, by decide +kernel, by decide +kernel⟩

/-- C76 is false: a search for several matches reads it, too. -/
theorem C76_ksearch_false : ∃ msg, (exSet.loadOld (exGrouped.1.saveOld doublePrinter false none true).1).1.getKBestMatches
    (refAlgos Cand.lt) (refAlgos GIdx.lt) (1 / 2) [fin 3, fin 2] 4 4 = .error (.ub msg) :=
  ⟨"threshold not initialised", by decide +kernel⟩

/-- C76 is false: the beginning of a file is accepted, and a search in the groups loaded never ends. -/
theorem C76_truncated_false : ∃ (s : GSet ℚ) (rows : List (List (Dbl ℚ))) (out : GSet ℚ × Res Int) (N : Int)
    (file : List (Lex ℚ)) (n : ℕ),
    Holds s.ds rows ∧ GSet.GroupAll (1 / 10) (fun _ => false) "manhattan" (fin 10) false 1 s out ∧ out.2 = .ok N ∧
    (out.1.saveOld doublePrinter false none true).1 = some file ∧ n < file.length ∧ (s.loadOld (some (file.take n))).2 = .ok N ∧
    (s.loadOld (some (file.take n))).1.getBestMatch (1 / 10) [fin 1, fin 1] = .error .diverge :=
  ⟨exTwin, _, exTwinGrouped (fin 10), 1,
    [.int 1, .int 10, .int 2, .int 2, .int 2, .int 3, .word "manhattan", .int 1, .int 1, .int 1, .int 2, .int 1, .int 0, .int 0, .int 0], 13,
    exTwin_holds, exTwinGrouped_run _, by decide +kernel, by decide +kernel, by decide +kernel, by decide +kernel, by decide +kernel⟩

/-- C76 is false: a file with the sizes only is not told from one with the groups; loading it reads a variable that was never set. -/
theorem C76_sizes_false : ∃ (s : GSet ℚ) (rows : List (List (Dbl ℚ))) (out : GSet ℚ × Res Int) (N : Int) (msg : String),
    Holds s.ds rows ∧ GSet.GroupAll (1 / 10) (fun _ => false) "manhattan" (fin 10) false 1 s out ∧ out.2 = .ok N ∧
    (s.loadOld (out.1.saveOld doublePrinter true none true).1).2 = .error (.ub msg) :=
  ⟨exTwin, _, exTwinGrouped (fin 10), 1, "uninitialised variable", exTwin_holds, exTwinGrouped_run _, by decide +kernel,
    by decide +kernel⟩

/-- C76 is false: a dataset can be grouped with an infinite threshold, and then the text is not read back. -/
theorem C76_infinite_false : ∃ (s : GSet ℚ) (rows : List (List (Dbl ℚ))) (out : GSet ℚ × Res Int) (N : Int) (msg : String),
    Holds s.ds rows ∧ GSet.GroupAll (1 / 10) (fun _ => false) "manhattan" .inf false 1 s out ∧ out.2 = .ok N ∧
    (out.1.saveOld doublePrinter false none true).2 = .ok () ∧
    (s.loadOld (out.1.saveOld doublePrinter false none true).1).2 = .error (.ub msg) :=
  ⟨exTwin, _, exTwinGrouped .inf, 1, "uninitialised variable", exTwin_holds, exTwinGrouped_run _, by decide +kernel,
    by decide +kernel, by decide +kernel⟩

/-- C76 is false: the maximal length in the file is not looked at; the groups of a dataset with as many series but longer ones are loaded
outside the bounds of a vector. -/
theorem C76_lengths_false : ∃ (s : GSet ℚ) (rows : List (List (Dbl ℚ))) (out : GSet ℚ × Res Int) (N : Int) (msg : String),
    Holds s.ds rows ∧ GSet.GroupAll (1 / 10) (fun _ => false) "manhattan" (fin 10) false 1 s out ∧ out.2 = .ok N ∧
    exTwin.ds.itemCount = s.ds.itemCount ∧
    (exTwin.loadOld (out.1.saveOld doublePrinter false none true).1).2 = .error (.ub msg) :=
  ⟨exSet, _, exGrouped, 3, "memberMap index out of bounds", exSet_holds, exGrouped_run, exGrouped_ok, rfl, by decide +kernel⟩

end Genex.Props
