import Verif.Lemmas.OldFormat

/-!
# Searching with copies of the centroids
-/

set_option linter.unusedSectionVars false

namespace Genex

open Spec Dbl Props

variable {K : Type} [Field K] [LinearOrder K] [IsStrictOrderedRing K] [HasSqrt K]

variable {f : Dbl K → Dbl K} {ds : Dataset K} {sp sp' : LocalSpace K} {g g' : Group K} {gs gs' : GSpace K}

/-- Two outcomes related. -/
def ResRel {α β : Type} (R : α → β → Prop) (x : Res α) (y : Res β) : Prop :=
  match x, y with
  | .ok a, .ok b => R a b
  | .error e, .error e' => e = e'
  | _, _ => False

theorem ResRel.refl {α : Type} {R : α → α → Prop} (h : ∀ a, R a a) (x : Res α) : ResRel R x x := by
  cases x with
  | error e => exact rfl
  | ok a => exact h a

theorem ResRel.bind {α β α' β' : Type} {R : α → β → Prop} {S : α' → β' → Prop} {x : Res α} {y : Res β} (h : ResRel R x y)
    {F : α → Res α'} {G : β → Res β'} (hF : ∀ a b, R a b → ResRel S (F a) (G b)) : ResRel S (x >>= F) (y >>= G) := by
  cases x with
  | error e =>
    cases y with
    | error e' => exact h
    | ok b => exact h.elim
  | ok a =>
    cases y with
    | error e' => exact h.elim
    | ok b => exact hF a b h

theorem ResRel.eq {α : Type} {x y : Res α} (h : ResRel (fun a b => a = b) x y) : x = y := by
  cases x <;> cases y
  · exact congrArg _ h
  · exact h.elim
  · exact h.elim
  · exact congrArg _ h

theorem ResRel.foldlM {α σ τ : Type} {R : σ → τ → Prop} {F : σ → α → Res σ} {G : τ → α → Res τ}
    (h : ∀ s t a, R s t → ResRel R (F s a) (G t a)) : ∀ (l : List α) (s : σ) (t : τ), R s t →
    ResRel R (l.foldlM F s) (l.foldlM G t) := by
  intro l
  induction l with
  | nil => intro s t hst; exact hst
  | cons a l ih =>
    intro s t hst
    rw [List.foldlM_cons, List.foldlM_cons]
    exact (h s t a hst).bind (fun s' t' h' => ih s' t' h')

theorem CopyG.distance [Arith K] (h : CopyG id ds g g') [BandOps] (ratio : ℚ) (ref : DistRef) (query : List (Dbl K)) (b : Dbl K) :
    g'.distance ds ratio ref query b = g.distance ds ratio ref query b := by
  obtain ⟨pts, h1, h2⟩ := h.centroid
  unfold Group.distance
  rw [h1]
  unfold Group.centroidPts
  rw [h2, List.map_id]

theorem bestLoop_copy [Arith K] [BandOps] (ratio : ℚ) (ref : DistRef) (query : List (Dbl K)) {l l' : List (Group K)}
    (h : List.Forall₂ (CopyG id ds) l l') : ∀ (i : ℕ) (b : Dbl K × Option ℕ),
    bestLoop (Group.distance ds ratio ref query) l' i b = bestLoop (Group.distance ds ratio ref query) l i b := by
  induction h with
  | nil => intro i b; rfl
  | cons hg _ ih =>
    intro i b
    unfold bestLoop
    rw [hg.distance]
    congr 1
    funext d
    exact ih _ _

theorem CopyS.chainLoop (h : CopyS f ds sp sp') {σ : Type} (body : σ → Int × Int → Res σ) : ∀ (fuel : ℕ) (c : Int × Int) (s : σ),
    sp'.chainLoop body fuel c s = sp.chainLoop body fuel c s := by
  intro fuel
  induction fuel with
  | zero => intro c s; unfold LocalSpace.chainLoop; rfl
  | succ n ih =>
    intro c s
    unfold LocalSpace.chainLoop
    simp only [h.cell, ih]

theorem CopyS.walk (h : CopyS f ds sp sp') (hg : CopyG f ds g g') {σ : Type} (body : σ → Int × Int → Res σ) (s : σ) :
    sp'.walk g' body s = sp.walk g body s := by
  unfold LocalSpace.walk
  rw [h.chainLoop, h.map, hg.last]

theorem CopyS.member (h : CopyS f ds sp sp') (ds' : Dataset K) (c : Int × Int) : sp'.member ds' c = sp.member ds' c := by
  unfold LocalSpace.member
  rw [h.len]

theorem CopyS.getMembers (h : CopyS f ds sp sp') (hg : CopyG f ds g g') (ds' : Dataset K) :
    LocalSpace.getMembers ds' sp' g' = LocalSpace.getMembers ds' sp g := by
  unfold LocalSpace.getMembers
  rw [h.walk hg]
  simp only [h.member]

theorem CopyS.getBestMatch [Arith K] (h : CopyS f ds sp sp') (hg : CopyG f ds g g') [BandOps] (ratio : ℚ) (ref : DistRef) (query : List (Dbl K)) :
    LocalSpace.getBestMatch ds ratio ref query sp' g' = LocalSpace.getBestMatch ds ratio ref query sp g := by
  unfold LocalSpace.getBestMatch
  rw [h.walk hg]
  simp only [h.member]

theorem CopyS.intraGroupKSim [Arith K] (h : CopyS f ds sp sp') (hg : CopyG f ds g g') (A : Algos (Cand K)) [BandOps] (ratio : ℚ) (ref : DistRef)
    (query : List (Dbl K)) (k : Int) :
    LocalSpace.intraGroupKSim A ds ratio ref query k sp' g' = LocalSpace.intraGroupKSim A ds ratio ref query k sp g := by
  unfold LocalSpace.intraGroupKSim
  rw [h.walk hg]
  simp only [h.member]

theorem CopyS.getBestGroup [Arith K] (h : CopyS id ds sp sp') [BandOps] (ratio : ℚ) (ref : DistRef) (query : List (Dbl K)) (b : Dbl K) :
    sp'.getBestGroup ds ratio ref query b = sp.getBestGroup ds ratio ref query b := by
  unfold LocalSpace.getBestGroup
  rw [bestLoop_copy ratio ref query h.groups]

theorem CopyS.getGroup (h : CopyS f ds sp sp') (i : Int) : ResRel (CopyG f ds) (sp.getGroup i) (sp'.getGroup i) := by
  unfold LocalSpace.getGroup
  split
  · exact rfl
  · have := forall₂_get h.groups i.toNat
    generalize sp.groups[i.toNat]? = x at this ⊢
    generalize sp'.groups[i.toNat]? = y at this ⊢
    cases this with
    | none => exact rfl
    | some hg => exact hg

theorem CopyGS.spaceAt (h : CopyGS f ds gs gs') (i : Int) : ResRel (Option.Rel (CopyS f ds)) (gs.spaceAt i) (gs'.spaceAt i) := by
  unfold GSpace.spaceAt
  split
  · exact rfl
  · have := forall₂_get h.spaces i.toNat
    generalize gs.spaces[i.toNat]? = x at this ⊢
    generalize gs'.spaces[i.toNat]? = y at this ⊢
    cases this with
    | none => exact rfl
    | some hg => exact hg

theorem CopyGS.getBestMatch [Arith K] (h : CopyGS id ds gs gs') [BandOps] (ratio : ℚ) (query : List (Dbl K)) :
    gs'.getBestMatch ds ratio query = gs.getBestMatch ds ratio query := by
  symm
  apply ResRel.eq
  unfold GSpace.getBestMatch
  rw [h.warped, ← h.spaces.length_eq]
  split
  · exact rfl
  · cases gs.warped with
    | none => exact rfl
    | some w =>
      refine (ResRel.refl (fun _ => rfl) _).bind ?_
      rintro order _ rfl
      let R : Dbl K × Option (LocalSpace K × ℕ) → Dbl K × Option (LocalSpace K × ℕ) → Prop := fun s t =>
        s.1 = t.1 ∧ Option.Rel (fun a b => CopyS id ds a.1 b.1 ∧ a.2 = b.2) s.2 t.2
      refine (ResRel.foldlM (R := R) ?_ order (.inf, none) (.inf, none) ⟨rfl, .none⟩).bind ?_
      · rintro s t i ⟨h1, h2⟩
        unfold GSpace.bestStep
        refine (h.spaceAt i).bind ?_
        intro a b hab
        cases hab with
        | none => exact ⟨h1, h2⟩
        | some hs =>
          simp only
          rw [hs.getBestGroup, h1]
          refine (ResRel.refl (R := fun a b => a = b) (fun _ => rfl) _).bind ?_
          rintro c _ rfl
          show R _ _
          split
          · refine ⟨rfl, ?_⟩
            cases c.2 with
            | none => exact .none
            | some i => exact .some ⟨hs, rfl⟩
          · exact ⟨h1, h2⟩
      · rintro ⟨s1, s2⟩ ⟨t1, t2⟩ ⟨-, h2⟩
        simp only at h2 ⊢
        cases h2 with
        | none => exact rfl
        | @some a b hab =>
          obtain ⟨a1, a2⟩ := a
          obtain ⟨b1, b2⟩ := b
          obtain ⟨hs, hi⟩ := hab
          simp only at hs hi ⊢
          subst hi
          have := forall₂_get hs.groups a2
          generalize a1.groups[a2]? = x at this ⊢
          generalize b1.groups[a2]? = y at this ⊢
          cases this with
          | none => exact rfl
          | some hg =>
            simp only
            rw [hs.getBestMatch hg]
            exact ResRel.refl (fun _ => rfl) _

theorem CopyS.interLevelKSim [Arith K] (h : CopyS id ds sp sp') (B : Algos (GIdx K)) [BandOps] (ratio : ℚ) (ref : DistRef) (query : List (Dbl K))
    (st : Int × List (GIdx K)) :
    LocalSpace.interLevelKSim B ds ratio ref query st sp' = LocalSpace.interLevelKSim B ds ratio ref query st sp := by
  unfold LocalSpace.interLevelKSim
  rw [h.len]
  have : ∀ (l l' : List (Group K)), List.Forall₂ (CopyG id ds) l l' → ∀ (n : ℕ) (st : Int × List (GIdx K)),
      (l'.zipIdx n).foldlM (fun st g => kSimStep B sp.length (Group.distance ds ratio ref query g.1) g.2 g.1.count st) st =
      (l.zipIdx n).foldlM (fun st g => kSimStep B sp.length (Group.distance ds ratio ref query g.1) g.2 g.1.count st) st := by
    intro l l' hl
    induction hl with
    | nil => intro n st; rfl
    | @cons a b _ _ hg _ ih =>
      intro n st
      rw [List.zipIdx_cons, List.zipIdx_cons, List.foldlM_cons, List.foldlM_cons]
      have hd : Group.distance ds ratio ref query b = Group.distance ds ratio ref query a := by
        funext x
        exact hg.distance ratio ref query x
      simp only [hd, hg.count, ih]
  exact this _ _ h.groups 0 st

theorem CopyGS.groupAt (h : CopyGS f ds gs gs') (i : GIdx K) :
    ResRel (fun a b => CopyS f ds a.1 b.1 ∧ CopyG f ds a.2 b.2) (gs.groupAt i) (gs'.groupAt i) := by
  unfold GSpace.groupAt
  refine (h.spaceAt _).bind ?_
  intro a b hab
  cases hab with
  | none => exact rfl
  | some hs =>
    refine (hs.getGroup _).bind ?_
    intro x y hxy
    exact ⟨hs, hxy⟩

theorem CopyGS.getKBestMatches [Arith K] (h : CopyGS id ds gs gs') (hth : gs'.threshold.isNone = gs.threshold.isNone)
    (A : Algos (Cand K)) (B : Algos (GIdx K)) [BandOps] (ratio : ℚ)
    (query : List (Dbl K)) (k : Int) : gs'.getKBestMatches A B ds ratio query k = gs.getKBestMatches A B ds ratio query k := by
  symm
  apply ResRel.eq
  unfold GSpace.getKBestMatches
  rw [h.warped, ← h.spaces.length_eq]
  cases gs.warped with
  | none => exact rfl
  | some w =>
    refine (ResRel.refl (fun _ => rfl) _).bind ?_
    rintro order _ rfl
    refine (ResRel.foldlM (R := fun a b => a = b) ?_ order (k, []) (k, []) rfl).bind ?_
    · rintro s _ i rfl
      unfold GSpace.kStep
      refine (h.spaceAt i).bind ?_
      intro a b hab
      cases hab with
      | none => exact rfl
      | some hs =>
        simp only
        rw [hs.interLevelKSim]
        exact ResRel.refl (fun _ => rfl) _
    · rintro st _ rfl
      simp only
      cases st.2 with
      | nil => exact ResRel.refl (fun _ => rfl) _
      | cons top rest =>
        refine (h.groupAt top).bind ?_
        rintro a b ⟨hs, hg⟩
        rw [hs.intraGroupKSim hg]
        refine (ResRel.refl (R := fun a b => a = b) (fun _ => rfl) _).bind ?_
        rintro intra _ rfl
        refine ResRel.bind (R := fun a b => a = b) ?_ ?_
        · have : gs.takeAll ds = gs'.takeAll ds := by
            funext r
            apply ResRel.eq
            unfold GSpace.takeAll
            rw [hth]
            refine (h.groupAt r).bind ?_
            rintro a b ⟨hs, hg⟩
            rw [hs.getMembers hg]
            exact ResRel.refl (fun _ => rfl) _
          rw [this]
          exact ResRel.refl (fun _ => rfl) _
        · rintro o _ rfl
          exact ResRel.refl (fun _ => rfl) _

end Genex
