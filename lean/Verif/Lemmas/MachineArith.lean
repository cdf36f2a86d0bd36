import Verif.Lemmas.MachineDist
import Verif.Lemmas.OverflowSet

/-! Grouping and the searches, everything with `int` of 32 bits. -/

set_option linter.unusedSectionVars false

namespace Genex

open Dbl Spec

section
variable {K : Type} [Field K] {ds : Dataset K}

theorem pointsI_points {v : View} {pts : List (Dbl K)} (h : ds.pointsI v = .ok pts) : ds.points v = .ok pts := by
  have key : ∀ (l : List ℕ) (r : List (Dbl K)), l.mapM (fun (i : ℕ) => ds.pointAtI v i) = .ok r → l.mapM (fun (i : ℕ) => ds.pointAt v i) = .ok r := by
    intro l
    induction l with
    | nil => intro r h; exact h
    | cons i l ih =>
      intro r h
      rw [List.mapM_cons] at h ⊢
      simp only [bind, Except.bind, pure, Except.pure] at h ⊢
      have hi : ∀ y, ds.pointAtI v i = .ok y → ds.pointAt v i = .ok y := by
        intro y hy
        unfold Dataset.pointAtI at hy
        unfold Dataset.pointAt
        by_cases hc : (i : Int) < 0 ∨ v.length ≤ i
        · rw [if_pos hc] at hy; cases hy
        · rw [if_neg hc] at hy ⊢
          unfold int32 at hy
          split at hy
          · rw [← hy, Int.add_assoc]; rfl
          · cases hy
      cases h1 : ds.pointAtI v i with
      | error e => rw [h1] at h; cases h
      | ok y =>
        rw [h1] at h
        rw [hi y h1]
        simp only at h ⊢
        cases h2 : l.mapM (fun (i : ℕ) => ds.pointAtI v i) with
        | error e => rw [h2] at h; cases h
        | ok r' =>
          rw [h2] at h
          rw [ih r' h2]
          exact h
  exact key _ _ h

end

variable {K : Type} [Field K] [LinearOrder K] [HasSqrt K] {A₁ A₂ : Arith K} {ds : Dataset K} {ratio : ℚ} {ref : DistRef}
  {D : List (Dbl K) → Prop}

section
variable (hA : Agree A₁ A₂ ratio D ref) (hV : AllIn D ds)
include hA hV

theorem distanceI_congr {q : List (Dbl K)} (hq : D q) {g : Group K} (hg : GroupIn D g) (d : Dbl K) :
    @Group.distanceI K A₁ ds ratio ref q g d = @Group.distanceI K A₂ ds ratio ref q g d := by
  unfold Group.distanceI Group.centroidPtsI
  cases hc : g.centroid with
  | view v =>
    simp only [bind, Except.bind]
    cases hp : ds.pointsI v with
    | error e => rfl
    | ok pts => exact hA _ _ _ (hV v pts (pointsI_points hp)) hq
  | own pts => exact hA _ _ _ (hg pts hc) hq

variable {q : List (Dbl K)} (hq : D q)
include hq

theorem evalAtI_congr (v : View) (d : Dbl K) :
    (do let pts ← ds.pointsI v; A₁.eval ratio ref q pts d : Res (Dbl K)) = (do let pts ← ds.pointsI v; A₂.eval ratio ref q pts d) := by
  simp only [bind, Except.bind]
  cases hp : ds.pointsI v with
  | error e => rfl
  | ok pts => exact hA _ _ _ hq (hV v pts (pointsI_points hp))

theorem bestMemberI_congr (sp : LocalSpace K) (g : Group K) :
    @LocalSpace.getBestMatchI K _ A₁ ds ratio ref q sp g = @LocalSpace.getBestMatchI K _ A₂ ds ratio ref q sp g := by
  unfold LocalSpace.getBestMatchI
  congr 2
  funext st c
  simp only [bind, Except.bind]
  cases sp.memberI ds c with
  | error e => rfl
  | ok v =>
    simp only
    have := evalAtI_congr hA hV hq v st.1
    simp only [bind, Except.bind] at this
    cases hp : ds.pointsI v with
    | error e => rfl
    | ok pts =>
      rw [hp] at this
      simp only at this ⊢
      rw [this]

theorem intraKI_congr (A : Algos (Cand K)) (k : Int) (sp : LocalSpace K) (g : Group K) (extra : Int) :
    @LocalSpace.intraGroupKSimI K _ A₁ A ds ratio ref q k sp g extra = @LocalSpace.intraGroupKSimI K _ A₂ A ds ratio ref q k sp g extra := by
  unfold LocalSpace.intraGroupKSimI
  congr 2
  funext st c
  simp only [bind, Except.bind]
  cases sp.memberI ds c with
  | error e => rfl
  | ok v =>
    simp only
    cases int32 (st.1 + 1) with
    | error e => rfl
    | ok x =>
      simp only
      have := topKStep_congr A (fun d => evalAtI_congr hA hV hq v d) v st.2
      simp only [bind, Except.bind] at this
      rw [this]

theorem spaceAt_in {gs : GSpace K} (hgs : GSpaceIn D gs) {i : Int} {sp : LocalSpace K} (hs : gs.spaceAt i = .ok (some sp)) : SpaceIn D sp := by
  apply hgs
  unfold GSpace.spaceAt at hs
  split at hs
  · cases hs
  · split at hs
    · rename_i h; cases hs; exact List.mem_of_getElem? h
    · cases hs

theorem bestStepI_congr {gs : GSpace K} (hgs : GSpaceIn D gs) (st : Dbl K × Option (LocalSpace K × ℕ)) (i : Int) :
    @GSpace.bestStepI K _ A₁ ds ratio ref q gs st i = @GSpace.bestStepI K _ A₂ ds ratio ref q gs st i := by
  unfold GSpace.bestStepI
  simp only [bind, Except.bind]
  cases hs : gs.spaceAt i with
  | error e => rfl
  | ok s =>
    cases s with
    | none => rfl
    | some sp =>
      simp only
      have hin := spaceAt_in hA hV hq hgs hs
      unfold LocalSpace.getBestGroupI
      rw [bestLoop_congr (f := @Group.distanceI K A₁ ds ratio ref q) (g := @Group.distanceI K A₂ ds ratio ref q)
        sp.groups 0 _ (fun g hg d => distanceI_congr hA hV hq (hin g hg) d)]

theorem kStepI_congr (B : Algos (GIdx K)) {gs : GSpace K} (hgs : GSpaceIn D gs) (st : Int × List (GIdx K)) (i : Int) :
    @GSpace.kStepI K _ A₁ B ds ratio ref q gs st i = @GSpace.kStepI K _ A₂ B ds ratio ref q gs st i := by
  unfold GSpace.kStepI
  simp only [bind, Except.bind]
  cases hs : gs.spaceAt i with
  | error e => rfl
  | ok s =>
    cases s with
    | none => rfl
    | some sp =>
      simp only
      have hin := spaceAt_in hA hV hq hgs hs
      unfold LocalSpace.interLevelKSimI
      refine foldlM_congr' _ (fun g hg st => ?_) st
      have hg' : g.1 ∈ sp.groups := by
        obtain ⟨x, i⟩ := g
        exact List.mem_of_getElem? (List.mem_zipIdx_iff_getElem?.1 hg)
      rw [funext (fun d => distanceI_congr hA hV hq (hin g.1 hg') d)]

end

theorem bestI_congr [BandOps] (hV : AllIn D ds) {q : List (Dbl K)} (hq : D q) {gs : GSpace K} (hgs : GSpaceIn D gs)
    (hA : ∀ w, gs.warped = some w → Agree A₁ A₂ ratio D w) :
    @GSpace.getBestMatchI K _ A₁ ds _ ratio gs q = @GSpace.getBestMatchI K _ A₂ ds _ ratio gs q := by
  unfold GSpace.getBestMatchI
  split
  · rfl
  · cases hw : gs.warped with
    | none => rfl
    | some w =>
      have hA := hA w hw
      simp only
      rw [show @GSpace.bestStepI K _ A₁ ds ratio w q gs = @GSpace.bestStepI K _ A₂ ds ratio w q gs from
        funext fun st => funext fun i => bestStepI_congr hA hV hq hgs st i,
        show @LocalSpace.getBestMatchI K _ A₁ ds ratio w q = @LocalSpace.getBestMatchI K _ A₂ ds ratio w q from
        funext fun sp => funext fun g => bestMemberI_congr hA hV hq sp g]

theorem kbestI_congr [BandOps] (A : Algos (Cand K)) (B : Algos (GIdx K)) (hV : AllIn D ds) {q : List (Dbl K)} (hq : D q) {gs : GSpace K}
    (hgs : GSpaceIn D gs) (hA : ∀ w, gs.warped = some w → Agree A₁ A₂ ratio D w) (k extra : Int) :
    @GSpace.getKBestMatchesI K _ A₁ A B ds _ ratio gs q k extra = @GSpace.getKBestMatchesI K _ A₂ A B ds _ ratio gs q k extra := by
  unfold GSpace.getKBestMatchesI
  cases hw : gs.warped with
  | none => rfl
  | some w =>
    have hA := hA w hw
    simp only
    rw [show @GSpace.kStepI K _ A₁ B ds ratio w q gs = @GSpace.kStepI K _ A₂ B ds ratio w q gs from
      funext fun st => funext fun i => kStepI_congr hA hV hq B hgs st i,
      show @GSpace.takeTopI K _ A₁ A ds ratio w q gs = @GSpace.takeTopI K _ A₂ A ds ratio w q gs from by
        funext k top extra
        unfold GSpace.takeTopI
        simp only [intraKI_congr hA hV hq],
      show (fun v => (do let pts ← ds.pointsI v; let d ← A₁.eval ratio w q pts .inf; .ok ⟨v, d⟩ : Res (Cand K))) =
        (fun v => (do let pts ← ds.pointsI v; let d ← A₂.eval ratio w q pts .inf; .ok ⟨v, d⟩ : Res (Cand K))) from funext fun v => by
          simp only [bind, Except.bind]
          cases hp : ds.pointsI v with
          | error e => rfl
          | ok pts => simp only; rw [hA _ _ _ hq (hV v pts (pointsI_points hp))]]

theorem sessionI_congr [BandOps] (A : Algos (Cand K)) (B : Algos (GIdx K)) {z : GSet K} (hV : AllIn D z.ds)
    (hgs : ∀ gs, z.groups = some gs → GSpaceIn D gs ∧ ∀ w, gs.warped = some w → Agree A₁ A₂ ratio D w) :
    ∀ (calls : List (List (Dbl K) × Int × Int)), (∀ c ∈ calls, D c.1) → ∀ extra : Int,
    @GSet.sessionI K _ A₁ A B _ ratio z calls extra = @GSet.sessionI K _ A₂ A B _ ratio z calls extra
  | [], _, _ => rfl
  | c :: cs, hc, extra => by
    have h1 : @GSet.getKBestMatchesI K _ A₁ A B _ ratio z c.1 c.2.1 c.2.2 extra =
        @GSet.getKBestMatchesI K _ A₂ A B _ ratio z c.1 c.2.1 c.2.2 extra := by
      unfold GSet.getKBestMatchesI
      cases hg : z.groups with
      | none => rfl
      | some gs =>
        obtain ⟨g1, g2⟩ := hgs gs hg
        simp only
        rw [kbestI_congr A B hV (hc c (by simp)) g1 g2]
    unfold GSet.sessionI
    simp only [bind, Except.bind]
    rw [h1]
    cases @GSet.getKBestMatchesI K _ A₂ A B _ ratio z c.1 c.2.1 c.2.2 extra with
    | error e => rfl
    | ok r =>
      simp only
      rw [sessionI_congr A B hV hgs cs (fun x hx => hc x (by simp [hx]))]

/-! ### The arithmetic of the machine -/

section
variable [BandOps] (r : Dbl K → Dbl K)

theorem machine_evals : @PairwiseEvals K _ _ _ (machineArith r) := @PairwiseEvals.mk K _ _ _ (machineArith r) (by
  intro ratio m x y h d
  change ∃ v, pairwiseDistance (m.dmW r) x y d = .ok v
  unfold pairwiseDistance
  rw [if_neg (by simp [h])]
  exact ⟨_, rfl⟩)

theorem overflow_evals : @PairwiseEvals K _ _ _ (overflowArith r) := @PairwiseEvals.mk K _ _ _ (overflowArith r) (by
  intro ratio m x y h d
  change ∃ v, pairwiseDistance (m.dmW r) x y d = .ok v
  unfold pairwiseDistance
  rw [if_neg (by simp [h])]
  exact ⟨_, rfl⟩)

/-- Grouping uses pairwise distances, which have no `int` arithmetic. -/
theorem group_machine (ratio : ℚ) (log : ℕ → Bool) (m : Metric) (t : Dbl K) (whole : Bool) (gs : GSpace K) :
    @GSpace.group K _ _ (machineArith r) ds ratio log (Props.metricName m) t whole gs =
      @GSpace.group K _ _ (overflowArith r) ds ratio log (Props.metricName m) t whole gs := by
  refine (group_congr (D := fun _ => True) (fun _ _ _ => trivial) (fun p hp => ?_) log t whole gs).1
  rw [lookup_pairwise] at hp
  cases hp
  intro a b d _ _
  rfl

variable [IsStrictOrderedRing K] {rows : List (List (Dbl K))} {name : String} {t : Dbl K} {whole : Bool} {z : GSet K}

omit [BandOps] in
/-- Groups of an object that is ready have their centroids in the data. -/
theorem ready_in [Arith K] [PairwiseEvals K] (hz : Ready rows name t whole z) (D : List (Dbl K) → Prop) : ∃ m gs, name = Props.metricName m ∧ z.groups = some gs ∧
    GSpaceIn D gs ∧ gs.warped = some (warpedOf m) := by
  obtain ⟨H, hmax, hpos, m, gs, SP, ABS, hname, hgs, U⟩ := hz.usable
  refine ⟨m, gs, hname, hgs, ?_, U.warped⟩
  intro sp hsp g hg pts hpts
  exfalso
  obtain ⟨ℓ, hℓ⟩ := List.mem_iff_getElem?.1 hsp
  have hlt := (List.getElem?_eq_some_iff.1 hℓ).1
  have hsize := U.spaces.size
  by_cases hd : InRange z.ds.maxCol whole ℓ
  · rw [U.spaces.on ℓ hd] at hℓ
    cases hℓ
    obtain ⟨n, hn, R⟩ := U.spaces.rep ℓ hd
    obtain ⟨j, hj⟩ := List.mem_iff_getElem?.1 hg
    have hj' := (List.getElem?_eq_some_iff.1 hj).1
    rw [R.num] at hj'
    have := (R.grp j g _ hj (List.getElem?_eq_getElem hj')).centroid
    rw [hpts] at this
    cases this
  · rw [U.spaces.off ℓ (by omega) hd] at hℓ
    cases hℓ

end

end Genex
