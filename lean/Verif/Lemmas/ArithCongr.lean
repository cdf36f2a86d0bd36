import Verif.Lemmas.GroupDist

/-! Grouping and the searches depend only on the distances of the series they compare (lemmas for C87). -/

set_option linter.unusedSectionVars false

namespace Genex

open Dbl Spec

variable {K : Type} [Field K] [LinearOrder K] [HasSqrt K] {A₁ A₂ : Arith K} {ds : Dataset K} {ratio : ℚ} {ref : DistRef}
  {D : List (Dbl K) → Prop}

/-- The two ways to compute agree on the series in `D`. -/
def Agree (A₁ A₂ : Arith K) (ratio : ℚ) (D : List (Dbl K) → Prop) (ref : DistRef) : Prop :=
  ∀ a b d, D a → D b → A₁.eval ratio ref a b d = A₂.eval ratio ref a b d

/-- All series of the dataset are in `D`. -/
def AllIn (D : List (Dbl K) → Prop) (ds : Dataset K) : Prop := ∀ v pts, ds.points v = .ok pts → D pts

def GroupIn (D : List (Dbl K) → Prop) (g : Group K) : Prop := ∀ pts, g.centroid = .own pts → D pts

def SpaceIn (D : List (Dbl K) → Prop) (sp : LocalSpace K) : Prop := ∀ g ∈ sp.groups, GroupIn D g

def GSpaceIn (D : List (Dbl K) → Prop) (gs : GSpace K) : Prop := ∀ sp, some sp ∈ gs.spaces → SpaceIn D sp

theorem foldlM_congr' {σ ι : Type} {f g : σ → ι → Res σ} (l : List ι) (h : ∀ i ∈ l, ∀ s, f s i = g s i) (s : σ) :
    l.foldlM f s = l.foldlM g s := by
  induction l generalizing s with
  | nil => rfl
  | cons i l ih =>
    rw [List.foldlM_cons, List.foldlM_cons, h i (by simp) s]
    cases g s i with
    | error e => rfl
    | ok s' => exact ih (fun j hj => h j (by simp [hj])) s'

theorem mapM_congr' {ι κ : Type} {f g : ι → Res κ} (l : List ι) (h : ∀ i ∈ l, f i = g i) : l.mapM f = l.mapM g := by
  induction l with
  | nil => rfl
  | cons i l ih => rw [List.mapM_cons, List.mapM_cons, h i (by simp), ih (fun j hj => h j (by simp [hj]))]

theorem bestLoop_congr {f g : Group K → Dbl K → Res (Dbl K)} : ∀ (gs : List (Group K)) (i : ℕ) (best : Dbl K × Option ℕ),
    (∀ x ∈ gs, ∀ d, f x d = g x d) → bestLoop f gs i best = bestLoop g gs i best
  | [], _, _, _ => rfl
  | x :: gs, i, best, h => by
    simp only [bestLoop, bind, Except.bind]
    rw [h x (by simp)]
    cases g x best.1 with
    | error e => rfl
    | ok d => exact bestLoop_congr gs _ _ (fun y hy => h y (by simp [hy]))

theorem topKStep_congr (A : Algos (Cand K)) {f g : Dbl K → Res (Dbl K)} (h : ∀ d, f d = g d) (v : View) (st : Int × List (Cand K)) :
    topKStep A f v st = topKStep A g v st := by
  rw [funext h]

theorem loopS_congr {σ ι : Type} {f g : σ → ι → Res σ} {P : σ → Prop} (hfg : ∀ s i, P s → f s i = g s i)
    (hP : ∀ s i s', P s → f s i = .ok s' → P s') : ∀ (l : List ι) (s : σ), P s → loopS f l s = loopS g l s ∧ P (loopS f l s).1
  | [], s, hs => ⟨rfl, hs⟩
  | i :: l, s, hs => by
    have h1 := hfg s i hs
    have h2 := hP s i
    simp only [loopS]
    rw [← h1]
    cases hf : f s i with
    | error e => exact ⟨rfl, hs⟩
    | ok s' => exact loopS_congr hfg hP l s' (h2 s' hs hf)

section
variable (hA : Agree A₁ A₂ ratio D ref) (hV : AllIn D ds)
include hA hV

theorem distance_congr {q : List (Dbl K)} (hq : D q) {g : Group K} (hg : GroupIn D g) (d : Dbl K) :
    @Group.distance K A₁ ds ratio ref q g d = @Group.distance K A₂ ds ratio ref q g d := by
  unfold Group.distance Group.centroidPts
  cases hc : g.centroid with
  | view v =>
    simp only [bind, Except.bind]
    cases hp : ds.points v with
    | error e => rfl
    | ok pts => exact hA _ _ _ (hV v pts hp) hq
  | own pts => exact hA _ _ _ (hg pts hc) hq

theorem insert_congr {t : Dbl K} {sp : LocalSpace K} (hsp : SpaceIn D sp) (c : Int × Int) :
    @LocalSpace.insert K _ _ A₁ ds ratio ref t sp c = @LocalSpace.insert K _ _ A₂ ds ratio ref t sp c := by
  unfold LocalSpace.insert
  simp only [bind, Except.bind]
  cases ds.getTimeSeries c.1 c.2 (c.2 + sp.length) with
  | error e => rfl
  | ok v =>
    simp only
    cases hp : ds.points v with
    | error e => rfl
    | ok q =>
      simp only
      rw [bestLoop_congr (f := @Group.distance K A₁ ds ratio ref q) (g := @Group.distance K A₂ ds ratio ref q)
        sp.groups 0 (.inf, none) (fun g hg d => distance_congr hA hV (hV v q hp) (hsp g hg) d)]

omit hA hV in
theorem addMember_in {sp sp' : LocalSpace K} (hsp : SpaceIn D sp) {gi : ℕ} {c : Int × Int} (h : sp.addMember gi c = .ok sp') :
    SpaceIn D sp' := by
  unfold LocalSpace.addMember at h
  cases hg : sp.groups[gi]? with
  | none => rw [hg] at h; cases h
  | some g =>
    rw [hg] at h
    simp only [bind, Except.bind] at h
    cases hc : sp.cell c with
    | error e => rw [hc] at h; cases h
    | ok m =>
      rw [hc] at h
      simp only [Except.ok.injEq] at h
      subst h
      intro g' hg'
      simp only at hg'
      rcases List.mem_or_eq_of_mem_set hg' with h' | rfl
      · exact hsp g' h'
      · exact fun pts hpts => hsp g (List.mem_of_getElem? hg) pts hpts

omit hA hV in
theorem insert_in [Arith K] {t : Dbl K} {sp sp' : LocalSpace K} (hsp : SpaceIn D sp) {c : Int × Int}
    (h : LocalSpace.insert ds ratio ref t sp c = .ok sp') : SpaceIn D sp' := by
  unfold LocalSpace.insert at h
  simp only [bind, Except.bind] at h
  split at h
  · cases h
  split at h
  · cases h
  split at h
  · cases h
  split at h
  · unfold LocalSpace.pushGroup at h
    simp only [bind, Except.bind] at h
    split at h
    · cases h
    · rename_i sp1 h1
      split at h1
      · cases h1
      · simp only [Except.ok.injEq] at h1
        subst h1
        refine addMember_in (fun g hg => ?_) h
        simp only [List.mem_append, List.mem_singleton] at hg
        rcases hg with hg | rfl
        · exact hsp g hg
        · intro pts hpts; cases hpts
  · split at h
    · cases h
    · exact addMember_in hsp h

theorem groupStep_congr {t : Dbl K} (log : Bool) {sp : LocalSpace K} (hsp : SpaceIn D sp) (c : ℕ × ℕ) :
    @LocalSpace.groupStep K _ _ A₁ ds ratio ref t log sp c = @LocalSpace.groupStep K _ _ A₂ ds ratio ref t log sp c := by
  unfold LocalSpace.groupStep
  split
  · rfl
  · simp only [bind, Except.bind]
    cases ds.getItemLength c.1 with
    | error e => rfl
    | ok len =>
      simp only
      split
      · rfl
      · exact insert_congr hA hV hsp _

omit hA hV in
theorem groupStep_in [Arith K] {t : Dbl K} {log : Bool} {sp sp' : LocalSpace K} (hsp : SpaceIn D sp) {c : ℕ × ℕ}
    (h : LocalSpace.groupStep ds ratio ref t log sp c = .ok sp') : SpaceIn D sp' := by
  unfold LocalSpace.groupStep at h
  split at h
  · cases h
  · simp only [bind, Except.bind] at h
    split at h
    · cases h
    · split at h
      · cases h; exact hsp
      · exact insert_in hsp h

theorem generateGroups_congr {t : Dbl K} (log : Bool) {sp : LocalSpace K} (hsp : SpaceIn D sp) :
    @LocalSpace.generateGroups K _ _ A₁ ds ratio ref t log sp = @LocalSpace.generateGroups K _ _ A₂ ds ratio ref t log sp ∧
      SpaceIn D (@LocalSpace.generateGroups K _ _ A₁ ds ratio ref t log sp).1 := by
  have := loopS_congr (P := SpaceIn D) (f := @LocalSpace.groupStep K _ _ A₁ ds ratio ref t log)
    (g := @LocalSpace.groupStep K _ _ A₂ ds ratio ref t log) (fun s i hs => groupStep_congr hA hV log hs i)
    (fun s i s' hs h => @groupStep_in K _ _ _ ds ratio ref D A₁ t log s s' hs i h) (sp.coords ds) sp hsp
  unfold LocalSpace.generateGroups
  simp only
  rw [← this.1]
  exact ⟨rfl, this.2⟩

theorem groupLength_congr (log : ℕ → Bool) (t : Dbl K) (i : ℕ) :
    @GSpace.groupLength K _ _ A₁ ds ratio log ref t i = @GSpace.groupLength K _ _ A₂ ds ratio log ref t i ∧
      ∀ sp, (@GSpace.groupLength K _ _ A₁ ds ratio log ref t i).1 = some sp → SpaceIn D sp := by
  unfold GSpace.groupLength
  cases hn : LocalSpace.new ds i with
  | error e => exact ⟨rfl, fun sp h => by cases h⟩
  | ok sp =>
    have hsp : SpaceIn D sp := by
      unfold LocalSpace.new at hn
      simp only at hn
      split at hn
      · cases hn
      · cases hn; intro g hg; cases hg
    have := generateGroups_congr hA hV (t := t) (log i) hsp
    simp only
    rw [← this.1]
    refine ⟨rfl, fun sp' h => ?_⟩
    simp only [Option.some.injEq] at h
    subst h
    exact this.2

end

theorem groupLoop_in {f : ℕ → Option (LocalSpace K) × Res ℕ} (hf : ∀ i sp, (f i).1 = some sp → SpaceIn D sp) :
    ∀ (l : List ℕ) (gs : GSpace K), GSpaceIn D gs → GSpaceIn D (GSpace.groupLoop f l gs).1
  | [], gs, h => h
  | i :: l, gs, h => by
    have h1 : GSpaceIn D { gs with spaces := gs.spaces.set i (f i).1 } := by
      intro sp hsp
      rcases List.mem_or_eq_of_mem_set hsp with h' | h'
      · exact h sp h'
      · exact hf i sp h'.symm
    simp only [GSpace.groupLoop]
    cases (f i).2 with
    | error e => exact h1
    | ok n => exact groupLoop_in hf l _ h1

theorem prepare_spec {name : String} {t : Dbl K} {whole : Bool} {gs : GSpace K} :
    GSpaceIn D (gs.prepare ds name t whole).1 ∧
      ∀ p, (gs.prepare ds name t whole).2 = .ok p → getDistanceFromName name = .ok p := by
  unfold GSpace.prepare
  simp only
  have hspaces : ∀ (g : GSpace K), (g.loadDistance name).1.spaces = g.spaces := by
    intro g
    unfold GSpace.loadDistance
    simp only
    split
    · rfl
    · split
      · rfl
      · split <;> rfl
  have hpair : ∀ (g : GSpace K) u, (g.loadDistance name).2 = .ok u → ∃ p, getDistanceFromName name = .ok p ∧
      (g.loadDistance name).1.pairwise = some p := by
    intro g u
    unfold GSpace.loadDistance
    simp only
    split
    · intro h; cases h
    · rename_i p hp
      split
      · intro _; exact ⟨p, hp, rfl⟩
      · split
        · intro h; cases h
        · intro _; exact ⟨p, hp, rfl⟩
  split
  · refine ⟨?_, fun p h => by cases h⟩
    intro sp hsp
    rw [hspaces] at hsp
    cases hsp
  · rename_i u hu
    obtain ⟨p, hp, hpp⟩ := hpair _ _ hu
    have hrep : ∀ (sp : LocalSpace K) n, some sp ∉ List.replicate n none := by
      intro sp n h
      have := List.eq_of_mem_replicate h
      cases this
    split
    · refine ⟨?_, fun p h => by cases h⟩
      intro sp hsp
      rw [hspaces] at hsp
      cases hsp
    · rw [hpp]
      refine ⟨fun sp hsp => (hrep sp _ hsp).elim, ?_⟩
      intro p' h
      cases h
      exact hp

theorem group_congr (hV : AllIn D ds) {name : String} (hA : ∀ p, getDistanceFromName name = .ok p → Agree A₁ A₂ ratio D p)
    (log : ℕ → Bool) (t : Dbl K) (whole : Bool) (gs : GSpace K) :
    @GSpace.group K _ _ A₁ ds ratio log name t whole gs = @GSpace.group K _ _ A₂ ds ratio log name t whole gs ∧
      GSpaceIn D (@GSpace.group K _ _ A₁ ds ratio log name t whole gs).1 := by
  obtain ⟨h1, h2⟩ := prepare_spec (D := D) (ds := ds) (name := name) (t := t) (whole := whole) (gs := gs)
  unfold GSpace.group
  simp only
  cases hp : (gs.prepare ds name t whole).2 with
  | error e => exact ⟨rfl, h1⟩
  | ok p =>
    simp only
    have hf := groupLength_congr (hA p (h2 p hp)) hV log t
    have he : @GSpace.groupLength K _ _ A₁ ds ratio log p t = @GSpace.groupLength K _ _ A₂ ds ratio log p t :=
      funext (fun i => (hf i).1)
    rw [← he]
    exact ⟨rfl, groupLoop_in (fun i => (hf i).2) _ _ h1⟩

/-! ## Searches -/

section
variable (hA : Agree A₁ A₂ ratio D ref) (hV : AllIn D ds) {q : List (Dbl K)} (hq : D q)
include hA hV hq

theorem evalAt_congr (v : View) (d : Dbl K) :
    (do let pts ← ds.points v; A₁.eval ratio ref q pts d : Res (Dbl K)) = (do let pts ← ds.points v; A₂.eval ratio ref q pts d) := by
  simp only [bind, Except.bind]
  cases hp : ds.points v with
  | error e => rfl
  | ok pts => exact hA _ _ _ hq (hV v pts hp)

theorem bestMember_congr (sp : LocalSpace K) (g : Group K) :
    @LocalSpace.getBestMatch K _ A₁ ds ratio ref q sp g = @LocalSpace.getBestMatch K _ A₂ ds ratio ref q sp g := by
  unfold LocalSpace.getBestMatch
  congr 2
  funext st c
  simp only [bind, Except.bind]
  cases sp.member ds c with
  | error e => rfl
  | ok v =>
    simp only
    have := evalAt_congr hA hV hq v st.1
    simp only [bind, Except.bind] at this
    cases hp : ds.points v with
    | error e => rfl
    | ok pts =>
      rw [hp] at this
      simp only at this ⊢
      rw [this]

theorem intraK_congr (A : Algos (Cand K)) (k : Int) (sp : LocalSpace K) (g : Group K) :
    @LocalSpace.intraGroupKSim K _ A₁ A ds ratio ref q k sp g = @LocalSpace.intraGroupKSim K _ A₂ A ds ratio ref q k sp g := by
  unfold LocalSpace.intraGroupKSim
  congr 2
  funext st c
  simp only [bind, Except.bind]
  cases sp.member ds c with
  | error e => rfl
  | ok v =>
    refine topKStep_congr A (fun d => ?_) v st
    exact evalAt_congr hA hV hq v d

theorem bestStep_congr {gs : GSpace K} (hgs : GSpaceIn D gs) (st : Dbl K × Option (LocalSpace K × ℕ)) (i : Int) :
    @GSpace.bestStep K _ A₁ ds ratio ref q gs st i = @GSpace.bestStep K _ A₂ ds ratio ref q gs st i := by
  unfold GSpace.bestStep
  simp only [bind, Except.bind]
  cases hs : gs.spaceAt i with
  | error e => rfl
  | ok s =>
    cases s with
    | none => rfl
    | some sp =>
      simp only
      have hin : SpaceIn D sp := by
        apply hgs
        unfold GSpace.spaceAt at hs
        split at hs
        · cases hs
        · split at hs
          · rename_i h; cases hs; exact List.mem_of_getElem? h
          · cases hs
      unfold LocalSpace.getBestGroup
      rw [bestLoop_congr (f := @Group.distance K A₁ ds ratio ref q) (g := @Group.distance K A₂ ds ratio ref q)
        sp.groups 0 _ (fun g hg d => distance_congr hA hV hq (hin g hg) d)]

theorem kStep_congr (B : Algos (GIdx K)) {gs : GSpace K} (hgs : GSpaceIn D gs) (st : Int × List (GIdx K)) (i : Int) :
    @GSpace.kStep K _ A₁ B ds ratio ref q gs st i = @GSpace.kStep K _ A₂ B ds ratio ref q gs st i := by
  unfold GSpace.kStep
  simp only [bind, Except.bind]
  cases hs : gs.spaceAt i with
  | error e => rfl
  | ok s =>
    cases s with
    | none => rfl
    | some sp =>
      simp only
      have hin : SpaceIn D sp := by
        apply hgs
        unfold GSpace.spaceAt at hs
        split at hs
        · cases hs
        · split at hs
          · rename_i h; cases hs; exact List.mem_of_getElem? h
          · cases hs
      unfold LocalSpace.interLevelKSim
      refine foldlM_congr' _ (fun g hg st => ?_) st
      have hg' : g.1 ∈ sp.groups := by
        obtain ⟨x, i⟩ := g
        exact List.mem_of_getElem? (List.mem_zipIdx_iff_getElem?.1 hg)
      rw [funext (fun d => distance_congr hA hV hq (hin g.1 hg') d)]

end

theorem best_congr [BandOps] (hV : AllIn D ds) {q : List (Dbl K)} (hq : D q) {gs : GSpace K} (hgs : GSpaceIn D gs)
    (hA : ∀ w, gs.warped = some w → Agree A₁ A₂ ratio D w) :
    @GSpace.getBestMatch K _ A₁ ds _ ratio gs q = @GSpace.getBestMatch K _ A₂ ds _ ratio gs q := by
  unfold GSpace.getBestMatch
  split
  · rfl
  · cases hw : gs.warped with
    | none => rfl
    | some w =>
      have hA := hA w hw
      simp only
      rw [show @GSpace.bestStep K _ A₁ ds ratio w q gs = @GSpace.bestStep K _ A₂ ds ratio w q gs from
        funext fun st => funext fun i => bestStep_congr hA hV hq hgs st i,
        show @LocalSpace.getBestMatch K _ A₁ ds ratio w q = @LocalSpace.getBestMatch K _ A₂ ds ratio w q from
        funext fun sp => funext fun g => bestMember_congr hA hV hq sp g]

theorem kbest_congr [BandOps] (A : Algos (Cand K)) (B : Algos (GIdx K)) (hV : AllIn D ds) {q : List (Dbl K)} (hq : D q) {gs : GSpace K}
    (hgs : GSpaceIn D gs) (hA : ∀ w, gs.warped = some w → Agree A₁ A₂ ratio D w) (k : Int) :
    @GSpace.getKBestMatches K _ A₁ A B ds _ ratio gs q k = @GSpace.getKBestMatches K _ A₂ A B ds _ ratio gs q k := by
  unfold GSpace.getKBestMatches
  cases hw : gs.warped with
  | none => rfl
  | some w =>
    have hA := hA w hw
    simp only
    rw [show @GSpace.kStep K _ A₁ B ds ratio w q gs = @GSpace.kStep K _ A₂ B ds ratio w q gs from
      funext fun st => funext fun i => kStep_congr hA hV hq B hgs st i,
      show @LocalSpace.intraGroupKSim K _ A₁ A ds ratio w q = @LocalSpace.intraGroupKSim K _ A₂ A ds ratio w q from
      funext fun k => funext fun sp => funext fun g => intraK_congr hA hV hq A k sp g,
      show (fun v => (do let pts ← ds.points v; let d ← A₁.eval ratio w q pts .inf; .ok ⟨v, d⟩ : Res (Cand K))) =
        (fun v => (do let pts ← ds.points v; let d ← A₂.eval ratio w q pts .inf; .ok ⟨v, d⟩ : Res (Cand K))) from funext fun v => by
          simp only [bind, Except.bind]
          cases hp : ds.points v with
          | error e => rfl
          | ok pts => simp only; rw [hA _ _ _ hq (hV v pts hp)]]

theorem bruteForce_congr (A : Algos (Cand K)) (hV : AllIn D ds) {q : List (Dbl K)} (hq : D q) {name : String}
    (hA : ∀ p, getDistanceFromName (name ++ "_dtw") = .ok p → Agree A₁ A₂ ratio D p) (k : Int) :
    @bruteForce K _ A₁ A ratio ds q k name = @bruteForce K _ A₂ A ratio ds q k name := by
  unfold bruteForce
  split
  · rfl
  · simp only [bind, Except.bind]
    cases hd : getDistanceFromName (name ++ "_dtw") with
    | error e => rfl
    | ok w =>
      simp only
      cases ds.bruteCoords with
      | error e => rfl
      | ok coords =>
        simp only
        have := foldlM_congr' (f := fun st (c : ℕ × ℕ × ℕ) => do
            let v ← ds.getTimeSeries c.1 c.2.1 c.2.2
            topKStep A (fun bound => do let pts ← ds.points v; A₁.eval ratio w q pts bound) v st)
          (g := fun st (c : ℕ × ℕ × ℕ) => do
            let v ← ds.getTimeSeries c.1 c.2.1 c.2.2
            topKStep A (fun bound => do let pts ← ds.points v; A₂.eval ratio w q pts bound) v st) coords (fun c _ st => by
              simp only [bind, Except.bind]
              cases ds.getTimeSeries c.1 c.2.1 c.2.2 with
              | error e => rfl
              | ok v => exact topKStep_congr A (fun d => evalAt_congr (hA w hd) hV hq v d) v st) (k, [])
        simp only [bind, Except.bind] at this
        rw [this]

theorem groupLoop_warped (f : ℕ → Option (LocalSpace K) × Res ℕ) : ∀ (l : List ℕ) (gs : GSpace K),
    (GSpace.groupLoop f l gs).1.warped = gs.warped
  | [], _ => rfl
  | i :: l, gs => by
    simp only [GSpace.groupLoop]
    cases (f i).2 with
    | error e => rfl
    | ok n => exact groupLoop_warped f l _

/-- Whatever the number of threads. -/
theorem groupAll_congr {s : GSet K} (hV : AllIn D s.ds) {name : String} (hA : ∀ p, getDistanceFromName name = .ok p → Agree A₁ A₂ ratio D p)
    {log : ℕ → Bool} {t : Dbl K} {whole : Bool} {numThreads : Int} {out : GSet K × Res Int}
    (ho : @GSet.GroupAll K _ _ A₁ ratio log name t whole numThreads s out) {N : Int} (hN : out.2 = .ok N) :
    @GSet.GroupAll K _ _ A₂ ratio log name t whole numThreads s out ∧ ∃ gs, out.1.groups = some gs ∧ out.1.ds = s.ds ∧ GSpaceIn D gs ∧
      gs = (@GSpace.group K _ _ A₁ s.ds ratio log name t whole GSpace.fresh).1 := by
  obtain ⟨he, hin⟩ := group_congr hV hA log t whole GSpace.fresh
  obtain ⟨multi, hm, rfl⟩ := ho
  unfold GSet.groupAllLengths at hN ⊢
  cases hd : s.ds.data with
  | none => rw [hd] at hN; cases hN
  | some buf =>
    rw [hd] at hN
    simp only at hN ⊢
    by_cases h1 : numThreads = 1
    · rw [if_pos h1] at hN ⊢
      refine ⟨⟨multi, fun h => by omega, ?_⟩, _, rfl, rfl, hin, rfl⟩
      unfold GSet.groupAllLengths
      rw [hd]
      simp only
      rw [if_pos h1, he]
    · rw [if_neg h1] at hN ⊢
      by_cases h2 : 1 < numThreads
      · rw [if_pos h2] at hN ⊢
        have hm := hm h2
        have hn : 1 ≤ numThreads.toNat := by omega
        have hres := @multi_res K _ _ _ A₁ _ _ _ _ _ _ hn _ _ _ hm
        simp only at hN
        rw [hN] at hres
        rcases hres with hres | ⟨_, hres, -⟩
        case inr => cases hres
        have hg : @GSpace.group K _ _ A₁ s.ds ratio log name t whole GSpace.fresh =
            ((@GSpace.group K _ _ A₁ s.ds ratio log name t whole GSpace.fresh).1, .ok N) := by rw [hres]
        have e1 := @multi_eq K _ _ _ A₁ _ _ _ log _ _ _ hn _ _ _ _ hg (fun i _ => Or.inl rfl) _ hm
        have hex := @groupAll_exists K _ _ _ A₂ s ratio log name t whole numThreads
        obtain ⟨out', multi', hm', -⟩ := hex
        have e2 := @multi_eq K _ _ _ A₂ _ _ _ log _ _ _ hn _ _ _ _ (he ▸ hg) (fun i _ => Or.inl rfl) _ (hm' h2)
        subst e1
        refine ⟨⟨multi', hm', ?_⟩, _, rfl, rfl, hin, rfl⟩
        unfold GSet.groupAllLengths
        rw [hd]
        simp only
        rw [if_neg h1, if_pos h2, e2, he]
      · rw [if_neg h2] at hN; cases hN

end Genex
