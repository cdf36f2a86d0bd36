import Verif.Spec.CachedSearch

/-!
# Searches with kept envelopes agree with searches without
-/

set_option linter.unusedSectionVars false

namespace Genex

open Dbl

variable {K : Type} [Field K] [LinearOrder K] [HasSqrt K]

/-- A kept envelope is that of the points. -/
def Right (pts : List (Dbl K)) (c : EnvCache K) : Prop := ∀ w e, c = some (w, e) → keoghLU pts w = .ok e

theorem right_none (pts : List (Dbl K)) : Right pts none := by intro w e h; cases h

/-- Same value or same failure, and `P` of what is kept. -/
def Agrees {α β : Type} (P : β → Prop) (x : Res (α × β)) (y : Res α) : Prop :=
  match x with
  | .ok r => y = .ok r.1 ∧ P r.2
  | .error e => y = .error e

theorem getEnv_agrees (pts : List (Dbl K)) (wb : Int) (c : EnvCache K) (h : Right pts c) :
    Agrees (Right pts) (getEnv pts wb c) (keoghLU pts wb) := by
  have new : Agrees (Right pts) ((keoghLU pts wb).map (fun e => (e, some (wb, e)))) (keoghLU pts wb) := by
    cases hk : keoghLU pts wb with
    | error e => rfl
    | ok e =>
      refine ⟨rfl, ?_⟩
      intro w e' he
      simp only [Option.some.injEq, Prod.mk.injEq] at he
      obtain ⟨rfl, rfl⟩ := he
      exact hk
  unfold getEnv
  split
  · exact new
  · rename_i w e
    split
    · rename_i hw
      subst hw
      exact ⟨h _ _ rfl, h⟩
    · exact new

theorem keoghC_agrees [BandOps] (ratio : ℚ) (a b : List (Dbl K)) (d : Dbl K) (ca : EnvCache K) (h : Right a ca) :
    Agrees (Right a) (keoghLowerBoundC ratio a b d ca) (keoghLowerBound ratio a b d) := by
  have hg := getEnv_agrees a (band ratio (max a.length b.length : ℕ)) ca h
  unfold keoghLowerBoundC keoghLowerBound
  simp only [bind, Except.bind]
  cases hx : getEnv a (band ratio (max a.length b.length : ℕ)) ca with
  | error e =>
    rw [hx] at hg
    have hg : keoghLU a (band ratio (max a.length b.length : ℕ)) = .error e := hg
    rw [hg]
    rfl
  | ok r =>
    rw [hx] at hg
    rw [hg.1]
    simp only
    generalize keoghLoop (K := K) _ _ _ _ _ _ = z
    cases z with
    | error e => rfl
    | ok lb => exact ⟨rfl, hg.2⟩

theorem crossC_agrees [BandOps] (ratio : ℚ) (a b : List (Dbl K)) (d : Dbl K) (ca cb : EnvCache K) (ha : Right a ca) (hb : Right b cb) :
    Agrees (fun p => Right a p.1 ∧ Right b p.2) (crossKeoghLowerBoundC ratio a b d ca cb) (crossKeoghLowerBound ratio a b d) := by
  have h1 := keoghC_agrees ratio a b d ca ha
  have h2 := keoghC_agrees ratio b a d cb hb
  unfold crossKeoghLowerBoundC crossKeoghLowerBound
  simp only [bind, Except.bind]
  cases hx : keoghLowerBoundC ratio a b d ca with
  | error e =>
    rw [hx] at h1
    rw [show keoghLowerBound ratio a b d = .error e from h1]
    rfl
  | ok r =>
    rw [hx] at h1
    rw [h1.1]
    simp only
    split
    · exact ⟨rfl, h1.2, hb⟩
    · cases hy : keoghLowerBoundC ratio b a d cb with
      | error e =>
        rw [hy] at h2
        rw [show keoghLowerBound ratio b a d = .error e from h2]
        rfl
      | ok r' =>
        rw [hy] at h2
        rw [h2.1]
        exact ⟨rfl, h1.2, h2.2⟩

theorem cascadeC_agrees [BandOps] (ratio : ℚ) (a b : List (Dbl K)) (d : Dbl K) (ca cb : EnvCache K) (ha : Right a ca) (hb : Right b cb) :
    Agrees (fun p => Right a p.1 ∧ Right b p.2) (cascadeValueC ratio a b d ca cb) (cascadeValue ratio a b d) := by
  have h1 := crossC_agrees ratio a b d ca cb ha hb
  unfold cascadeValueC cascadeValue cascadeDistance
  split
  · exact ⟨rfl, ha, hb⟩
  simp only [bind, Except.bind]
  cases hx : crossKeoghLowerBoundC ratio a b d ca cb with
  | error e =>
    rw [hx] at h1
    rw [show crossKeoghLowerBound ratio a b d = .error e from h1]
    rfl
  | ok r =>
    rw [hx] at h1
    rw [h1.1]
    simp only
    split
    · exact ⟨rfl, h1.2⟩
    · unfold warpedValue
      cases warpedDistance (euclidean K) ratio a b d [] with
      | error e => rfl
      | ok v => exact ⟨rfl, h1.2⟩

theorem evalC_agrees [BandOps] (ratio : ℚ) (ref : DistRef) (a b : List (Dbl K)) (d : Dbl K) (ca cb : EnvCache K) (ha : Right a ca)
    (hb : Right b cb) :
    Agrees (fun p => Right a p.1 ∧ Right b p.2) (ref.evalC ratio a b d ca cb) (ref.eval ratio a b d) := by
  have other : Agrees (fun p => Right a p.1 ∧ Right b p.2) ((ref.eval ratio a b d).map (fun v => (v, ca, cb)))
      (ref.eval ratio a b d) := by
    cases ref.eval ratio a b d with
    | error e => rfl
    | ok v => exact ⟨rfl, ha, hb⟩
  cases ref with
  | cascade => exact cascadeC_agrees ratio a b d ca cb ha hb
  | pairwise m => exact other
  | warped m => exact other

/-! ## Programs -/

/-- From kept envelopes with `G`, the program gives the outcome of the plain program, and what is kept has `G` again. -/
def Sim (G : Caches K → Prop) {α : Type} (x : CM K α) (y : Res α) : Prop :=
  ∀ σ, G σ → (x σ).1 = y ∧ G (x σ).2

variable {G : Caches K → Prop}

theorem Sim.pure {α : Type} (a : α) : Sim G (Pure.pure a : CM K α) (.ok a) := fun _ h => ⟨rfl, h⟩

theorem Sim.throw {α : Type} (e : Fault) : Sim G (MonadExcept.throw e : CM K α) (.error e) := fun _ h => ⟨rfl, h⟩

theorem Sim.lift {α : Type} (x : Res α) : Sim G (liftM x : CM K α) x := fun _ h => ⟨rfl, h⟩

theorem Sim.bind {α β : Type} {x : CM K α} {y : Res α} {f : α → CM K β} {g : α → Res β} (h : Sim G x y)
    (hf : ∀ a, y = .ok a → Sim G (f a) (g a)) : Sim G (x >>= f) (y >>= g) := by
  intro σ hσ
  obtain ⟨h1, h2⟩ := h σ hσ
  have : (x >>= f) σ = (match (x σ).1 with
      | .ok a => (f a) (x σ).2
      | .error e => (.error e, (x σ).2)) := by
    show ExceptT.bindCont f (x σ).1 (x σ).2 = _
    cases (x σ).1 <;> rfl
  rw [this, h1]
  cases hy : y with
  | error e => exact ⟨rfl, h2⟩
  | ok a => exact hf a hy _ h2

theorem Sim.foldlM {α β : Type} {f : β → α → CM K β} {g : β → α → Res β} (l : List α) (h : ∀ b a, a ∈ l → Sim G (f b a) (g b a)) (b : β) :
    Sim G (l.foldlM f b) (l.foldlM g b) := by
  induction l generalizing b with
  | nil => exact Sim.pure b
  | cons a l ih =>
    rw [List.foldlM_cons, List.foldlM_cons]
    exact Sim.bind (h b a (by simp)) (fun b' _ => ih (fun b a ha => h b a (by simp [ha])) b')

theorem Sim.mapM {α β : Type} {f : α → CM K β} {g : α → Res β} (l : List α) (h : ∀ a, Sim G (f a) (g a)) :
    Sim G (l.mapM f) (l.mapM g) := by
  induction l with
  | nil => exact Sim.pure []
  | cons a l ih =>
    rw [List.mapM_cons, List.mapM_cons]
    exact Sim.bind (h a) (fun b _ => Sim.bind ih (fun bs _ => Sim.pure _))

/-! ## The searches -/

section

variable (ds : Dataset K) (gs : GSpace K) (query : List (Dbl K))

/-- All kept envelopes are right. -/
def AllRight (σ : Caches K) : Prop :=
  Right query σ.query ∧ ∀ pos sp idx g pts, gs.spaceAt pos = .ok (some sp) → sp.groups[idx]? = some g →
    g.centroidPts ds = .ok pts → Right pts (σ.cent pos idx)

variable {ds gs query}

theorem sim_distance [BandOps] (ratio : ℚ) (ref : DistRef) {pos : Int} {sp : LocalSpace K} {idx : ℕ} {g : Group K}
    (hp : gs.spaceAt pos = .ok (some sp)) (hg : sp.groups[idx]? = some g) (d : Dbl K) :
    Sim (AllRight ds gs query) (Group.distanceC ds ratio ref query pos idx g d) (Group.distance ds ratio ref query g d) := by
  unfold Group.distanceC Group.distance
  refine Sim.bind (Sim.lift _) ?_
  intro pts hpts σ hσ
  have h := evalC_agrees ratio ref pts query d (σ.cent pos idx) σ.query (hσ.2 _ _ _ _ _ hp hg hpts) hσ.1
  simp only [ExceptT.mk]
  cases hx : ref.evalC ratio pts query d (σ.cent pos idx) σ.query with
  | error e =>
    rw [hx] at h
    exact ⟨Eq.symm h, hσ⟩
  | ok r =>
    rw [hx] at h
    refine ⟨h.1.symm, h.2.2, ?_⟩
    intro pos' sp' idx' g' pts' hp' hg' hpts'
    simp only
    split
    · rename_i he
      obtain ⟨rfl, rfl⟩ := he
      rw [hp] at hp'
      cases hp'
      rw [hg] at hg'
      cases hg'
      rw [hpts] at hpts'
      cases hpts'
      exact h.2.1
    · exact hσ.2 _ _ _ _ _ hp' hg' hpts'

theorem sim_viewDist [BandOps] (ratio : ℚ) (ref : DistRef) (v : View) (d : Dbl K) :
    Sim (AllRight ds gs query) (viewDistC ds ratio ref query v d)
      (do let pts ← ds.points v; ref.eval ratio query pts d) := by
  unfold viewDistC
  refine Sim.bind (Sim.lift _) ?_
  intro pts hpts σ hσ
  have h := evalC_agrees ratio ref query pts d σ.query none hσ.1 (right_none _)
  simp only [ExceptT.mk]
  cases hx : ref.evalC ratio query pts d σ.query none with
  | error e =>
    rw [hx] at h
    exact ⟨Eq.symm h, hσ⟩
  | ok r =>
    rw [hx] at h
    exact ⟨h.1.symm, h.2.1, hσ.2⟩

theorem sim_bestLoop {dist : ℕ → Group K → Dbl K → CM K (Dbl K)} {dist' : Group K → Dbl K → Res (Dbl K)} (l : List (Group K)) (i : ℕ)
    (h : ∀ j g d, l[j]? = some g → Sim G (dist (i + j) g d) (dist' g d)) (best : Dbl K × Option ℕ) :
    Sim G (bestLoopC dist l i best) (bestLoop dist' l i best) := by
  induction l generalizing i best with
  | nil => exact Sim.pure best
  | cons g l ih =>
    unfold bestLoopC bestLoop
    refine Sim.bind (h 0 g best.1 rfl) (fun d _ => ih (i + 1) ?_ _)
    intro j g' d hj
    have := h (j + 1) g' d (by simpa using hj)
    rwa [show i + 1 + j = i + (j + 1) by omega]

theorem sim_topKStep (A : Algos (Cand K)) {eval : Dbl K → CM K (Dbl K)} {eval' : Dbl K → Res (Dbl K)}
    (h : ∀ d, Sim G (eval d) (eval' d)) (v : View) (st : Int × List (Cand K)) :
    Sim G (topKStepC A eval v st) (topKStep A eval' v st) := by
  obtain ⟨s1, s2⟩ := st
  unfold topKStepC topKStep
  split
  · exact Sim.bind (h _) (fun d _ => Sim.pure _)
  · cases s2 with
    | nil => exact Sim.throw _
    | cons top rest =>
      refine Sim.bind (h _) (fun d _ => ?_)
      split
      · exact Sim.pure _
      · exact Sim.pure _

theorem sim_kSimStep (B : Algos (GIdx K)) (length : Int) {dist : Dbl K → CM K (Dbl K)} {dist' : Dbl K → Res (Dbl K)}
    (h : ∀ d, Sim G (dist d) (dist' d)) (i : ℕ) (members : Int) (st : Int × List (GIdx K)) :
    Sim G (kSimStepC B length dist i members st) (kSimStep B length dist' i members st) := by
  obtain ⟨s1, s2⟩ := st
  unfold kSimStepC kSimStep
  split
  · cases s2 with
    | nil => exact Sim.throw _
    | cons top rest =>
      refine Sim.bind (h _) (fun d _ => ?_)
      split
      · exact Sim.lift _
      · exact Sim.pure _
  · refine Sim.bind (h _) (fun d _ => ?_)
    simp only
    split
    · exact Sim.lift _
    · exact Sim.pure _

theorem sim_chainLoop {σ : Type} (sp : LocalSpace K) {body : σ → Int × Int → CM K σ} {body' : σ → Int × Int → Res σ}
    (h : ∀ s c, Sim G (body s c) (body' s c)) (fuel : ℕ) (c : Int × Int) (s : σ) :
    Sim G (sp.chainLoopC body fuel c s) (sp.chainLoop body' fuel c s) := by
  induction fuel generalizing c s with
  | zero =>
    unfold LocalSpace.chainLoopC LocalSpace.chainLoop
    split
    · exact Sim.pure _
    · exact Sim.throw _
  | succ n ih =>
    unfold LocalSpace.chainLoopC LocalSpace.chainLoop
    split
    · exact Sim.pure _
    · exact Sim.bind (h _ _) (fun s' _ => Sim.bind (Sim.lift _) (fun m _ => ih _ _))

theorem sim_groupBest [BandOps] (ratio : ℚ) (ref : DistRef) (sp : LocalSpace K) (g : Group K) :
    Sim (AllRight ds gs query) (sp.getBestMatchC ds ratio ref query g) (sp.getBestMatch ds ratio ref query g) := by
  unfold LocalSpace.getBestMatchC LocalSpace.getBestMatch LocalSpace.walkC LocalSpace.walk
  refine Sim.bind (sim_chainLoop sp (fun s c => ?_) _ _ _) (fun best _ => Sim.bind (Sim.lift _) (fun v _ => Sim.pure _))
  refine Sim.bind (Sim.lift _) (fun v _ => ?_)
  have h := sim_viewDist (ds := ds) (gs := gs) (query := query) ratio ref v s.1
  have h2 := Sim.bind h (f := fun d => (pure (if d < s.1 then (d, c) else s) : CM K _))
    (g := fun d => .ok (if d < s.1 then (d, c) else s)) (fun d _ => Sim.pure _)
  simp only [Arith.eval]
  simpa only [bind_assoc] using h2

theorem sim_intra (A : Algos (Cand K)) [BandOps] (ratio : ℚ) (ref : DistRef) (k : Int) (sp : LocalSpace K) (g : Group K) :
    Sim (AllRight ds gs query) (sp.intraGroupKSimC A ds ratio ref query k g) (sp.intraGroupKSim A ds ratio ref query k g) := by
  unfold LocalSpace.intraGroupKSimC LocalSpace.intraGroupKSim LocalSpace.walkC LocalSpace.walk
  refine Sim.bind (sim_chainLoop sp (fun s c => ?_) _ _ _) (fun best _ => Sim.pure _)
  exact Sim.bind (Sim.lift _) (fun v _ => sim_topKStep A (fun d => sim_viewDist ratio ref v d) v s)

theorem sim_bestStep [BandOps] (ratio : ℚ) (w : DistRef) (st : Dbl K × Option (LocalSpace K × ℕ)) (i : Int) :
    Sim (AllRight ds gs query) (gs.bestStepC ds ratio w query st i) (gs.bestStep ds ratio w query st i) := by
  unfold GSpace.bestStepC GSpace.bestStep
  refine Sim.bind (Sim.lift _) (fun s hs => ?_)
  cases s with
  | none => exact Sim.pure _
  | some sp =>
    refine Sim.bind ?_ (fun c _ => Sim.pure _)
    unfold LocalSpace.getBestGroupC LocalSpace.getBestGroup
    refine sim_bestLoop _ _ (fun j g d hj => ?_) _
    rw [Nat.zero_add]
    exact sim_distance ratio w hs hj d

theorem sim_kStep (B : Algos (GIdx K)) [BandOps] (ratio : ℚ) (w : DistRef) (st : Int × List (GIdx K)) (i : Int) :
    Sim (AllRight ds gs query) (gs.kStepC B ds ratio w query st i) (gs.kStep B ds ratio w query st i) := by
  unfold GSpace.kStepC GSpace.kStep
  refine Sim.bind (Sim.lift _) (fun s hs => ?_)
  cases s with
  | none => exact Sim.pure _
  | some sp =>
    unfold LocalSpace.interLevelKSimC LocalSpace.interLevelKSim
    refine Sim.foldlM _ (fun st g hg => ?_) _
    refine sim_kSimStep B _ (fun d => ?_) _ _ _
    exact sim_distance ratio w hs (List.mem_zipIdx_iff_getElem?.mp hg) d

theorem sim_getBestMatch [BandOps] (ratio : ℚ) :
    Sim (AllRight ds gs query) (gs.getBestMatchC ds ratio query) (gs.getBestMatch ds ratio query) := by
  unfold GSpace.getBestMatchC GSpace.getBestMatch
  split
  · exact Sim.throw _
  cases gs.warped with
  | none => exact Sim.throw _
  | some w =>
    refine Sim.bind (Sim.lift _) (fun order _ => ?_)
    refine Sim.bind (Sim.foldlM _ (fun st i _ => sim_bestStep ratio _ st i) _) (fun st _ => ?_)
    obtain ⟨s1, s2⟩ := st
    cases s2 with
    | none => exact Sim.throw _
    | some p =>
      obtain ⟨sp, g⟩ := p
      simp only
      cases sp.groups[g]? with
      | none => exact Sim.throw _
      | some g => exact sim_groupBest ratio _ _ _

theorem sim_getKBestMatches (A : Algos (Cand K)) (B : Algos (GIdx K)) [BandOps] (ratio : ℚ) (k : Int) :
    Sim (AllRight ds gs query) (gs.getKBestMatchesC A B ds ratio query k) (gs.getKBestMatches A B ds ratio query k) := by
  unfold GSpace.getKBestMatchesC GSpace.getKBestMatches
  cases gs.warped with
  | none => exact Sim.throw _
  | some w =>
    have last : ∀ best : List View, Sim (AllRight ds gs query)
        (best.mapM (fun v => do let d ← viewDistC ds ratio w query v .inf; pure ⟨v, d⟩) : CM K (List (Cand K)))
        (best.mapM (fun v => do let pts ← ds.points v; let d ← w.eval ratio query pts .inf; .ok ⟨v, d⟩)) := by
      intro best
      refine Sim.mapM _ (fun v => ?_)
      have h := sim_viewDist (ds := ds) (gs := gs) (query := query) ratio w v .inf
      have h2 := Sim.bind h (f := fun d => (pure ⟨v, d⟩ : CM K (Cand K))) (g := fun d => .ok ⟨v, d⟩) (fun d _ => Sim.pure _)
      simpa only [bind_assoc] using h2
    refine Sim.bind (Sim.lift _) (fun order _ => ?_)
    refine Sim.bind (Sim.foldlM _ (fun st i _ => sim_kStep B ratio _ st i) _) (fun st _ => ?_)
    obtain ⟨s1, s2⟩ := st
    cases s2 with
    | nil => exact last []
    | cons top rest =>
      simp only [bind_assoc, pure_bind]
      exact Sim.bind (Sim.lift _) (fun g _ => Sim.bind (sim_intra A ratio _ _ _ _) (fun intra _ =>
        Sim.bind (Sim.lift _) (fun others _ => last _)))

end

/-! ## Histories -/

namespace CSet

/-- The envelopes kept by the centroids are right. -/
def Fresh (c : CSet K) : Prop :=
  ∀ gs, c.set.groups = some gs → ∀ pos sp idx g pts, gs.spaceAt pos = .ok (some sp) → sp.groups[idx]? = some g →
    g.centroidPts c.set.ds = .ok pts → Right pts (c.cent pos idx)

theorem search_fresh {α : Type} {c : CSet K} (hc : c.Fresh) {gs : GSpace K} (hg : c.set.groups = some gs) {query : List (Dbl K)}
    {f : CM K α} {y : Res α} (h : Sim (AllRight c.set.ds gs query) f y) :
    (c.search f).1 = y ∧ (c.search f).2.Fresh ∧ (c.search f).2.set = c.set := by
  obtain ⟨h1, h2⟩ := h ⟨c.cent, none⟩ ⟨right_none _, fun pos sp idx g pts => hc gs hg pos sp idx g pts⟩
  refine ⟨h1, ?_, rfl⟩
  intro gs' hg' pos sp idx g pts k1 k2 k3
  have hg' : c.set.groups = some gs' := hg'
  rw [hg] at hg'
  cases hg'
  exact h2.2 pos sp idx g pts k1 k2 k3

theorem best_fresh {c : CSet K} (hc : c.Fresh) [BandOps] (ratio : ℚ) (query : List (Dbl K)) :
    (c.getBestMatch ratio query).1 = c.set.getBestMatch ratio query ∧ (c.getBestMatch ratio query).2.Fresh ∧
      (c.getBestMatch ratio query).2.set = c.set := by
  unfold CSet.getBestMatch GSet.getBestMatch
  cases hg : c.set.groups with
  | none => exact ⟨rfl, hc, rfl⟩
  | some gs => exact search_fresh hc hg (sim_getBestMatch ratio)

theorem kBest_fresh {c : CSet K} (hc : c.Fresh) (A : Algos (Cand K)) (B : Algos (GIdx K)) [BandOps] (ratio : ℚ) (query : List (Dbl K)) (k h : Int) :
    (c.getKBestMatches A B ratio query k h).1 = c.set.getKBestMatches A B ratio query k h ∧
      (c.getKBestMatches A B ratio query k h).2.Fresh ∧ (c.getKBestMatches A B ratio query k h).2.set = c.set := by
  unfold CSet.getKBestMatches GSet.getKBestMatches
  cases hg : c.set.groups with
  | none => exact ⟨rfl, hc, rfl⟩
  | some gs =>
    simp only
    split
    · exact ⟨rfl, hc, rfl⟩
    · obtain ⟨h1, h2, h3⟩ := search_fresh hc hg (sim_getKBestMatches (query := query) A B ratio h)
      refine ⟨?_, h2, h3⟩
      rw [h1]

end CSet

theorem fresh_new (s : GSet K) : CSet.Fresh (⟨s, fun _ _ => none⟩ : CSet K) := fun _ _ _ _ _ _ _ _ _ _ => right_none _

theorem after_set (c : CSet K) (e : CSet.Ev K) : (c.after e).set = Spec.plainAfter c.set e := by
  cases e with
  | regroup g => rfl
  | best ratio query =>
    show (c.getBestMatch ratio query).2.set = c.set
    unfold CSet.getBestMatch
    cases c.set.groups <;> rfl
  | kBest A B ratio query k h =>
    show (c.getKBestMatches A B ratio query k h).2.set = c.set
    unfold CSet.getKBestMatches
    cases c.set.groups with
    | none => rfl
    | some gs =>
      simp only
      split <;> rfl
  | normalize =>
    simp only [CSet.after, Spec.plainAfter]
    cases c.set.ds.normalize <;> rfl

theorem fresh_run (c : CSet K) (evs : List (CSet.Ev K)) (hr : Spec.Regrouped evs) (hc : c.Fresh ∨ ∃ g, .regroup g ∈ evs) :
    (evs.foldl CSet.after c).Fresh := by
  induction evs generalizing c with
  | nil =>
    rcases hc with hc | ⟨g, hg⟩
    · exact hc
    · cases hg
  | cons e evs ih =>
    rw [List.foldl_cons]
    have hr' : Spec.Regrouped evs := by
      intro pre post he
      exact hr (e :: pre) post (by rw [he]; rfl)
    by_cases hl : ∃ g, .regroup g ∈ evs
    · exact ih _ hr' (.inr hl)
    · refine ih _ hr' (.inl ?_)
      have hc : c.Fresh ∨ ∃ g, e = .regroup g := by
        rcases hc with hc | ⟨g, hg⟩
        · exact .inl hc
        · rw [List.mem_cons] at hg
          rcases hg with hg | hg
          · exact .inr ⟨g, hg.symm⟩
          · exact absurd ⟨g, hg⟩ hl
      cases e with
      | regroup g => exact fresh_new _
      | best ratio query =>
        have hc : c.Fresh := hc.resolve_right (by rintro ⟨g, hg⟩; cases hg)
        exact (CSet.best_fresh hc ratio query).2.1
      | kBest A B ratio query k h =>
        have hc : c.Fresh := hc.resolve_right (by rintro ⟨g, hg⟩; cases hg)
        exact (CSet.kBest_fresh hc A B ratio query k h).2.1
      | normalize => exact absurd (hr [] evs rfl) hl

end Genex
