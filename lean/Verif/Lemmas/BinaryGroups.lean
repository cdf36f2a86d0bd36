import Verif.Lemmas.BinaryCascade
import Verif.Spec.BinaryUnits

/-!
# Lemmas: groups and the search among them in units that rounding respects
-/

set_option linter.unusedSectionVars false

namespace Genex

open Dbl Spec Props

theorem mapM_units {α β γ : Type} {f : α → Res β} {g : α → Res γ} {φ : β → γ} (h : ∀ a, g a = (f a).map φ) : ∀ l : List α,
    l.mapM g = (l.mapM f).map (List.map φ)
  | [] => rfl
  | a :: l => by
    rw [List.mapM_cons, List.mapM_cons, h a, mapM_units h l]
    cases f a with
    | error e => rfl
    | ok b => cases l.mapM f <;> rfl

section
variable {K : Type} [Field K] [LinearOrder K] [IsStrictOrderedRing K] {s : K} {ds : Dataset K}

theorem stretch_inUnit (s : K) : stretch s = inUnit s := by funext x; cases x <;> rfl

theorem stretched_points (v : View) : (stretched s ds).points v = (ds.points v).map (List.map (inUnit s)) := by
  refine mapM_units (fun i => ?_) _
  unfold Dataset.pointAt
  split
  · rfl
  · unfold Dataset.read stretched
    rw [stretch_inUnit]
    cases ds.data with
    | none => rfl
    | some buf =>
      simp only [Option.map]
      split
      · rfl
      · rw [List.getElem?_map]
        generalize buf[(v.base + v.start + (i : Int)).toNat]? = o
        cases o <;> rfl

/-- The representatives refer to the dataset. -/
def Views (sp : LocalSpace K) : Prop := ∀ g ∈ sp.groups, ∃ v, g.centroid = .view v

theorem RefersTo.views {sp : LocalSpace K} (h : RefersTo ds sp) : Views sp := fun g hg => by
  obtain ⟨v, -, -, h, -⟩ := h g hg
  exact ⟨v, h⟩

variable [HasSqrt K] [Arith K] {u : K} {ratio : ℚ} {ref : DistRef}

theorem bestLoop_stretch (hs : 0 < u) {f f' : Group K → Dbl K → Res (Dbl K)} : ∀ (gs : List (Group K)) (i : ℕ) (b : Dbl K) (o : Option ℕ),
    (∀ g ∈ gs, ∀ d, f' g (inUnit u d) = (f g d).map (inUnit u)) →
    bestLoop f' gs i (inUnit u b, o) = (bestLoop f gs i (b, o)).map fun r => (inUnit u r.1, r.2)
  | [], _, _, _, _ => rfl
  | g :: gs, i, b, o, h => by
    have ih := bestLoop_stretch hs (f := f) (f' := f') gs (i + 1)
    have hr := fun x hx => h x (List.mem_cons_of_mem g hx)
    simp only [bestLoop, bind, Except.bind]
    rw [h g (by simp)]
    cases f g b with
    | error e => rfl
    | ok x =>
      simp only [Except.map, inUnit_lt hs]
      split
      · exact ih _ _ hr
      · exact ih _ _ hr

variable (hs : 0 < u) (hE : ∀ a b d, Arith.eval ratio ref (a.map (inUnit s)) (b.map (inUnit s)) (inUnit u d) = (Arith.eval ratio ref a b d).map (inUnit u))
include hs hE

theorem distance_stretch (y : List (Dbl K)) {g : Group K} (hg : ∃ v, g.centroid = .view v) (d : Dbl K) :
    Group.distance (stretched s ds) ratio ref (y.map (inUnit s)) g (inUnit u d) = (Group.distance ds ratio ref y g d).map (inUnit u) := by
  obtain ⟨v, hv⟩ := hg
  unfold Group.distance Group.centroidPts
  simp only [hv, stretched_points, bind, Except.bind]
  cases ds.points v with
  | error e => rfl
  | ok z => exact hE z y d

theorem insert_stretch (t : Dbl K) {sp : LocalSpace K} (hsp : Views sp) (p : Int × Int) :
    LocalSpace.insert (stretched s ds) ratio ref (inUnit u t) sp p = LocalSpace.insert ds ratio ref t sp p := by
  unfold LocalSpace.insert
  rw [show (stretched s ds).getTimeSeries = ds.getTimeSeries from rfl]
  simp only [bind, Except.bind]
  cases ds.getTimeSeries p.1 p.2 (p.2 + sp.length) with
  | error e => rfl
  | ok v =>
    simp only [stretched_points]
    cases ds.points v with
    | error e => rfl
    | ok y =>
      simp only [Except.map]
      have hb := bestLoop_stretch hs (f := Group.distance ds ratio ref y) (f' := Group.distance (stretched s ds) ratio ref (y.map (inUnit s)))
        sp.groups 0 .inf none (fun g hg d => distance_stretch hs hE y (hsp g hg) d)
      rw [show ((Dbl.inf : Dbl K), (none : Option ℕ)) = (inUnit u .inf, none) from rfl, hb]
      simp only [show inUnit u (Dbl.inf : Dbl K) = .inf from rfl]
      cases bestLoop (Group.distance ds ratio ref y) sp.groups 0 (.inf, none) with
      | error e => rfl
      | ok b =>
        simp only [Except.map, inUnit_half, inUnit_lt hs]
        rfl

theorem groupStep_stretch (t : Dbl K) (log : Bool) {sp : LocalSpace K} (hsp : Views sp) (p : ℕ × ℕ) :
    LocalSpace.groupStep (stretched s ds) ratio ref (inUnit u t) log sp p = LocalSpace.groupStep ds ratio ref t log sp p := by
  unfold LocalSpace.groupStep
  rw [insert_stretch hs hE t hsp]
  rfl

theorem groupLength_stretch (t : Dbl K) (log : ℕ → Bool) (i : ℕ) :
    GSpace.groupLength (stretched s ds) ratio log ref (inUnit u t) i = GSpace.groupLength ds ratio log ref t i ∧
    ∀ sp, (GSpace.groupLength ds ratio log ref t i).1 = some sp → Views sp := by
  unfold GSpace.groupLength
  rw [show LocalSpace.new (stretched s ds) i = LocalSpace.new ds i from rfl]
  cases hn : LocalSpace.new ds i with
  | error e => exact ⟨rfl, fun sp h => by cases h⟩
  | ok sp =>
    have hsp : RefersTo ds sp := by
      unfold LocalSpace.new at hn
      simp only at hn
      split at hn
      · cases hn
      · cases hn; intro g hg; cases hg
    simp only [LocalSpace.generateGroups]
    have h1 := loopS_congr (P := RefersTo ds) (f := LocalSpace.groupStep ds ratio ref t (log i))
      (g := LocalSpace.groupStep (stretched s ds) ratio ref (inUnit u t) (log i))
      (fun sp p h => (groupStep_stretch hs hE t (log i) h.views p).symm) (fun sp p sp' h e => refers_groupStep h e) (sp.coords ds) sp hsp
    rw [show sp.coords (stretched s ds) = sp.coords ds from rfl, h1.1]
    refine ⟨rfl, fun sp' h => ?_⟩
    cases h
    rw [← h1.1]
    exact h1.2.views

omit hs hE in
/-- All spaces of groups. -/
theorem groupLoop_views {f : ℕ → Option (LocalSpace K) × Res ℕ} (hf : ∀ i sp, (f i).1 = some sp → Views sp) : ∀ (is : List ℕ) (gs : GSpace K),
    (∀ (i : ℕ) sp, gs.spaces[i]? = some (some sp) → Views sp) → ∀ (i : ℕ) sp, (GSpace.groupLoop f is gs).1.spaces[i]? = some (some sp) → Views sp
  | [], _, h => h
  | j :: is, gs, h => by
    have h' : ∀ (i : ℕ) sp, (gs.spaces.set j (f j).1)[i]? = some (some sp) → Views sp := by
      intro i sp hi
      rw [List.getElem?_set] at hi
      split at hi
      · split at hi
        · exact hf j sp (Option.some.inj hi)
        · cases hi
      · exact h i sp hi
    simp only [GSpace.groupLoop]
    cases (f j).2 with
    | error e => exact h'
    | ok n => exact groupLoop_views hf is _ h'

theorem member_stretch (q : List (Dbl K)) (sp : LocalSpace K) (g : Group K) :
    sp.getBestMatch (stretched s ds) ratio ref (q.map (inUnit s)) g = (sp.getBestMatch ds ratio ref q g).map fun r => ⟨r.view, inUnit u r.dist⟩ := by
  have hmem : sp.member (stretched s ds) = sp.member ds := rfl
  unfold LocalSpace.getBestMatch
  rw [hmem]
  have step : ∀ (st : Dbl K × (Int × Int)) (c : Int × Int), (do
      let v ← sp.member ds c
      let pts ← (stretched s ds).points v
      let d ← Arith.eval ratio ref (q.map (inUnit s)) pts (inUnit u st.1)
      .ok (if d < inUnit u st.1 then (d, c) else (inUnit u st.1, st.2)) : Res (Dbl K × (Int × Int))) = (do
      let v ← sp.member ds c
      let pts ← ds.points v
      let d ← Arith.eval ratio ref q pts st.1
      .ok (if d < st.1 then (d, c) else st) : Res (Dbl K × (Int × Int))).map fun r => (inUnit u r.1, r.2) := fun st c => by
    simp only [bind, Except.bind, stretched_points]
    cases sp.member ds c with
    | error e => rfl
    | ok v =>
      simp only
      cases ds.points v with
      | error e => rfl
      | ok pts =>
        simp only [Except.map, hE]
        cases Arith.eval ratio ref q pts st.1 with
        | error e => rfl
        | ok d =>
          simp only [Except.map, inUnit_lt hs]
          split <;> rfl
  have chain : ∀ (fuel : ℕ) (c : Int × Int) (st : Dbl K × (Int × Int)), sp.chainLoop (fun (st : Dbl K × (Int × Int)) c => do
      let v ← sp.member ds c
      let pts ← (stretched s ds).points v
      let d ← Arith.eval ratio ref (q.map (inUnit s)) pts st.1
      .ok (if d < st.1 then (d, c) else st)) fuel c (inUnit u st.1, st.2) = (sp.chainLoop (fun (st : Dbl K × (Int × Int)) c => do
      let v ← sp.member ds c
      let pts ← ds.points v
      let d ← Arith.eval ratio ref q pts st.1
      .ok (if d < st.1 then (d, c) else st)) fuel c st).map fun r => (inUnit u r.1, r.2) := by
    intro fuel
    induction fuel with
    | zero =>
      intro c st
      unfold LocalSpace.chainLoop
      split <;> rfl
    | succ fuel ih =>
      intro c st
      unfold LocalSpace.chainLoop
      split
      · rfl
      · simp only
        rw [step st c]
        generalize (do
          let v ← sp.member ds c
          let pts ← ds.points v
          let d ← Arith.eval ratio ref q pts st.1
          .ok (if d < st.1 then (d, c) else st) : Res (Dbl K × (Int × Int))) = X
        cases X with
        | error e => rfl
        | ok st' =>
          simp only [Except.map, bind, Except.bind]
          cases sp.cell c with
          | error e => rfl
          | ok m => exact ih m.prev st'
  have hw := chain (sp.memberMap.length + 1) g.last (.inf, (0, 0))
  simp only [show inUnit u (Dbl.inf : Dbl K) = .inf from rfl] at hw
  unfold LocalSpace.walk
  rw [hw]
  generalize sp.chainLoop (fun (st : Dbl K × (Int × Int)) c => do
      let v ← sp.member ds c
      let pts ← ds.points v
      let d ← Arith.eval ratio ref q pts st.1
      (.ok (if d < st.1 then (d, c) else st) : Res (Dbl K × (Int × Int)))) (sp.memberMap.length + 1) g.last (.inf, (0, 0)) = X
  cases X with
  | error e => rfl
  | ok b =>
    simp only [Except.map, bind, Except.bind]
    cases sp.member ds b.2 <;> rfl

theorem best_stretch [BandOps] (q : List (Dbl K)) (gs : GSpace K) (hw : gs.warped = some ref)
    (hv : ∀ (i : ℕ) sp, gs.spaces[i]? = some (some sp) → Views sp) (x : Option (Dbl K)) :
    GSpace.getBestMatch (stretched s ds) ratio { gs with threshold := x } (q.map (inUnit s)) =
      (GSpace.getBestMatch ds ratio gs q).map fun r => ⟨r.view, inUnit u r.dist⟩ := by
  unfold GSpace.getBestMatch
  simp only [List.length_map, hw]
  split
  · rfl
  simp only [bind, Except.bind]
  cases generateTraverseOrder ratio q.length ((gs.spaces.length : Int) - 1) with
  | error e => rfl
  | ok order =>
    simp only
    have key := (foldlM_units (f := GSpace.bestStep ds ratio ref q gs)
      (g := GSpace.bestStep (stretched s ds) ratio ref (q.map (inUnit s)) { gs with warped := some ref, threshold := x })
      (fun st => (inUnit u st.1, st.2)) (fun _ => True) order (.inf, none) trivial
      (by
        intro st i _ _
        unfold GSpace.bestStep
        rw [show GSpace.spaceAt { gs with warped := some ref, threshold := x } i = gs.spaceAt i from rfl]
        simp only [bind, Except.bind]
        cases hsp : gs.spaceAt i with
        | error e => rfl
        | ok o =>
          cases o with
          | none => rfl
          | some sp =>
            have hvs : Views sp := by
              unfold GSpace.spaceAt at hsp
              split at hsp
              · cases hsp
              · split at hsp
                · rename_i h
                  cases hsp
                  exact hv _ _ h
                · cases hsp
            have hb := bestLoop_stretch hs (f := Group.distance ds ratio ref q) (f' := Group.distance (stretched s ds) ratio ref (q.map (inUnit s)))
              sp.groups 0 st.1 none (fun g hg d => distance_stretch hs hE q (hvs g hg) d)
            simp only [LocalSpace.getBestGroup]
            rw [hb]
            cases bestLoop (Group.distance ds ratio ref q) sp.groups 0 (st.1, none) with
            | error e => rfl
            | ok b =>
              simp only [Except.map, inUnit_lt hs]
              split <;> rfl)
      (fun _ _ _ _ _ _ => trivial)).1
    simp only [show inUnit u (Dbl.inf : Dbl K) = .inf from rfl] at key
    rw [key]
    cases List.foldlM (GSpace.bestStep ds ratio ref q gs) (.inf, none) order with
    | error e => rfl
    | ok st =>
      simp only [Except.map]
      cases st.2 with
      | none => rfl
      | some y =>
        simp only
        cases y.1.groups[y.2]? with
        | none => rfl
        | some g => exact member_stretch hs hE q y.1 g

end

/-! ### Distances that do not depend on the unit -/

section
variable {K : Type} [Field K] [LinearOrder K] [IsStrictOrderedRing K] [HasSqrt K] [Arith K] {s : K} {ds : Dataset K} {ratio : ℚ} {ref : DistRef}
  (hI : ∀ a b d, Arith.eval ratio ref (a.map (inUnit s)) (b.map (inUnit s)) d = Arith.eval ratio ref a b d)
include hI

theorem points_same (q : List (Dbl K)) (v : View) :
    (fun bound => do let pts ← (stretched s ds).points v; Arith.eval ratio ref (q.map (inUnit s)) pts bound) =
      (fun bound => do let pts ← ds.points v; Arith.eval ratio ref q pts bound) := by
  funext d
  rw [stretched_points]
  cases ds.points v with
  | error e => rfl
  | ok z => exact hI q z d

theorem kStep_same (B : Algos (GIdx K)) (q : List (Dbl K)) (gs : GSpace K) (hv : ∀ (i : ℕ) sp, gs.spaces[i]? = some (some sp) → Views sp)
    (st : Int × List (GIdx K)) (i : Int) :
    GSpace.kStep B (stretched s ds) ratio ref (q.map (inUnit s)) gs st i = GSpace.kStep B ds ratio ref q gs st i := by
  unfold GSpace.kStep
  cases hsp : gs.spaceAt i with
  | error e => rfl
  | ok o =>
    cases o with
    | none => rfl
    | some sp =>
      have hvs : Views sp := by
        unfold GSpace.spaceAt at hsp
        split at hsp
        · cases hsp
        · split at hsp
          · rename_i h
            cases hsp
            exact hv _ _ h
          · cases hsp
      simp only [bind, Except.bind, LocalSpace.interLevelKSim]
      refine foldlM_congr' _ (fun g hg st => ?_) st
      have hg' : g.1 ∈ sp.groups := by
        have := List.mem_zipIdx' (x := g.1) (i := g.2) hg
        exact this.2 ▸ List.getElem_mem _
      have hd : Group.distance (stretched s ds) ratio ref (q.map (inUnit s)) g.1 = Group.distance ds ratio ref q g.1 := by
        funext d
        obtain ⟨v, hv⟩ := hvs _ hg'
        unfold Group.distance Group.centroidPts
        simp only [hv, stretched_points, bind, Except.bind]
        cases ds.points v with
        | error e => rfl
        | ok z => exact hI z q d
      rw [hd]

theorem kBest_same [BandOps] (A : Algos (Cand K)) (B : Algos (GIdx K)) (q : List (Dbl K)) (gs : GSpace K) (hw : gs.warped = some ref)
    (hv : ∀ (i : ℕ) sp, gs.spaces[i]? = some (some sp) → Views sp) (k : Int) :
    gs.getKBestMatches A B (stretched s ds) ratio (q.map (inUnit s)) k = gs.getKBestMatches A B ds ratio q k := by
  have h1 : GSpace.kStep B (stretched s ds) ratio ref (q.map (inUnit s)) gs = GSpace.kStep B ds ratio ref q gs := by
    funext st i
    exact kStep_same hI B q gs hv st i
  have h2 : ∀ (n : Int) (x : LocalSpace K) (g : Group K), x.intraGroupKSim A (stretched s ds) ratio ref (q.map (inUnit s)) n g =
      x.intraGroupKSim A ds ratio ref q n g := fun n x g => by
    unfold LocalSpace.intraGroupKSim
    simp only [points_same hI]
    rfl
  have h3 : (fun v => do
      let pts ← (stretched s ds).points v
      let d ← Arith.eval ratio ref (q.map (inUnit s)) pts .inf
      (.ok ⟨v, d⟩ : Res (Cand K))) = (fun v => do
      let pts ← ds.points v
      let d ← Arith.eval ratio ref q pts .inf
      (.ok ⟨v, d⟩ : Res (Cand K))) := by
    funext v
    rw [stretched_points]
    cases ds.points v with
    | error e => rfl
    | ok z =>
      simp only [Except.map, bind, Except.bind]
      rw [hI]
  have h4 : gs.takeAll (stretched s ds) = gs.takeAll ds := rfl
  unfold GSpace.getKBestMatches
  simp only [hw, List.length_map, h1, h2, h3, h4]

theorem brute_same (A : Algos (Cand K)) (q : List (Dbl K)) (k : Int) (name : String) (hn : getDistanceFromName (name ++ "_dtw") = .ok ref) :
    bruteForce A ratio (stretched s ds) (q.map (inUnit s)) k name = bruteForce A ratio ds q k name := by
  unfold bruteForce
  rw [hn]
  have ok : ∀ {α β : Type} (x : α) (f : α → Res β), ((Except.ok x : Res α) >>= f) = f x := fun x f => rfl
  simp only [ok, points_same hI]
  rfl

end

section
variable {K : Type} [Field K] [LinearOrder K] [IsStrictOrderedRing K] [HasSqrt K] [Arith K] {s u : K} {ds : Dataset K} {ratio : ℚ} {m : Metric}

theorem group_stretch (hs : 0 < u)
    (hE : ∀ a b d, Arith.eval ratio (.pairwise m) (a.map (inUnit s)) (b.map (inUnit s)) (inUnit u d) = (Arith.eval ratio (.pairwise m) a b d).map (inUnit u))
    (hmax : 0 ≤ ds.maxCol) (t : Dbl K) (log : ℕ → Bool) (whole : Bool) (gs : GSpace K) :
    GSpace.group (stretched s ds) ratio log (metricName m) (inUnit u t) whole gs =
      ({ (GSpace.group ds ratio log (metricName m) t whole gs).1 with threshold := some (inUnit u t) },
       (GSpace.group ds ratio log (metricName m) t whole gs).2) ∧
    (GSpace.group ds ratio log (metricName m) t whole gs).1.warped = some (warpedOf m) ∧
    ∀ (i : ℕ) sp, (GSpace.group ds ratio log (metricName m) t whole gs).1.spaces[i]? = some (some sp) → Views sp := by
  unfold GSpace.group
  simp only [prepare_ok hmax, prepare_ok (ds := stretched s ds) hmax]
  have e1 : prepared (stretched s ds) m (inUnit u t) whole = { prepared ds m t whole with threshold := some (inUnit u t) } := rfl
  have e2 : (prepared (stretched s ds) m (inUnit u t) whole).lengths = (prepared ds m t whole).lengths := rfl
  refine ⟨?_, ?_, ?_⟩
  · have hf : GSpace.groupLength (stretched s ds) ratio log (.pairwise m) (inUnit u t) = GSpace.groupLength ds ratio log (.pairwise m) t :=
      funext fun i => (groupLength_stretch hs hE t log i).1
    rw [e2, e1, hf, groupLoop_threshold]
  · have : ∀ (f : ℕ → Option (LocalSpace K) × Res ℕ) (is : List ℕ) (gs : GSpace K), (GSpace.groupLoop f is gs).1.warped = gs.warped := by
      intro f is
      induction is with
      | nil => intro gs; rfl
      | cons i is ih =>
        intro gs
        simp only [GSpace.groupLoop]
        cases (f i).2 with
        | error e => rfl
        | ok n => exact ih _
    rw [this]
    rfl
  · refine groupLoop_views (fun i => (groupLength_stretch hs hE t log i).2) _ _ ?_
    intro i sp h
    simp only [prepared, List.getElem?_replicate] at h
    split at h <;> cases h

end

end Genex
