import Verif.Model.MachineThreads
import Verif.Lemmas.GroupMulti
import Verif.Lemmas.MachineSizes

/-! Multi-threaded grouping with `int` of 32 bits. -/

set_option linter.unusedSectionVars false

namespace Genex

open Spec Dbl Pool

namespace Pool

variable {n : ℕ} {S : Type}

/-- The facts about any complete execution of a pool that enqueues tasks and then gets all futures. -/
theorem pool_facts {P : Tasks S} {slot0 : ℕ → S} {k m : ℕ} (hn : 1 ≤ n) {is : List ℕ} (his : is.Nodup) {s : State n S}
    (hr : Run P k (init n slot0 (groupOps is)) s m) (hd : s.owner = .done) :
    (s.acc, s.exc) = drain (fun i => P.fut (P.final slot0 i)) (is.map Op.get) 0 ∧
    (∀ i, s.slot i = if i ∈ s.enqueued then P.final slot0 i else slot0 i) ∧ (∀ i ∈ s.enqueued, i ∈ is) ∧
    (s.exc = none → s.enqueued = is) := by
  have I := inv_reach (inv_init (n := n) P slot0 (groupOps is) (by rw [enqs_ops]; exact his) (wf_ops is)) hr
  obtain ⟨hq, hst, hfin, hnd⟩ := I.final hn hd
  refine ⟨?_, ?_, ?_, ?_⟩
  · cases he : s.exc with
    | none =>
      have := I.result he
      rw [hd, drain_ops] at this
      rw [← this]
      rfl
    | some e =>
      have := (I.resultE e he).2
      rw [drain_ops] at this
      exact this
  · intro i
    split
    · rename_i h
      rw [(I.fin i (hfin.mem_iff.2 h)).2]
    · rename_i h
      exact I.idle i (by rw [hst]; exact h)
  · intro i hi
    have := I.sub i (by simp [hi])
    rwa [enqs_ops] at this
  · intro he
    have := I.full he
    rw [hd, enqs_ops] at this
    simpa [Owner.ops, enqs] using this

/-- The sum only grows. -/
theorem drain_ge (val : ℕ → Res ℕ) : ∀ (ops : List Op) (acc : Int), acc ≤ (drain val ops acc).1 := by
  intro ops
  induction ops with
  | nil => intro acc; exact le_rfl
  | cons o ops ih =>
    intro acc
    cases o with
    | enqueue t => exact ih acc
    | get t =>
      unfold drain
      cases val t with
      | error e => exact le_rfl
      | ok k => exact le_trans (by omega) (ih (acc + k))

end Pool

variable {K : Type} [Field K] [LinearOrder K] [HasSqrt K] [Arith K]

/-- What is seen of a task: the space and the value or exception. -/
def seen (s : Option (Running K) × Res ℕ) : Option (LocalSpace K) × Res ℕ := (s.1.map Running.space, s.2)

/-- Running the updates of `_group(i)` amounts to `_group(i)`. -/
theorem groupProgI_final (ds : Dataset K) (ratio : ℚ) (log : ℕ → Bool) (p : DistRef) (t : Dbl K) (i : ℕ) :
    seen ((groupTasksI ds ratio log p t).final (fun _ => (none, .ok 0)) i) = GSpace.groupLengthI ds ratio log p t i := by
  unfold Tasks.final groupTasksI groupProgI GSpace.groupLengthI
  simp only [List.foldl_append, List.foldl_cons, List.foldl_nil]
  cases hnew : LocalSpace.newI ds (i : Int) with
  | error e =>
    simp only
    generalize ((List.range (ds.maxCol - i + 1).toNat).flatMap
      (fun s => (List.range ds.itemCount).map (fun j => (j, s)))) = cs
    induction cs with
    | nil => rfl
    | cons c cs ih => exact ih
  | ok sp =>
    have hsub : sp.subCount = ds.maxCol - i + 1 := by
      unfold LocalSpace.newI at hnew
      simp only [bind, Except.bind] at hnew
      have h32 : ∀ z x : Int, int32 z = .ok x → x = z := by
        intro z x h
        unfold int32 at h
        split at h
        · cases h; rfl
        · cases h
      cases h1 : int32 (ds.maxCol - i) with
      | error e => rw [h1] at hnew; cases hnew
      | ok a =>
        rw [h1] at hnew
        simp only at hnew
        cases h2 : int32 (a + 1) with
        | error e => rw [h2] at hnew; cases hnew
        | ok b =>
          rw [h2] at hnew
          simp only at hnew
          cases h3 : int32 (ds.itemCount * b) with
          | error e => rw [h3] at hnew; cases hnew
          | ok c =>
            rw [h3] at hnew
            simp only at hnew
            split at hnew
            · cases hnew
            · cases hnew
              rw [h32 _ _ h2, h32 _ _ h1]
    simp only [LocalSpace.generateGroupsI, LocalSpace.coords, hsub]
    cases ht : int32 ((ds.maxCol - i + 1) * ds.itemCount) with
    | error e =>
      simp only
      generalize ((List.range (ds.maxCol - i + 1).toNat).flatMap
        (fun s => (List.range ds.itemCount).map (fun j => (j, s)))) = cs
      induction cs with
      | nil => rfl
      | cons c cs ih => exact ih
    | ok total =>
      simp only
      generalize ((List.range (ds.maxCol - i + 1).toNat).flatMap
        (fun s => (List.range ds.itemCount).map (fun j => (j, s)))) = cs
      clear hnew hsub ht
      generalize (0 : Int) = a
      induction cs generalizing sp a with
      | nil => rfl
      | cons c cs ih =>
        simp only [List.map_cons, List.foldl_cons, loopS, LocalSpace.groupStepI]
        cases hs : LocalSpace.groupBodyI ds ratio p t (log i) total a sp c with
        | ok r => exact ih r.2 r.1
        | error e =>
          simp only [Except.map]
          clear ih
          induction cs with
          | nil => rfl
          | cons c cs ih => exact ih

/-- The loop of `group` and the sum of the futures. -/
theorem drain_loopI (f : ℕ → Option (LocalSpace K) × Res ℕ) : ∀ (is : List ℕ) (gs : GSpace K), 0 ≤ gs.total → gs.total < 2 ^ 31 →
    (match int32 (drain (fun i => (f i).2) (is.map Op.get) gs.total).1 with
      | .error e => .error e
      | .ok _ => match (drain (fun i => (f i).2) (is.map Op.get) gs.total).2 with
        | none => .ok (drain (fun i => (f i).2) (is.map Op.get) gs.total).1 | some e => .error e) =
    (GSpace.groupLoopI f is gs).2.map (fun _ => (GSpace.groupLoopI f is gs).1.total) := by
  intro is
  induction is with
  | nil =>
    intro gs h0 h1
    simp only [List.map_nil, drain, GSpace.groupLoopI, int32_ok (show -2 ^ 31 ≤ gs.total by omega) h1, Except.map]
  | cons i is ih =>
    intro gs h0 h1
    simp only [List.map_cons, drain, GSpace.groupLoopI]
    cases h : (f i).2 with
    | error e =>
      simp only [int32_ok (show -2 ^ 31 ≤ gs.total by omega) h1, Except.map]
    | ok k =>
      simp only
      by_cases hlt : gs.total + k < 2 ^ 31
      · rw [int32_ok (show -2 ^ 31 ≤ gs.total + k by omega) hlt]
        exact ih { gs with spaces := gs.spaces.set i (f i).1, total := gs.total + k } (by simp only; omega) hlt
      · rw [int32_over (show 2 ^ 31 ≤ gs.total + k by omega)]
        have := drain_ge (fun i => (f i).2) (is.map Op.get) (gs.total + k)
        rw [int32_over (by omega)]
        rfl

theorem groupLoopI_ok_all (f : ℕ → Option (LocalSpace K) × Res ℕ) : ∀ (is : List ℕ) (gs : GSpace K) u,
    (GSpace.groupLoopI f is gs).2 = .ok u → (∀ i ∈ is, ∃ k, (f i).2 = .ok k) ∧ GSpace.groupLoopI f is gs = GSpace.groupLoop f is gs := by
  intro is
  induction is with
  | nil => intro gs u _; exact ⟨fun i hi => by simp at hi, rfl⟩
  | cons j is ih =>
    intro gs u h
    simp only [GSpace.groupLoopI] at h
    simp only [GSpace.groupLoopI, GSpace.groupLoop]
    cases hj : (f j).2 with
    | error e => rw [hj] at h; cases h
    | ok k =>
      rw [hj] at h
      simp only at h ⊢
      cases hx : int32 (gs.total + k) with
      | error e => rw [hx] at h; cases h
      | ok z =>
        have hz : z = gs.total + k := by
          unfold int32 at hx
          split at hx
          · cases hx; rfl
          · cases hx
        subst hz
        rw [hx] at h
        obtain ⟨h1, h2⟩ := ih _ u h
        refine ⟨fun i hi => ?_, h2⟩
        rcases List.mem_cons.1 hi with rfl | hi
        · exact ⟨k, hj⟩
        · exact h1 i hi

/-- A task that is undefined is one that fails with one thread. -/
theorem undefinedI {ds : Dataset K} {ratio : ℚ} {log : ℕ → Bool} {p : DistRef} {t : Dbl K} {n k m : ℕ} (hn : 1 ≤ n) {g0 : GSpace K}
    {s : Pool.State n (Option (Running K) × Res ℕ)}
    (hr : Run (groupTasksI ds ratio log p t) k (init n (fun _ => (none, .ok 0)) (groupOps g0.lengths)) s m) (hd : s.owner = .done) {i : ℕ}
    {w : String} (hu : (s.slot i).2 = .error (.ub w)) :
    ∃ e, (GSpace.groupLoopI (GSpace.groupLengthI ds ratio log p t) g0.lengths g0).2 = .error e := by
  obtain ⟨-, hslot, hsub, -⟩ := pool_facts hn (lengths_nodup g0) hr hd
  rw [hslot i] at hu
  split at hu
  · rename_i hi
    cases hv : (GSpace.groupLoopI (GSpace.groupLengthI ds ratio log p t) g0.lengths g0).2 with
    | error e => exact ⟨e, rfl⟩
    | ok u =>
      obtain ⟨x, hx⟩ := (groupLoopI_ok_all _ _ _ u hv).1 i (hsub i hi)
      rw [← groupProgI_final] at hx
      simp only [seen] at hx
      rw [hu] at hx
      cases hx
  · cases hu

/-- Several threads return, throw or overflow as one does, or are undefined and one does not return either. -/
theorem multiI_res {ds : Dataset K} {ratio : ℚ} {log : ℕ → Bool} {name : String} {t : Dbl K} {n : ℕ} (hn : 1 ≤ n)
    {whole : Bool} {gs : GSpace K} {out : GSpace K × Res Int} (ho : GSpace.GroupMultiI ds ratio log name t n whole gs out) :
    out.2 = (GSpace.groupI ds ratio log name t whole gs).2 ∨
      (∃ w, out.2 = .error (.ub w)) ∧ ∃ e, (GSpace.groupI ds ratio log name t whole gs).2 = .error e := by
  unfold GSpace.groupI
  simp only
  cases ho with
  | fails e he => rw [he]; exact Or.inl rfl
  | wide p e hp hw => rw [hp]; simp only; rw [hw]; exact Or.inl rfl
  | undefined p x hp hw k m s hr hd i w hu =>
    refine Or.inr ⟨⟨w, rfl⟩, ?_⟩
    rw [hp]
    simp only
    rw [hw]
    simp only
    obtain ⟨e, he⟩ := undefinedI hn hr hd hu
    exact ⟨e, by rw [he]; rfl⟩
  | runs p x hp hw k m s hr hd hu =>
    left
    rw [hp]
    simp only
    rw [hw]
    simp only
    have htot := prepare_total hp
    set g0 := (gs.prepare ds name t whole).1 with hg0
    obtain ⟨hacc, -, -, -⟩ := pool_facts hn (lengths_nodup g0) hr hd
    have hval : (fun i => (groupTasksI ds ratio log p t).fut ((groupTasksI ds ratio log p t).final (fun _ => (none, .ok 0)) i)) =
        fun i => (GSpace.groupLengthI ds ratio log p t i).2 := by
      funext i
      rw [← groupProgI_final]
      rfl
    rw [hval] at hacc
    have hd2 := drain_loopI (GSpace.groupLengthI ds ratio log p t) g0.lengths g0 (by omega) (by omega)
    rw [htot, ← hacc] at hd2
    exact hd2

/-- If one thread returns, several return the same and leave the same. -/
theorem multiI_eq {ds : Dataset K} {ratio : ℚ} {log : ℕ → Bool} {name : String} {t : Dbl K} {n : ℕ} (hn : 1 ≤ n)
    {whole : Bool} {gs g1 : GSpace K} {N : Int} (h : GSpace.groupI ds ratio log name t whole gs = (g1, .ok N))
    {out : GSpace K × Res Int} (ho : GSpace.GroupMultiI ds ratio log name t n whole gs out) : out = (g1, .ok N) := by
  have hres : out.2 = .ok N := by
    have := multiI_res hn ho
    rw [h] at this
    rcases this with h | ⟨-, e, h⟩
    · exact h
    · cases h
  unfold GSpace.groupI at h
  simp only at h
  cases ho with
  | fails e he => rw [he] at h; cases h
  | wide p e hp hw => rw [hp] at h; simp only at h; rw [hw] at h; cases h
  | undefined p x hp hw k m s hr hd i w hu => cases hres
  | runs p x hp hw k m s hr hd _ =>
    rw [hp] at h
    simp only at h
    rw [hw] at h
    simp only at h
    have htot := prepare_total hp
    set g0 := (gs.prepare ds name t whole).1 with hg0
    set f := GSpace.groupLengthI ds ratio log p t with hf
    have hlt : ∀ i ∈ g0.lengths, i < g0.spaces.length := by
      intro i hi
      unfold GSpace.lengths at hi
      split at hi
      · simp at hi
      · rw [List.mem_filter, List.mem_range] at hi; exact hi.1
    rw [Prod.mk.injEq] at h
    obtain ⟨h1, h2⟩ := h
    cases hu : (GSpace.groupLoopI f g0.lengths g0).2 with
    | error e => rw [hu] at h2; cases h2
    | ok u =>
      obtain ⟨hall, hsame⟩ := groupLoopI_ok_all f g0.lengths g0 u hu
      obtain ⟨hacc, hslot, -, henq⟩ := pool_facts hn (lengths_nodup g0) hr hd
      have hval : (fun i => (groupTasksI ds ratio log p t).fut ((groupTasksI ds ratio log p t).final (fun _ => (none, .ok 0)) i)) =
          fun i => (f i).2 := by
        funext i
        rw [hf, ← groupProgI_final]
        rfl
      rw [hval] at hacc
      rw [hsame] at hu h1 h2
      have hd2 := drain_loop f g0.lengths g0
      rw [htot, ← hacc, hu] at hd2
      simp only [Prod.mk.injEq] at hd2
      obtain ⟨ha, he⟩ := hd2
      have henq := henq he
      let N' : ℕ → ℕ := fun i => match (f i).2 with | .ok k => k | .error _ => 0
      have hN' : ∀ i ∈ g0.lengths, (f i).2 = .ok (N' i) := by
        intro i hi
        obtain ⟨k, hk⟩ := hall i hi
        simp only [N', hk]
      have hloop := groupLoop_eq f N' g0.lengths g0 hN'
      have hfold : (List.range g0.spaces.length).map (fun i => (s.slot i).1.map Running.space) =
          g0.lengths.foldl (fun l i => l.set i (f i).1) g0.spaces := by
        apply List.ext_getElem?
        intro j
        rw [foldl_set_get (fun i => (f i).1) _ _ _ hlt, List.getElem?_map]
        by_cases hj : j < g0.spaces.length
        · rw [List.getElem?_range hj, Option.map_some, hslot j, henq]
          split
          · rw [hf, ← groupProgI_final]; rfl
          · rename_i hjm
            have hnone : ∀ x ∈ g0.spaces, x = none := by
              revert hp
              rw [hg0]
              unfold GSpace.prepare
              simp only
              split
              · intro h; cases h
              · split
                · intro h; cases h
                · split
                  · intro h; cases h
                  · intro _ x hx
                    exact (List.mem_replicate.1 hx).2
            have := hnone _ (List.getElem_mem hj)
            rw [List.getElem?_eq_getElem hj, this]
            rfl
        · rw [List.getElem?_eq_none (by simpa using hj), List.getElem?_eq_none (by simpa using hj),
            if_neg (fun h => hj (hlt j h))]
          rfl
      simp only at hres
      rw [Prod.mk.injEq]
      refine ⟨?_, hres⟩
      rw [hfold, ← h1]
      rw [hloop] at ha ⊢
      simp only at ha ⊢
      rw [← ha]

/-- There is an outcome with unbounded integers. -/
theorem multi_exists (ds : Dataset K) (ratio : ℚ) (log : ℕ → Bool) (name : String) (t : Dbl K) {n : ℕ} (hn : 1 ≤ n) (whole : Bool)
    (gs : GSpace K) : ∃ out, GSpace.GroupMulti ds ratio log name t n whole gs out := by
  cases hp : (GSpace.prepare ds name t whole gs).2 with
  | error e => exact ⟨_, .fails e hp⟩
  | ok p =>
    have I := Pool.inv_init (n := n) (groupTasks ds ratio log p t) (fun _ => (none, .ok 0))
      (groupOps (GSpace.prepare ds name t whole gs).1.lengths) (by rw [Pool.enqs_ops]; exact lengths_nodup _) (Pool.wf_ops _)
    obtain ⟨s', m', hr, hd⟩ := Pool.can_finish hn _ _ _ 0 0 (Nat.le_refl _) I (.refl _)
    by_cases hu : ∃ i w, (s'.slot i).2 = .error (.ub w)
    · obtain ⟨i, w, hu⟩ := hu
      exact ⟨_, .undefined p hp 0 m' s' hr hd i w hu⟩
    · exact ⟨_, .runs p hp 0 m' s' hr hd (fun i w h => hu ⟨i, w, h⟩)⟩

/-- There is an outcome. -/
theorem multiI_exists (ds : Dataset K) (ratio : ℚ) (log : ℕ → Bool) (name : String) (t : Dbl K) {n : ℕ} (hn : 1 ≤ n) (whole : Bool)
    (gs : GSpace K) : ∃ out, GSpace.GroupMultiI ds ratio log name t n whole gs out := by
  cases hp : (gs.prepare ds name t whole).2 with
  | error e => exact ⟨_, .fails e hp⟩
  | ok p =>
    cases hw : int32 (ds.maxCol + 1) with
    | error e => exact ⟨_, .wide p e hp hw⟩
    | ok x =>
      have I := inv_init (n := n) (groupTasksI ds ratio log p t) (fun _ => (none, .ok 0)) (groupOps (gs.prepare ds name t whole).1.lengths)
        (by rw [enqs_ops]; exact lengths_nodup _) (wf_ops _)
      obtain ⟨s, m, hr, hd⟩ := can_finish hn _ _ _ 0 0 le_rfl I (.refl _)
      by_cases hu : ∃ i w, (s.slot i).2 = .error (.ub w)
      · obtain ⟨i, w, hu⟩ := hu
        exact ⟨_, .undefined p x hp hw 0 m s hr hd i w hu⟩
      · exact ⟨_, .runs p x hp hw 0 m s hr hd (fun i w h => hu ⟨i, w, h⟩)⟩

end Genex
