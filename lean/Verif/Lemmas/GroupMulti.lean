import Verif.Lemmas.Grouping
import Verif.Lemmas.ThreadPool

/-! Multi-threaded grouping. -/

set_option linter.unusedSectionVars false

namespace Genex

open Spec Dbl Pool

namespace Pool

variable {n : ℕ} {S : Type}

/-- From every state the invariant allows, the end is reached without spurious wake-ups. -/
theorem can_finish {P : Tasks S} {slot0 : ℕ → S} {ops0 : List Op} (hn : 1 ≤ n) : ∀ (N : ℕ) (s s0 : State n S) (k m : ℕ),
    s.weight P ≤ N → Inv P slot0 ops0 s → Run P k s0 s m → ∃ s' m', Run P k s0 s' m' ∧ s'.owner = .done := by
  intro N
  induction N with
  | zero =>
    intro s s0 k m hw I hr
    by_cases hd : s.owner = .done
    · exact ⟨s, m, hr, hd⟩
    · obtain ⟨s', h⟩ := progress hn I hd
      have := weight_step h
      simp at this; omega
  | succ N ih =>
    intro s s0 k m hw I hr
    by_cases hd : s.owner = .done
    · exact ⟨s, m, hr, hd⟩
    · obtain ⟨s', h⟩ := progress hn I hd
      have := weight_step h
      simp at this
      exact ih s' s0 k (m + 1) (by omega) (inv_step I h) (.tail hr h)

theorem Inv.final {P : Tasks S} {slot0 : ℕ → S} {ops0 : List Op} {s : State n S} (hn : 1 ≤ n) (I : Inv P slot0 ops0 s)
    (hd : s.owner = .done) : s.queue = [] ∧ s.started = s.enqueued ∧ s.finished.Perm s.enqueued ∧ s.enqueued.Nodup := by
  have hex := I.done hd
  have hq := (I.exited ⟨0, by omega⟩ (hex _)).2
  have hst : s.started = s.enqueued := by rw [I.fifo, hq, List.append_nil]
  have hnd : s.enqueued.Nodup := (List.nodup_append.1 I.fresh).1
  refine ⟨hq, hst, ?_, hnd⟩
  rw [List.perm_ext_iff_of_nodup I.finNodup hnd]
  intro t
  constructor
  · intro h; rw [← hst]; exact (I.fin t h).1
  · intro h
    rw [← hst] at h
    rcases I.cover t h with h' | ⟨w, r, h'⟩
    · exact h'
    · rw [hex w] at h'; cases h'

theorem enqs_append (a b : List Op) : enqs (a ++ b) = enqs a ++ enqs b := by
  induction a with
  | nil => rfl
  | cons x xs ih => cases x <;> simp [enqs, ih]

theorem enqs_ops (is : List ℕ) : enqs (groupOps is) = is := by
  unfold groupOps
  rw [enqs_append]
  have h1 : enqs (is.map Op.enqueue) = is := by induction is <;> simp_all [enqs]
  have h2 : enqs (is.map Op.get) = [] := by
    generalize is = l
    induction l <;> simp_all [enqs]
  rw [h1, h2, List.append_nil]

theorem wf_ops (is : List ℕ) : WfOps [] (groupOps is) := by
  have h2 : ∀ (l E : List ℕ), (∀ x ∈ l, x ∈ E) → WfOps E (l.map Op.get) := by
    intro l
    induction l with
    | nil => intro E _; trivial
    | cons x xs ih =>
      intro E h
      exact ⟨h x (by simp), ih E (fun y hy => h y (by simp [hy]))⟩
  have h1 : ∀ (l E l' : List ℕ), (∀ x ∈ l', x ∈ E ∨ x ∈ l) → WfOps E (l.map Op.enqueue ++ l'.map Op.get) := by
    intro l
    induction l with
    | nil => intro E l' h; exact h2 l' E (fun x hx => by simpa using h x hx)
    | cons x xs ih =>
      intro E l' h
      refine ih (E ++ [x]) l' ?_
      intro y hy
      rcases h y hy with h' | h'
      · exact Or.inl (by simp [h'])
      · rcases List.mem_cons.1 h' with rfl | h'
        · exact Or.inl (by simp)
        · exact Or.inr h'
  exact h1 is [] is (fun x hx => Or.inr hx)

theorem drain_ops (val : ℕ → Res ℕ) (is : List ℕ) (acc : Int) : drain val (groupOps is) acc = drain val (is.map Op.get) acc := by
  unfold groupOps
  generalize is.map Op.get = l
  induction is with
  | nil => rfl
  | cons x xs ih => exact ih

end Pool

variable {K : Type} [Field K] [LinearOrder K] [HasSqrt K] [Arith K]

/-- Running the updates of `_group(i)` amounts to `_group(i)`. -/
theorem groupProg_final (ds : Dataset K) (ratio : ℚ) (log : ℕ → Bool) (p : DistRef) (t : Dbl K) (i : ℕ) :
    (groupTasks ds ratio log p t).final (fun _ => (none, .ok 0)) i = GSpace.groupLength ds ratio log p t i := by
  unfold Tasks.final groupTasks groupProg GSpace.groupLength
  simp only [List.foldl_append, List.foldl_cons, List.foldl_nil]
  cases hnew : LocalSpace.new ds (i : Int) with
  | error e =>
    simp only
    generalize ((List.range (ds.maxCol - i + 1).toNat).flatMap
      (fun s => (List.range ds.itemCount).map (fun j => (j, s)))) = cs
    induction cs with
    | nil => rfl
    | cons c cs ih => exact ih
  | ok sp =>
    have hsub : sp.subCount = ds.maxCol - i + 1 := by
      unfold LocalSpace.new at hnew
      simp only at hnew
      split at hnew
      · cases hnew
      · simp only [Except.ok.injEq] at hnew
        rw [← hnew]
    simp only [LocalSpace.generateGroups, LocalSpace.coords, hsub]
    generalize ((List.range (ds.maxCol - i + 1).toNat).flatMap
      (fun s => (List.range ds.itemCount).map (fun j => (j, s)))) = cs
    clear hnew hsub
    induction cs generalizing sp with
    | nil => rfl
    | cons c cs ih =>
      simp only [List.map_cons, List.foldl_cons, loopS]
      cases hs : LocalSpace.groupStep ds ratio p t (log i) sp c with
      | ok sp' => exact ih sp'
      | error e =>
        simp only [Except.map]
        clear ih
        induction cs with
        | nil => rfl
        | cons c cs ih => exact ih

/-- The sum of the loop of `group`, and the exception that ends it. -/
theorem drain_loop (f : ℕ → Option (LocalSpace K) × Res ℕ) : ∀ (is : List ℕ) (gs : GSpace K),
    drain (fun i => (f i).2) (is.map Op.get) gs.total =
      ((GSpace.groupLoop f is gs).1.total,
        match (GSpace.groupLoop f is gs).2 with | .ok _ => none | .error e => some e) := by
  intro is
  induction is with
  | nil => intro gs; rfl
  | cons i is ih =>
    intro gs
    simp only [List.map_cons, drain, GSpace.groupLoop]
    cases h : (f i).2 with
    | error e => rfl
    | ok k => exact ih { gs with spaces := gs.spaces.set i (f i).1, total := gs.total + k }

theorem groupLoop_ok_all (f : ℕ → Option (LocalSpace K) × Res ℕ) : ∀ (is : List ℕ) (gs : GSpace K) u,
    (GSpace.groupLoop f is gs).2 = .ok u → ∀ i ∈ is, ∃ k, (f i).2 = .ok k := by
  intro is
  induction is with
  | nil => intro gs u _ i hi; simp at hi
  | cons j is ih =>
    intro gs u h i hi
    simp only [GSpace.groupLoop] at h
    cases hj : (f j).2 with
    | error e => rw [hj] at h; cases h
    | ok k =>
      rw [hj] at h
      rcases List.mem_cons.1 hi with rfl | hi
      · exact ⟨k, hj⟩
      · exact ih _ u h i hi

/-- The facts about any complete execution of the pool. -/
theorem multi_facts {ds : Dataset K} {ratio : ℚ} {log : ℕ → Bool} {p : DistRef} {t : Dbl K} {n k m : ℕ} (hn : 1 ≤ n)
    {is : List ℕ} (his : is.Nodup) {s : Pool.State n (Option (LocalSpace K) × Res ℕ)}
    (hr : Run (groupTasks ds ratio log p t) k (init n (fun _ => (none, .ok 0)) (groupOps is)) s m) (hd : s.owner = .done) :
    (s.acc, s.exc) = drain (fun i => (GSpace.groupLength ds ratio log p t i).2) (is.map Op.get) 0 ∧
    (∀ i, s.slot i = if i ∈ s.enqueued then GSpace.groupLength ds ratio log p t i else (none, .ok 0)) ∧
    (∀ i ∈ s.enqueued, i ∈ is) ∧ (s.exc = none → s.enqueued = is) := by
  have I := inv_reach (inv_init (n := n) (groupTasks ds ratio log p t) (fun _ => (none, .ok 0)) (groupOps is)
    (by rw [enqs_ops]; exact his) (wf_ops is)) hr
  obtain ⟨hq, hst, hfin, hnd⟩ := I.final hn hd
  have hval : (fun t' => (groupTasks ds ratio log p t).fut ((groupTasks ds ratio log p t).final (fun _ => (none, .ok 0)) t')) =
      fun i => (GSpace.groupLength ds ratio log p t i).2 := by
    funext i
    rw [groupProg_final]
    rfl
  refine ⟨?_, ?_, ?_, ?_⟩
  · cases he : s.exc with
    | none =>
      have := I.result he
      rw [hval, hd, drain_ops] at this
      rw [← this]
      rfl
    | some e =>
      have := (I.resultE e he).2
      rw [hval, drain_ops] at this
      exact this
  · intro i
    split
    · rename_i h
      rw [(I.fin i (hfin.mem_iff.2 h)).2, groupProg_final]
    · rename_i h
      exact I.idle i (by rw [hst]; exact h)
  · intro i hi
    have := I.sub i (by simp [hi])
    rwa [enqs_ops] at this
  · intro he
    have := I.full he
    rw [hd, enqs_ops] at this
    simpa [Owner.ops, enqs] using this

/-! ### The clock -/

theorem addMember_sub {sp sp' : LocalSpace K} {gi : ℕ} {c : Int × Int} (h : sp.addMember gi c = .ok sp') :
    sp'.subCount = sp.subCount := by
  unfold LocalSpace.addMember at h
  split at h
  · cases h
  · cases hc : sp.cell c with
    | error e => rw [hc] at h; cases h
    | ok m => rw [hc] at h; cases h; rfl

theorem pushGroup_sub {ds : Dataset K} {sp sp' : LocalSpace K} {c : Int × Int} (h : sp.pushGroup ds c = .ok sp') :
    sp'.subCount = sp.subCount := by
  unfold LocalSpace.pushGroup at h
  cases hc : ds.getTimeSeries c.1 c.2 (c.2 + sp.length) with
  | error e => rw [hc] at h; cases h
  | ok m => rw [hc] at h; cases h; rfl

theorem groupInsert_sub {ds : Dataset K} {ratio : ℚ} {ref : DistRef} {t : Dbl K} {sp sp' : LocalSpace K} {c : Int × Int}
    (h : sp.insert ds ratio ref t c = .ok sp') : sp'.subCount = sp.subCount := by
  unfold LocalSpace.insert at h
  cases hv : ds.getTimeSeries c.1 c.2 (c.2 + sp.length) with
  | error e => rw [hv] at h; cases h
  | ok v =>
    rw [hv] at h
    simp only [bind, Except.bind] at h
    cases hq : ds.points v with
    | error e => rw [hq] at h; cases h
    | ok q =>
      rw [hq] at h
      simp only at h
      cases hb : bestLoop (Group.distance ds ratio ref q) sp.groups 0 (.inf, none) with
      | error e => rw [hb] at h; cases h
      | ok b =>
        rw [hb] at h
        simp only at h
        split at h
        · cases hp : LocalSpace.pushGroup ds sp c with
          | error e => rw [hp] at h; cases h
          | ok sp1 => rw [hp] at h; exact (addMember_sub h).trans (pushGroup_sub hp)
        · split at h
          · cases h
          · exact addMember_sub h

/-- Whether progress is logged makes no difference, unless it divides by zero. -/
theorem loop_log {ds : Dataset K} {ratio : ℚ} {ref : DistRef} {t : Dbl K} {b b' : Bool} : ∀ (cs : List (ℕ × ℕ))
    (sp : LocalSpace K) u, (b' = true → 5 ≤ sp.subCount * ds.itemCount) →
    (loopS (LocalSpace.groupStep ds ratio ref t b) cs sp).2 = .ok u →
    loopS (LocalSpace.groupStep ds ratio ref t b') cs sp = loopS (LocalSpace.groupStep ds ratio ref t b) cs sp := by
  intro cs
  induction cs with
  | nil => intro sp u _ _; rfl
  | cons c cs ih =>
    intro sp u hb h
    have hstep : ∀ sp', LocalSpace.groupStep ds ratio ref t b sp c = .ok sp' →
        LocalSpace.groupStep ds ratio ref t b' sp c = .ok sp' ∧ sp'.subCount = sp.subCount := by
      intro sp' e
      have key : LocalSpace.groupStep ds ratio ref t b' sp c = LocalSpace.groupStep ds ratio ref t b sp c := by
        unfold LocalSpace.groupStep at e ⊢
        have h1 : ¬ (b = true ∧ sp.subCount * ds.itemCount / 5 = 0) := by
          intro h1; rw [if_pos h1] at e; cases e
        have h2 : ¬ (b' = true ∧ sp.subCount * ds.itemCount / 5 = 0) := by
          rintro ⟨h2, h3⟩
          have := hb h2
          omega
        rw [if_neg h1, if_neg h2]
      refine ⟨by rw [key]; exact e, ?_⟩
      unfold LocalSpace.groupStep at e
      split at e
      · cases e
      · cases hl : ds.getItemLength c.1 with
        | error e' => rw [hl] at e; cases e
        | ok len =>
          rw [hl] at e
          simp only [bind, Except.bind] at e
          split at e
          · cases e; rfl
          · exact groupInsert_sub e
    unfold loopS at h ⊢
    cases hs : LocalSpace.groupStep ds ratio ref t b sp c with
    | error e => rw [hs] at h; cases h
    | ok sp' =>
      rw [hs] at h
      obtain ⟨h1, h2⟩ := hstep sp' hs
      rw [h1]
      exact ih sp' u (by rw [h2]; exact hb) h

theorem groupLength_log {ds : Dataset K} {ratio : ℚ} {ref : DistRef} {t : Dbl K} {log log' : ℕ → Bool} {i : ℕ} {k : ℕ}
    (h : (GSpace.groupLength ds ratio log ref t i).2 = .ok k)
    (hl : log' i = true → 5 ≤ (ds.maxCol - i + 1) * ds.itemCount) :
    GSpace.groupLength ds ratio log' ref t i = GSpace.groupLength ds ratio log ref t i := by
  unfold GSpace.groupLength at h ⊢
  cases hnew : LocalSpace.new ds (i : Int) with
  | error e => rfl
  | ok sp =>
    have hsub : sp.subCount = ds.maxCol - i + 1 := by
      unfold LocalSpace.new at hnew
      simp only at hnew
      split at hnew
      · cases hnew
      · simp only [Except.ok.injEq] at hnew
        rw [← hnew]
    rw [hnew] at h
    simp only [LocalSpace.generateGroups] at h ⊢
    cases hr : (loopS (LocalSpace.groupStep ds ratio ref t (log i)) (sp.coords ds) sp).2 with
    | error e => rw [hr] at h; cases h
    | ok u => rw [loop_log _ sp u (by rw [hsub]; exact hl) hr, hr]

/-- Every outcome of `groupMultiThreaded` is the outcome of `group`. -/
theorem prepare_total {ds : Dataset K} {name : String} {t : Dbl K} {whole : Bool} {gs : GSpace K} {p : DistRef}
    (hp : (gs.prepare ds name t whole).2 = .ok p) : (gs.prepare ds name t whole).1.total = 0 := by
  revert hp
  unfold GSpace.prepare
  simp only
  split
  · intro h; cases h
  · split
    · intro h; cases h
    · split
      · intro h; cases h
      · intro _; rfl

/-- A task that fails is one that fails with one thread. -/
theorem groupLoop_fails {f : ℕ → Option (LocalSpace K) × Res ℕ} {is : List ℕ} {gs : GSpace K} {i : ℕ} {e : Fault} (hi : i ∈ is)
    (h : (f i).2 = .error e) : ∃ e', (GSpace.groupLoop f is gs).2 = .error e' := by
  cases hu : (GSpace.groupLoop f is gs).2 with
  | error e' => exact ⟨e', rfl⟩
  | ok u =>
    obtain ⟨k, hk⟩ := groupLoop_ok_all f is gs u hu i hi
    rw [h] at hk
    cases hk

/-- Some length is undefined. -/
def LengthUndefined (ds : Dataset K) (ratio : ℚ) (log : ℕ → Bool) (name : String) (t : Dbl K) (whole : Bool) (gs : GSpace K) (w : String) :
    Prop :=
  ∃ p i, (gs.prepare ds name t whole).2 = .ok p ∧ i ∈ (gs.prepare ds name t whole).1.lengths ∧
    (GSpace.groupLength ds ratio log p t i).2 = .error (.ub w)

theorem LengthUndefined.fails {ds : Dataset K} {ratio : ℚ} {log : ℕ → Bool} {name : String} {t : Dbl K} {whole : Bool} {gs : GSpace K}
    {w : String} (h : LengthUndefined ds ratio log name t whole gs w) : ∃ e, (GSpace.group ds ratio log name t whole gs).2 = .error e := by
  obtain ⟨p, i, hp, hi, hu⟩ := h
  obtain ⟨e', he'⟩ := groupLoop_fails (gs := (gs.prepare ds name t whole).1) hi hu
  unfold GSpace.group
  simp only
  rw [hp]
  simp only
  exact ⟨e', by rw [he']; rfl⟩

/-- With the same clock, several threads return or throw what one does, or are undefined because some length is. -/
theorem multi_res {ds : Dataset K} {ratio : ℚ} {log : ℕ → Bool} {name : String} {t : Dbl K} {n : ℕ} (hn : 1 ≤ n)
    {whole : Bool} {gs : GSpace K} {out : GSpace K × Res Int} (ho : GSpace.GroupMulti ds ratio log name t n whole gs out) :
    out.2 = (GSpace.group ds ratio log name t whole gs).2 ∨
      ∃ w, out.2 = .error (.ub w) ∧ LengthUndefined ds ratio log name t whole gs w := by
  unfold GSpace.group
  simp only
  cases ho with
  | fails e he => rw [he]; exact Or.inl rfl
  | undefined p hp k m s hr hd i w hu =>
    refine Or.inr ⟨w, rfl, p, i, hp, ?_⟩
    obtain ⟨-, hslot, hsub, -⟩ := multi_facts hn (lengths_nodup _) hr hd
    rw [hslot i] at hu
    split at hu
    · rename_i hi
      exact ⟨hsub i hi, hu⟩
    · cases hu
  | runs p hp k m s hr hd hu =>
    left
    rw [hp]
    simp only
    have htot := prepare_total hp
    set g0 := (gs.prepare ds name t whole).1 with hg0
    obtain ⟨hacc, -, -, -⟩ := multi_facts hn (lengths_nodup g0) hr hd
    have hd2 := drain_loop (GSpace.groupLength ds ratio log p t) g0.lengths g0
    rw [htot, ← hacc, Prod.mk.injEq] at hd2
    obtain ⟨ha, he⟩ := hd2
    cases hv : (GSpace.groupLoop (GSpace.groupLength ds ratio log p t) g0.lengths g0).2 with
    | error e => rw [hv] at he; simp only at he; rw [he]; rfl
    | ok u => rw [hv] at he; simp only at he; rw [he, ha]; rfl

theorem multi_eq {ds : Dataset K} {ratio : ℚ} {log log' : ℕ → Bool} {name : String} {t : Dbl K} {n : ℕ} (hn : 1 ≤ n)
    {whole : Bool} {gs g1 : GSpace K} {N : Int} (h : GSpace.group ds ratio log name t whole gs = (g1, .ok N))
    (hl : ∀ i ∈ (gs.prepare ds name t whole).1.lengths, log' i = log i ∨
      (log' i = true → 5 ≤ (ds.maxCol - i + 1) * ds.itemCount))
    {out : GSpace K × Res Int} (ho : GSpace.GroupMulti ds ratio log' name t n whole gs out) : out = (g1, .ok N) := by
  unfold GSpace.group at h
  simp only at h
  cases ho with
  | fails e he => rw [he] at h; cases h
  | undefined p hp k m s hr hd i w hu =>
    rw [hp] at h
    simp only [Prod.mk.injEq] at h
    obtain ⟨-, hslot, hsub, -⟩ := multi_facts hn (lengths_nodup _) hr hd
    rw [hslot i] at hu
    split at hu
    · rename_i hi
      cases hv : (GSpace.groupLoop (GSpace.groupLength ds ratio log p t) (gs.prepare ds name t whole).1.lengths
          (gs.prepare ds name t whole).1).2 with
      | error e => rw [hv] at h; cases h.2
      | ok u =>
        obtain ⟨k, hk⟩ := groupLoop_ok_all _ _ _ u hv i (hsub i hi)
        have hlog : GSpace.groupLength ds ratio log' p t i = GSpace.groupLength ds ratio log p t i := by
          rcases hl i (hsub i hi) with h | h
          · unfold GSpace.groupLength
            simp only [h]
          · exact groupLength_log hk h
        rw [hlog, hk] at hu
        cases hu
    · cases hu
  | runs p hp k m s hr hd _ =>
    rw [hp] at h
    simp only at h
    have htot := prepare_total hp
    set g0 := (gs.prepare ds name t whole).1 with hg0
    set f := GSpace.groupLength ds ratio log p t with hf
    have hlt : ∀ i ∈ g0.lengths, i < g0.spaces.length := by
      intro i hi
      unfold GSpace.lengths at hi
      split at hi
      · simp at hi
      · rw [List.mem_filter, List.mem_range] at hi; exact hi.1
    rw [Prod.mk.injEq] at h
    obtain ⟨h1, h2⟩ := h
    cases hu : (GSpace.groupLoop f g0.lengths g0).2 with
    | error e => rw [hu] at h2; cases h2
    | ok u =>
      have hall := groupLoop_ok_all f g0.lengths g0 u hu
      have hlog : ∀ i ∈ g0.lengths, GSpace.groupLength ds ratio log' p t i = f i := by
        intro i hi
        obtain ⟨k, hk⟩ := hall i hi
        rcases hl i hi with h | h
        · unfold GSpace.groupLength at hf ⊢
          simp only [hf, h]
        · exact groupLength_log hk h
      obtain ⟨hacc, hslot, -, henq⟩ := multi_facts hn (lengths_nodup g0) hr hd
      have hdr : ∀ (is : List ℕ) (a : Int), (∀ i ∈ is, GSpace.groupLength ds ratio log' p t i = f i) →
          drain (fun i => (GSpace.groupLength ds ratio log' p t i).2) (is.map Op.get) a =
            drain (fun i => (f i).2) (is.map Op.get) a := by
        intro is
        induction is with
        | nil => intro a _; rfl
        | cons i is ih =>
          intro a h
          simp only [List.map_cons, drain, h i (by simp)]
          cases (f i).2 with
          | error e => rfl
          | ok k => exact ih _ (fun j hj => h j (by simp [hj]))
      rw [hdr g0.lengths 0 hlog] at hacc
      have hd2 := drain_loop f g0.lengths g0
      rw [htot, ← hacc, hu] at hd2
      simp only [Prod.mk.injEq] at hd2
      obtain ⟨ha, he⟩ := hd2
      have henq := henq he
      let N' : ℕ → ℕ := fun i => match (f i).2 with | .ok k => k | .error _ => 0
      have hN' : ∀ i ∈ g0.lengths, (f i).2 = .ok (N' i) := by
        intro i hi
        obtain ⟨k, hk⟩ := hall i hi
        simp only [N', hk]
      have hloop := groupLoop_eq f N' g0.lengths g0 hN'
      have hfold : (List.range g0.spaces.length).map (fun i => (s.slot i).1) =
          g0.lengths.foldl (fun l i => l.set i (f i).1) g0.spaces := by
        have hlen : ∀ (is : List ℕ) (l : List (Option (LocalSpace K))),
            (is.foldl (fun l i => l.set i (f i).1) l).length = l.length := by
          intro is
          induction is with
          | nil => intro l; rfl
          | cons i is ih => intro l; rw [List.foldl_cons, ih, List.length_set]
        apply List.ext_getElem?
        intro j
        rw [foldl_set_get (fun i => (f i).1) _ _ _ hlt, List.getElem?_map]
        by_cases hj : j < g0.spaces.length
        · rw [List.getElem?_range hj, Option.map_some, hslot j, henq]
          split
          · rename_i hjm; rw [hlog j hjm]
          · rename_i hjm
            have hnone : ∀ x ∈ g0.spaces, x = none := by
              revert hp
              rw [hg0]
              unfold GSpace.prepare
              simp only
              split
              · intro h; cases h
              · split
                · intro h; cases h
                · split
                  · intro h; cases h
                  · intro _ x hx
                    exact (List.mem_replicate.1 hx).2
            have := hnone _ (List.getElem_mem hj)
            rw [List.getElem?_eq_getElem hj, this]
        · rw [List.getElem?_eq_none (by simpa using hj), List.getElem?_eq_none (by simpa using hj),
            if_neg (fun h => hj (hlt j h))]
          rfl
      rw [hfold, he, ← h1, ← h2, hu]
      simp only [Except.map]
      rw [hloop] at ha ⊢
      simp only at ha ⊢
      rw [← ha]

end Genex
