import Verif.Lemmas.Api
import Verif.Props.Dataset
import Verif.Props.Group

/-!
# C19, C46, C47, C61: the interface
-/

set_option linter.unusedSectionVars false

namespace Genex.Props

open Dbl Api Registry

section

variable {K : Type} [Field K] [LinearOrder K] [HasSqrt K] [Arith K]

/-! ## The environment of the examples -/

def exEnv : Env ℚ := ⟨exParse, exPrint, refAlgos Cand.lt, refAlgos GIdx.lt, none, ⟨.num "x", .num "x"⟩⟩

/-- Two series of one point. -/
def exTiny : Call ℚ := .load "d" (some "1\n2".toList) [] [' '] 0 0 false

/-- Two series of two points. -/
def exPairs : Call ℚ := .load "e" (some "1 4\n2 3".toList) [] [' '] 0 0 false

def exBroken (name : String) : Call ℚ := .load name (some "1 4\n2 x".toList) [] [' '] 0 0 false

/-- Run calls one after the other. -/
def run (s : Api ℚ) : List (Call ℚ) → Api ℚ × List (Reply ℚ)
  | [] => (s, [])
  | c :: cs => let r := s.exec exEnv c; let q := run r.1 cs; (q.1, r.2 :: q.2)

/-- The kind of a reply. -/
inductive Kind where
  | dangling | ok | genex | std | ub | diverge
deriving DecidableEq, Repr

def kind : Reply ℚ → Kind
  | .dangling => .dangling
  | .ret (.ok _) => .ok
  | .ret (.error (.genex _)) => .genex
  | .ret (.error (.std _)) => .std
  | .ret (.error (.ub _)) => .ub
  | .ret (.error .diverge) => .diverge

theorem survives_kind {r : Reply ℚ} (h : kind r = .ok ∨ kind r = .genex) : Survives r := by
  cases r with
  | dangling => rcases h with h | h <;> cases h
  | ret r =>
    cases r with
    | ok o => trivial
    | error e => cases e <;> first | trivial | (rcases h with h | h <;> cases h)

/-- A run in which every call returns or throws is a history. -/
theorem run_history {s : Api ℚ} {h : List (AnyCall ℚ × Reply ℚ)} {t : Api ℚ} (hh : History exEnv s h t) (cs : List (Call ℚ))
    (hk : ∀ r ∈ (run t cs).2, kind r = .ok ∨ kind r = .genex) :
    History exEnv s (h ++ (cs.map .call).zip (run t cs).2) (run t cs).1 := by
  induction cs generalizing h t with
  | nil => simpa [run] using hh
  | cons c cs ih =>
    have h1 : History exEnv s (h ++ [(.call c, (t.exec exEnv c).2)]) (t.exec exEnv c).1 :=
      .snoc hh rfl (survives_kind (hk _ List.mem_cons_self))
    have h2 := ih h1 (fun r hr => hk r (List.mem_cons_of_mem _ hr))
    simpa [run] using h2

theorem run_fresh (cs : List (Call ℚ)) (hk : ∀ r ∈ (run fresh cs).2, kind r = .ok ∨ kind r = .genex) :
    History exEnv fresh ((cs.map .call).zip (run fresh cs).2) (run fresh cs).1 := by
  have := run_history (History.nil (E := exEnv) (fresh : Api ℚ)) cs hk
  simpa using this

theorem step_exec (s : Api ℚ) (c : Call ℚ) : Step exEnv s (.call c) (s.exec exEnv c).1 (s.exec exEnv c).2 := rfl

theorem kind_ok {r : Reply ℚ} (h : kind r = .ok) : ∃ o, r = .ret (.ok o) := by
  cases r with
  | dangling => cases h
  | ret r =>
    cases r with
    | ok o => exact ⟨o, rfl⟩
    | error e => cases e <;> cases h

/-! ## C19 -/

/-- C19: when `loadDataset` fails, the registry, the count, the datasets and the preparations for PAA are as before; with a
`GenexException` no object stays behind either. -/
theorem C19_unchanged [BandOps] (E : Env K) {h : List (AnyCall K × Reply K)} {s s' : Api K} (hh : History E fresh h s) (name : String)
    (file : Option Text) (path : Text) (sep : List Char) (maxNumRow startCol : Int) (hasName : Bool) (e : Fault)
    (hl : s.exec E (.load name file path sep maxNumRow startCol hasName) = (s', .ret (.error e))) :
    s'.datasets = s.datasets ∧ s'.count = s.count ∧ s'.wrappers = s.wrappers ∧ s'.ratio = s.ratio ∧
      (∀ n, SameAt s s' n) ∧
      (∀ msg, e = .genex msg → ∀ (id : ℕ) (g : GSet K), s'.heap[id]? = some (some g) ↔ s.heap[id]? = some (some g)) := by
  have hI := inv_history inv_fresh hh
  rcases load_fails hl with rfl | ⟨o, rfl, ho⟩
  · exact ⟨rfl, rfl, rfl, rfl, fun n g => Iff.rfl, fun msg he id g => Iff.rfl⟩
  · have hS : ∀ (id : ℕ) (g : GSet K), id < s.heap.length →
        ((s.heap ++ [o])[id]? = some (some g) ↔ s.heap[id]? = some (some g)) := fun id g hid => by
      rw [List.getElem?_append_left hid]
    refine ⟨rfl, rfl, rfl, rfl, ?_, ?_⟩
    · intro n g
      constructor
      · rintro ⟨id, hm, hg⟩
        exact ⟨id, hm, (hS id g (List.getElem?_eq_some_iff.1 hg).1).2 hg⟩
      · rintro ⟨id, hm, hg⟩
        obtain ⟨g₀, hg₀⟩ := hI.live _ hm
        exact ⟨id, hm, (hS id g (List.getElem?_eq_some_iff.1 (deref_some.1 hg₀)).1).1 hg⟩
    · intro msg he id g
      rw [ho msg he]
      simp only
      rcases Nat.lt_trichotomy id s.heap.length with h1 | h1 | h1
      · rw [List.getElem?_append_left h1]
      · subst h1
        simp
      · rw [List.getElem?_eq_none (by simp; omega), List.getElem?_eq_none (by omega)]

/-- C19: after a failed load, a name that was not in use can be used: loading under it gives the reply that a new interface
gives. -/
theorem C19_again [BandOps] (E : Env K) {h : List (AnyCall K × Reply K)} {s s' : Api K} (hh : History E fresh h s) (name : String)
    (file : Option Text) (path : Text) (sep : List Char) (maxNumRow startCol : Int) (hasName : Bool) (e : Fault)
    (hl : s.exec E (.load name file path sep maxNumRow startCol hasName) = (s', .ret (.error e)))
    (hfree : name ∉ loaded h) (file' : Option Text) (path' : Text) (sep' : List Char) (maxNumRow' startCol' : Int)
    (hasName' : Bool) :
    (s'.exec E (.load name file' path' sep' maxNumRow' startCol' hasName')).2 =
      (fresh.exec E (.load name file' path' sep' maxNumRow' startCol' hasName')).2 := by
  have hd := (C19_unchanged E hh name file path sep maxNumRow startCol hasName e hl).1
  have hI : Inv s' := inv_step (inv_history inv_fresh hh) (c := .call _) hl
  have hf : mapFind s'.datasets name = none := by
    rw [hd]
    have := (keys_history hh name).not.1 hfree
    simpa using this
  refine exec_load_reply E hf ?_ _ _ _ _ _ _
  rfl

example : kind ((run fresh [exPairs, exBroken "d"]).1.exec exEnv exTiny).2 = .ok := by decide +kernel
example : (run fresh [exPairs, exBroken "d", exBroken "e", exTiny]).2.map kind = [.ok, .genex, .genex, .ok] := by
  decide +kernel
example (s' : Api ℚ) := C19_unchanged (s' := s') exEnv (run_fresh [exPairs] (by decide +kernel)) "d"
  (some "1 4\n2 x".toList) [] [' '] 0 0 false
example (s' : Api ℚ) := C19_again (s' := s') exEnv (run_fresh [exPairs] (by decide +kernel)) "d"
  (some "1 4\n2 x".toList) [] [' '] 0 0 false

/-! ## C46 -/

/-- C46: after any history the count is the number of the names with a loaded dataset. -/
theorem C46_count [BandOps] (E : Env K) {h : List (AnyCall K × Reply K)} {s : Api K} (hh : History E fresh h s) :
    s.exec E .count = (s, .ret (.ok (.int (loaded h).card))) := by
  simp only [exec]
  rw [keys_card (inv_history inv_fresh hh) (keys_history hh), (inv_history inv_fresh hh).count]

/-- C46: the overview lists exactly the loaded names, in order. -/
theorem C46_listed [BandOps] (E : Env K) {h : List (AnyCall K × Reply K)} {s s' : Api K} (hh : History E fresh h s) {l : List (Meta K)}
    (hl : s.exec E .allInfo = (s', .ret (.ok (.infos l)))) :
    (l.map Meta.name).Pairwise (· < ·) ∧ ∀ n, n ∈ l.map Meta.name ↔ n ∈ loaded h := by
  have hI := inv_history inv_fresh hh
  obtain ⟨l', h1, h2, -⟩ := allSets_some hI.live
  simp only [exec, h1] at hl
  cases hm : metasOf l' with
  | error e => rw [hm] at hl; cases hl
  | ok ms =>
    rw [hm] at hl
    cases hl
    rw [metasOf_names hm, h2]
    refine ⟨?_, fun n => ?_⟩
    · rw [List.pairwise_map]
      exact hI.sorted
    · rw [keys_history hh n, List.mem_map]
      constructor
      · rintro ⟨e, he, rfl⟩
        rw [mapFind_of_mem hI.sorted (k := e.1) (v := e.2) he]
        rfl
      · intro hn
        obtain ⟨id, hid⟩ := Option.isSome_iff_exists.1 hn
        exact ⟨_, mapFind_mem hid, rfl⟩

/-- C46: a loaded name is tied to a dataset, and no other name is. -/
theorem C46_registered [BandOps] (E : Env K) {h : List (AnyCall K × Reply K)} {s : Api K} (hh : History E fresh h s) (name : String) :
    name ∈ loaded h ↔ ∃ g, Holds s name g := by
  have hI := inv_history inv_fresh hh
  rw [keys_history hh name]
  constructor
  · intro hn
    obtain ⟨id, hid⟩ := Option.isSome_iff_exists.1 hn
    obtain ⟨g, hg⟩ := hI.find hid
    exact ⟨g, hI.holds.2 ⟨id, hid, hg⟩⟩
  · rintro ⟨g, hg⟩
    obtain ⟨id, hid, -⟩ := hI.holds.1 hg
    rw [hid]
    rfl

/-- C46, part: a loaded name can be queried, with the answer that its dataset gives, if its groupings were all successful.
Missing: after a failed grouping (`C46_query_false`). -/
theorem C46_query_partial [BandOps] (E : Env K) {h : List (AnyCall K × Reply K)} {s : Api K} (hh : History E fresh h s) (name : String)
    (hn : name ∈ loaded h) (hg : NoFailedGrouping h name) :
    ∃ g m, Holds s name g ∧ s.exec E (.info name) = (s, .ret (.ok (.info m))) ∧ m.name = name ∧
      m.itemCount = g.ds.itemCount ∧ m.itemLength = g.ds.maxCol ∧ m.isNormalized = g.ds.normalized ∧
      (m.isGrouped = true ↔ g.groups ≠ none) ∧
      (∀ gs, g.groups = some gs → m.distance = gs.distanceName ∧ gs.threshold = some m.threshold) := by
  have hI := inv_history inv_fresh hh
  obtain ⟨g, hold⟩ := (C46_registered E hh name).1 hn
  obtain ⟨id, hid, hder⟩ := hI.holds.1 hold
  obtain ⟨m, hm, h1, h2, h3, h4, h5, h6⟩ := metaOf_known (known_history hh hg g hold) name
  refine ⟨g, m, hold, ?_, h1, h2, h3, h4, h5, h6⟩
  simp only [exec]
  rw [withSet_some hid hder, hm]
  rfl

/-- The interface after loading two series and a grouping with an unknown distance, which throws. -/
def exBad : Api ℚ × Reply ℚ :=
  let s := (run fresh [exPairs]).1
  match s.deref 0 with
  | none => (s, .dangling)
  | some g =>
    let out := g.groupAllLengths (GSpace.group g.ds s.ratio (fun _ => false) "nothing" (fin 1) false) (fun gs => (gs, .ok 0)) 1
    (s.store 0 out.1, .ret (out.2.map .int))

theorem exBad_step : Step exEnv (run fresh [exPairs]).1 (.group "e" (fin 1) "nothing" 1 false) exBad.1 exBad.2 := by
  have hf : mapFind (run fresh [exPairs]).1.datasets "e" = some 0 := by decide +kernel
  have hd : ∃ g, (run fresh [exPairs]).1.deref 0 = some g := Option.isSome_iff_exists.1 (by decide +kernel)
  obtain ⟨g, hg⟩ := hd
  unfold Step GroupCall exBad
  simp only [hf, hg]
  exact ⟨fun _ => false, _, ⟨_, fun h => by omega, rfl⟩, rfl, rfl⟩

/-- C46 is false: after a grouping with an unknown distance has thrown, asking for the dataset reads a variable that was never
set. -/
theorem C46_query_false :
    ∃ (h : List (AnyCall ℚ × Reply ℚ)) (s : Api ℚ), History exEnv fresh h s ∧ "e" ∈ loaded h ∧
      kind (s.exec exEnv (.info "e")).2 = .ub :=
  ⟨_, _, .snoc (run_fresh [exPairs] (by decide +kernel)) exBad_step (survives_kind (by decide +kernel)), by decide +kernel,
    by decide +kernel⟩

example : kind exBad.2 = .genex := by decide +kernel
example : (run fresh [exPairs, exTiny, .unload "e", .count, .info "d", .info "e"]).2.map kind =
    [.ok, .ok, .ok, .ok, .ok, .genex] := by decide +kernel
example := C46_count exEnv (run_fresh [exPairs, exTiny, .unload "e", exBroken "e"] (by decide +kernel))
example : (loaded (([exPairs, exTiny, .unload "e", exBroken "e"].map .call).zip
    (run fresh [exPairs, exTiny, .unload "e", exBroken "e"]).2)) = {"d"} := by decide +kernel
example (s' : Api ℚ) (l : List (Meta ℚ)) :=
  C46_listed (s' := s') (l := l) exEnv (run_fresh [exPairs, exTiny] (by decide +kernel))
example := C46_registered exEnv (run_fresh [exPairs, exTiny, .unload "e"] (by decide +kernel))
example := C46_query_partial exEnv (run_fresh [exPairs, exTiny, .normalize "e"] (by decide +kernel)) "e" (by decide +kernel)

/-- C46: a name without a loaded dataset is rejected by every call but `loadDataset`, and nothing changes. -/
theorem C46_unknown [BandOps] (E : Env K) {h : List (AnyCall K × Reply K)} {s s' : Api K} (hh : History E fresh h s) (name : String)
    (hn : name ∉ loaded h) (c : AnyCall K) (hc : name ∈ named c) (hl : ∀ f p sep m sc hc, c ≠ .call (.load name f p sep m sc hc))
    {r : Reply K} (hs : Step E s c s' r) : s' = s ∧ r = .ret (.error (.genex "There is no dataset with the given name")) := by
  refine step_unknown (inv_history inv_fresh hh) hs hc ?_ hl
  have := (keys_history hh name).not.1 hn
  simpa using this

/-- C46: a name in use cannot be loaded again, and nothing changes. -/
theorem C46_used [BandOps] (E : Env K) {h : List (AnyCall K × Reply K)} {s : Api K} (hh : History E fresh h s) (name : String)
    (hn : name ∈ loaded h) (file : Option Text) (path : Text) (sep : List Char) (maxNumRow startCol : Int) (hasName : Bool) :
    s.exec E (.load name file path sep maxNumRow startCol hasName) =
      (s, .ret (.error (.genex "Name has already been used"))) := by
  obtain ⟨id, hid⟩ := Option.isSome_iff_exists.1 ((keys_history hh name).1 hn)
  simp only [exec, hid]

/-- C46: a call leaves the datasets that it does not name as they are, and most calls leave all datasets as they are. -/
theorem C46_others [BandOps] (E : Env K) {h : List (AnyCall K × Reply K)} {s s' : Api K} (hh : History E fresh h s) (c : AnyCall K)
    {r : Reply K} (hs : Step E s c s' r) (name : String) (hn : (name ∉ named c ∧ c ≠ .call .unloadAll) ∨ ¬ Changes c) :
    SameAt s s' name := by
  have hI := inv_history inv_fresh hh
  refine holds_eff hI (step_eff hI hs) ?_
  rintro ⟨h1, h2⟩
  rcases hn with ⟨h3, h4⟩ | h3
  · exact h2.elim h3 h4
  · exact h3 h1

/-- C46: the same for any number of calls. -/
theorem C46_kept [BandOps] (E : Env K) {h h' : List (AnyCall K × Reply K)} {s s' : Api K} (hh : History E fresh h s)
    (hh' : History E s h' s') (name : String)
    (hn : ∀ e ∈ h', (name ∉ named e.1 ∧ e.1 ≠ .call .unloadAll) ∨ ¬ Changes e.1) : SameAt s s' name := by
  refine kept_history (inv_history inv_fresh hh) hh' (fun e he => ?_)
  rintro ⟨h1, h2⟩
  rcases hn e he with ⟨h3, h4⟩ | h3
  · exact h2.elim h3 h4
  · exact h3 h1

example : SameAt (run fresh [exTiny, exPairs]).1 (run (run fresh [exTiny, exPairs]).1 [.normalize "e", .unload "e"]).1 "d" :=
  C46_kept exEnv (run_fresh [exTiny, exPairs] (by decide +kernel))
    (run_history (.nil _) [.normalize "e", .unload "e"] (by decide +kernel)) "d" (by
      intro e he
      simp [run] at he
      rcases he with rfl | rfl <;> exact .inl ⟨by simp [named], by simp⟩)
example := C46_unknown exEnv (run_fresh [exTiny, exPairs] (by decide +kernel)) "f" (by decide +kernel)
  (.call (.bestMatch "d" "f" 0 0 1)) (by simp [named]) (by simp) (step_exec _ _)
example := C46_used exEnv (run_fresh [exTiny, exPairs] (by decide +kernel)) "e" (by decide +kernel)
example := C46_others exEnv (run_fresh [exTiny, exPairs] (by decide +kernel)) (.call (.unload "d"))
  (step_exec _ _) "e" (.inl ⟨by simp [named], by simp⟩)

/-! ## C62 -/

/-- C62: from loading to normalising or unloading, whatever else is done, the series are those of the file. -/
theorem C62_served [BandOps] (E : Env K) {h h' : List (AnyCall K × Reply K)} {s s₁ s' : Api K} (hh : History E fresh h s) (name : String)
    (content path : Text) (sep : List Char) (maxNumRow : Int) (startCol : ℕ) (hasName : Bool) {o : Out K}
    (hreach : ∀ l ∈ Spec.firstLines maxNumRow content,
      Spec.valueCol startCol hasName ≤ (Spec.columns sep l).length)
    (hl : s.exec E (.load name (some content) path sep maxNumRow startCol hasName) = (s₁, .ret (.ok o)))
    (hh' : History E s₁ h' s') (hn : ∀ e ∈ h', ¬ ChangesData name e.1) (i a b : ℕ) (l : List Char)
    (hi : (Spec.firstLines maxNumRow content)[i]? = some l) (hab : a < b)
    (hb : b + Spec.valueCol startCol hasName ≤ (Spec.columns sep l).length) :
    ∃ r : List (Dbl K), ((Spec.columns sep l).drop (Spec.valueCol startCol hasName)).map E.parse = r.map .val ∧
      s'.exec E (.series name i a b) = (s', .ret (.ok (.series ((r.drop a).take (b - a))))) := by
  have hI := inv_history inv_fresh hh
  have hI₁ : Inv s₁ := inv_step hI (c := .call _) hl
  simp only [exec] at hl
  split at hl
  · cases hl
  rename_i hf
  split at hl
  · cases hl
  · cases hl
  rename_i hok
  have hload : Dataset.loadData E.parse (some content) path maxNumRow startCol sep hasName Dataset.fresh =
      ((Dataset.loadData E.parse (some content) path maxNumRow startCol sep hasName Dataset.fresh).1, .ok ()) := by
    rw [← hok]
  obtain ⟨rows, hr1, -, hr2, -, -⟩ := C17_contents E.parse content path maxNumRow startCol sep hasName hreach _ hload
  have hhold : Holds s₁ name
      ⟨(Dataset.loadData E.parse (some content) path maxNumRow startCol sep hasName Dataset.fresh).1, none⟩ := by
    cases hl
    refine (hI₁.holds).2 ⟨s.heap.length, ?_, ?_⟩
    · simp [mapFind_mapSet]
    · rw [deref_some]; simp
  obtain ⟨g', hg', hd'⟩ := data_history hI₁ hh' hn hhold
  obtain ⟨id, h1, h2⟩ := (inv_history hI₁ hh').holds.1 hg'
  have hrow : ∃ r, rows[i]? = some r ∧
      ((Spec.columns sep l).drop (Spec.valueCol startCol hasName)).map E.parse = r.map .val := by
    have := congrArg (fun x => x[i]?) hr1
    simp only [List.getElem?_map, hi, Option.map_some] at this
    cases hri : rows[i]? with
    | none => rw [hri] at this; cases this
    | some r =>
      rw [hri] at this
      exact ⟨r, rfl, by simpa using this⟩
  obtain ⟨r, hr, hrv⟩ := hrow
  have hlen : b ≤ r.length := by
    have := congrArg List.length hrv
    simp at this
    omega
  refine ⟨r, hrv, ?_⟩
  simp only [exec]
  rw [withSet_some h1 h2]
  simp only [queryOf, hd']
  rw [Spec.Holds.getTimeSeries hr2 hr hab hlen]
  simp only [bind, Except.bind]
  rw [Spec.Holds.points hr2 hr hlen]
  rfl

example : ∃ o, ((run fresh [exTiny]).1.exec exEnv exPairs).2 = .ret (.ok o) := kind_ok (by decide +kernel)
example (o : Out ℚ) (ho : ((run fresh [exTiny]).1.exec exEnv exPairs).2 = .ret (.ok o)) :=
  C62_served exEnv (run_fresh [exTiny] (by decide +kernel)) "e" "1 4\n2 3".toList [] [' '] 0 0 false
    (by decide +kernel) (s₁ := ((run fresh [exTiny]).1.exec exEnv exPairs).1) (o := o) (Prod.ext rfl ho)
    (run_history (.nil _) [.normalize "d", .bruteForce 1 "e" "d" 0 0 1 "euclidean", .unload "d"] (by decide +kernel))
    (by
      intro e he
      simp [run] at he
      rcases he with rfl | rfl | rfl <;> simp [ChangesData]) 1 0 2 "2 3".toList (by decide +kernel) (by norm_num)
    (by decide +kernel)

/-! ## C47 -/

/-- C47: calls without PAA never use an unloaded dataset. -/
theorem C47_other [BandOps] (E : Env K) {h : List (AnyCall K × Reply K)} {s s' : Api K} (hh : History E fresh h s) (c : AnyCall K)
    (hc : ¬ UsesPAA c) {r : Reply K} (hs : Step E s c s' r) : r ≠ .dangling :=
  step_ret (inv_history inv_fresh hh) hs hc

/-- C47, part: no call uses an unloaded dataset as long as no dataset is unloaded that was prepared for PAA.  Missing: histories
in which one is (`C47_false`, `C47_search_false`, `C47_all_false`). -/
theorem C47_partial [BandOps] (E : Env K) {h : List (AnyCall K × Reply K)} {s s' : Api K} (hh : History E fresh h s)
    (hk : KeepsPrepared h) (c : AnyCall K) {r : Reply K} (hs : Step E s c s' r) : r ≠ .dangling :=
  step_wrapped (inv_history inv_fresh hh) (wrapped_history hh hk) hs

theorem kind_dangling {r : Reply ℚ} (h : kind r = .dangling) : r = .dangling := by
  cases r with
  | dangling => rfl
  | ret r =>
    cases r with
    | ok o => cases h
    | error e => cases e <;> cases h

theorem dangling_after (cs : List (Call ℚ)) (c : Call ℚ) (hk : ∀ r ∈ (run fresh cs).2, kind r = .ok ∨ kind r = .genex)
    (hd : kind ((run fresh cs).1.exec exEnv c).2 = .dangling) :
    ∃ (h : List (AnyCall ℚ × Reply ℚ)) (s s' : Api ℚ), History exEnv fresh h s ∧ h.map Prod.fst = cs.map .call ∧
      Step exEnv s (.call c) s' .dangling := by
  refine ⟨_, _, ((run fresh cs).1.exec exEnv c).1, run_fresh cs hk, ?_, ?_⟩
  · have hlen : ∀ (cs : List (Call ℚ)) (s : Api ℚ), (run s cs).2.length = cs.length := by
      intro cs
      induction cs with
      | nil => intro s; rfl
      | cons c cs ih => intro s; simp [run, ih]
    rw [List.map_fst_zip (by simp [hlen])]
  · exact Prod.ext rfl (kind_dangling hd)

/-- C47 is false: prepare, unload, load again, prepare: the unloaded dataset is read. -/
theorem C47_false :
    ∃ (h : List (AnyCall ℚ × Reply ℚ)) (s s' : Api ℚ), History exEnv fresh h s ∧
      h.map Prod.fst = [exTiny, .preparePAA "d" 1, .unload "d", exTiny].map .call ∧
      Step exEnv s (.call (.preparePAA "d" 1)) s' .dangling :=
  dangling_after _ _ (by decide +kernel) (by decide +kernel)

/-- C47 is false: prepare, unload, load again, search: the unloaded dataset is read. -/
theorem C47_search_false :
    ∃ (h : List (AnyCall ℚ × Reply ℚ)) (s s' : Api ℚ), History exEnv fresh h s ∧
      h.map Prod.fst = [exTiny, .preparePAA "d" 1, .unload "d", exTiny].map .call ∧
      Step exEnv s (.call (.kBestPAA 1 "d" "d" 0 0 1 "euclidean")) s' .dangling :=
  dangling_after _ _ (by decide +kernel) (by decide +kernel)

/-- C47 is false: the same after `unloadAllDataset`. -/
theorem C47_all_false :
    ∃ (h : List (AnyCall ℚ × Reply ℚ)) (s s' : Api ℚ), History exEnv fresh h s ∧
      h.map Prod.fst = [exTiny, .preparePAA "d" 1, .unloadAll, exTiny].map .call ∧
      Step exEnv s (.call (.kBestPAA 1 "d" "d" 0 0 1 "euclidean")) s' .dangling :=
  dangling_after _ _ (by decide +kernel) (by decide +kernel)

example := C47_other exEnv (run_fresh [exTiny, .preparePAA "d" 1, .unload "d", exTiny] (by decide +kernel))
  (.call (.info "d")) (by simp [UsesPAA]) (step_exec _ _)

theorem exKeeps : KeepsPrepared (([exTiny, exPairs, .preparePAA "d" 1, .unload "e"].map .call).zip
    (run fresh [exTiny, exPairs, .preparePAA "d" 1, .unload "e"]).2) := by
  generalize hr : run fresh [exTiny, exPairs, .preparePAA "d" 1, .unload "e"] = R
  simp only [run] at hr
  subst hr
  intro h₁ e h₂ heq
  rcases h₁ with _ | ⟨a, _ | ⟨b, _ | ⟨c, _ | ⟨d, h₁⟩⟩⟩⟩
  all_goals simp [exTiny, exPairs] at heq
  · obtain ⟨rfl, -⟩ := heq; simp
  · obtain ⟨rfl, rfl, -⟩ := heq; simp
  · obtain ⟨rfl, rfl, rfl, -⟩ := heq; simp
  · obtain ⟨rfl, rfl, rfl, rfl, -⟩ := heq
    refine ⟨fun name hn => ?_, by simp⟩
    simp at hn
    subst hn
    rintro ⟨e, he, b, hb⟩
    simp at he
    rcases he with rfl | rfl | rfl <;> simp at hb

/-- A search with PAA after another dataset has been unloaded. -/
example : kind ((run fresh [exTiny, exPairs, .preparePAA "d" 1, .unload "e"]).1.exec exEnv
    (.kBestPAA 1 "d" "d" 0 0 1 "euclidean")).2 = .ok := by decide +kernel
example := C47_partial exEnv (run_fresh [exTiny, exPairs, .preparePAA "d" 1, .unload "e"] (by decide +kernel)) exKeeps
  (.call (.kBestPAA 1 "d" "d" 0 0 1 "euclidean")) (step_exec _ _)

/-! ## C61 -/

/-- C61: what a call does to the datasets it names, and its reply, depend on these datasets and on the warping band only: when
two interfaces agree on them, every outcome of the call on one is an outcome on the other, and they agree afterwards.  Calls
about all datasets and about PAA are not covered here. -/
theorem C61_local [BandOps] (E : Env K) {h₁ h₂ : List (AnyCall K × Reply K)} {s t s' : Api K} (hs : History E fresh h₁ s)
    (ht : History E fresh h₂ t) (c : AnyCall K) (hp : ¬ UsesPAA c) (hg : ¬ Global c) (hr : s.ratio = t.ratio)
    (hn : ∀ n ∈ named c, SameAt s t n) {r : Reply K} (hc : Step E s c s' r) :
    ∃ t', Step E t c t' r ∧ ∀ n ∈ named c, SameAt s' t' n :=
  step_local E (inv_history inv_fresh hs) (inv_history inv_fresh ht) hp hg hr hn hc

/-- The same dataset next to another one. -/
example := C61_local exEnv (run_fresh [exPairs, exTiny] (by decide +kernel)) (run_fresh [exPairs] (by decide +kernel))
  (.call (.normalize "e")) (by simp [UsesPAA]) (by simp [Global]) rfl
  (by
    intro n hn
    rw [List.mem_singleton.1 hn]
    have h := C46_kept exEnv (run_fresh [exPairs] (by decide +kernel)) (run_history (.nil _) [exTiny] (by decide +kernel)) "e" (by
      intro e he
      simp [run] at he
      subst he
      exact .inl ⟨by simp [named, exTiny], by simp [exTiny]⟩)
    exact fun g => (h g).symm) (step_exec _ _)

end

end Genex.Props
