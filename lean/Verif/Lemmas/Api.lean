import Verif.Spec.Api
import Mathlib.Data.String.Basic
import Mathlib.Data.List.Nodup
import Mathlib.Data.Finset.Card

set_option linter.unusedSectionVars false

/-! Lemmas on the interface. -/

namespace Genex

/-! ## Maps -/

section
variable {β : Type}

theorem mapFind_nil (k : String) : mapFind ([] : List (String × β)) k = none := rfl

theorem mapFind_cons (k : String) (e : String × β) (m : List (String × β)) :
    mapFind (e :: m) k = if k = e.1 then some e.2 else mapFind m k := by
  obtain ⟨a, b⟩ := e
  unfold mapFind
  rw [List.lookup_cons]
  by_cases h : k = a
  · simp [h]
  · have : (k == a) = false := by simpa using h
    rw [this, if_neg h]

theorem mapFind_mem {m : List (String × β)} {k : String} {v : β} (h : mapFind m k = some v) : (k, v) ∈ m := by
  induction m with
  | nil => simp [mapFind_nil] at h
  | cons e m ih =>
    rw [mapFind_cons] at h
    split at h
    · rename_i hk
      cases h
      rw [hk]
      exact List.mem_cons_self
    · exact List.mem_cons_of_mem _ (ih h)

theorem mapFind_none {m : List (String × β)} {k : String} : mapFind m k = none ↔ ∀ v, (k, v) ∉ m := by
  induction m with
  | nil => simp [mapFind_nil]
  | cons e m ih =>
    rw [mapFind_cons]
    split
    · rename_i hk
      constructor
      · intro h; cases h
      · intro h
        exact absurd (by rw [hk]; exact List.mem_cons_self) (h e.2)
    · rename_i hk
      rw [ih]
      constructor
      · intro h v hv
        rcases List.mem_cons.1 hv with h' | h'
        · exact hk (by rw [← h'])
        · exact h v h'
      · exact fun h v hv => h v (List.mem_cons_of_mem _ hv)

theorem mapFind_mapSet (k : String) (v : β) (m : List (String × β)) (k' : String) :
    mapFind (mapSet k v m) k' = if k' = k then some v else mapFind m k' := by
  induction m with
  | nil => simp [mapSet, mapFind_cons, mapFind_nil]
  | cons e m ih =>
    unfold mapSet
    split
    · rename_i hk
      rw [mapFind_cons, mapFind_cons]
      by_cases h : k' = k
      · simp [h]
      · simp [h, ← hk]
    · rename_i hk
      split
      · rw [mapFind_cons]
      · rw [mapFind_cons, mapFind_cons, ih]
        by_cases h : k' = k
        · have : ¬ k' = e.1 := fun h' => hk (h ▸ h')
          rw [if_neg this, if_pos h, if_pos h]
        · simp [h]

theorem mem_mapSet {k : String} {v : β} {m : List (String × β)} {e : String × β} (h : e ∈ mapSet k v m) :
    e = (k, v) ∨ e ∈ m := by
  induction m with
  | nil => simpa [mapSet] using h
  | cons d m ih =>
    unfold mapSet at h
    split at h
    · rcases List.mem_cons.1 h with h | h
      · exact .inl h
      · exact .inr (List.mem_cons_of_mem _ h)
    · split at h
      · rcases List.mem_cons.1 h with h | h
        · exact .inl h
        · exact .inr h
      · rcases List.mem_cons.1 h with h | h
        · exact .inr (h ▸ List.mem_cons_self)
        · rcases ih h with h | h
          · exact .inl h
          · exact .inr (List.mem_cons_of_mem _ h)

/-- The keys are in order. -/
def SortedKeys (m : List (String × β)) : Prop := m.Pairwise (fun a b => a.1 < b.1)

theorem sorted_mapSet {k : String} {v : β} {m : List (String × β)} (h : SortedKeys m) : SortedKeys (mapSet k v m) := by
  induction m with
  | nil => exact List.pairwise_singleton _ _
  | cons d m ih =>
    have hd := List.pairwise_cons.1 h
    unfold mapSet
    split
    · rename_i hk
      exact List.pairwise_cons.2 ⟨fun a ha => by rw [hk]; exact hd.1 a ha, hd.2⟩
    · rename_i hk
      split
      · rename_i hlt
        refine List.pairwise_cons.2 ⟨fun a ha => ?_, h⟩
        rcases List.mem_cons.1 ha with rfl | ha
        · exact hlt
        · exact lt_trans hlt (hd.1 a ha)
      · rename_i hlt
        refine List.pairwise_cons.2 ⟨fun a ha => ?_, ih hd.2⟩
        rcases mem_mapSet ha with rfl | ha
        · exact lt_of_le_of_ne (_root_.not_lt.1 hlt) (fun h => hk h.symm)
        · exact hd.1 a ha

theorem mapSet_perm {k : String} {v : β} {m : List (String × β)} (h : mapFind m k = none) :
    (mapSet k v m).Perm ((k, v) :: m) := by
  induction m with
  | nil => exact List.Perm.refl _
  | cons d m ih =>
    rw [mapFind_cons] at h
    split at h
    · cases h
    · rename_i hk
      unfold mapSet
      rw [if_neg hk]
      split
      · exact List.Perm.refl _
      · exact ((ih h).cons d).trans (List.Perm.swap _ _ _)

theorem mem_mapErase {k : String} {m : List (String × β)} {e : String × β} :
    e ∈ mapErase m k ↔ e ∈ m ∧ e.1 ≠ k := by
  unfold mapErase
  rw [List.mem_filter]
  simp

theorem mapFind_mapErase (k : String) (m : List (String × β)) (k' : String) :
    mapFind (mapErase m k) k' = if k' = k then none else mapFind m k' := by
  induction m with
  | nil => simp [mapErase, mapFind_nil]
  | cons e m ih =>
    have hh : mapErase (e :: m) k = if e.1 = k then mapErase m k else e :: mapErase m k := by
      unfold mapErase
      rw [List.filter_cons]
      by_cases h : e.1 = k <;> simp [h]
    rw [hh, mapFind_cons]
    by_cases h : e.1 = k
    · rw [if_pos h, ih]
      by_cases h' : k' = k
      · simp [h']
      · have : ¬ k' = e.1 := fun h'' => h' (h''.trans h)
        simp [h', this]
    · rw [if_neg h, mapFind_cons, ih]
      by_cases h' : k' = k
      · have : ¬ k' = e.1 := fun h'' => h (h''.symm.trans h')
        rw [if_neg this, if_pos h', if_pos h']
      · simp [h']

theorem mapErase_absent {m : List (String × β)} {k : String} (h : mapFind m k = none) : mapErase m k = m := by
  unfold mapErase
  rw [List.filter_eq_self]
  rintro ⟨a, b⟩ ha
  have := mapFind_none.1 h b
  have : a ≠ k := fun h' => this (h' ▸ ha)
  simpa using this

theorem sorted_unique {m : List (String × β)} (h : SortedKeys m) {k : String} {v w : β} (hv : (k, v) ∈ m)
    (hw : (k, w) ∈ m) : v = w := by
  induction m with
  | nil => cases hv
  | cons d m ih =>
    have hd := List.pairwise_cons.1 h
    rcases List.mem_cons.1 hv with hv | hv <;> rcases List.mem_cons.1 hw with hw | hw
    · rw [← hw] at hv; exact (Prod.mk.inj hv).2
    · have := hd.1 _ hw
      rw [← hv] at this
      exact absurd this (lt_irrefl _)
    · have := hd.1 _ hv
      rw [← hw] at this
      exact absurd this (lt_irrefl _)
    · exact ih hd.2 hv hw

theorem mapFind_of_mem {m : List (String × β)} (h : SortedKeys m) {k : String} {v : β} (hv : (k, v) ∈ m) :
    mapFind m k = some v := by
  cases hf : mapFind m k with
  | none => exact absurd hv (mapFind_none.1 hf v)
  | some w => rw [sorted_unique h hv (mapFind_mem hf)]

theorem sorted_length_erase {m : List (String × β)} (h : SortedKeys m) {k : String} {v : β} (hv : mapFind m k = some v) :
    (mapErase m k).length + 1 = m.length := by
  induction m with
  | nil => simp [mapFind_nil] at hv
  | cons d m ih =>
    have hd := List.pairwise_cons.1 h
    rw [mapFind_cons] at hv
    split at hv
    · rename_i hk
      have : mapErase (d :: m) k = m := by
        have h1 : mapErase (d :: m) k = mapErase m k := by
          unfold mapErase; rw [List.filter_cons]; simp [hk]
        rw [h1]
        refine mapErase_absent (mapFind_none.2 (fun w hw => ?_))
        have := hd.1 _ hw
        rw [← hk] at this
        exact lt_irrefl _ this
      rw [this]; rfl
    · rename_i hk
      have : mapErase (d :: m) k = d :: mapErase m k := by
        have hk' : ¬ d.1 = k := fun h => hk h.symm
        unfold mapErase; rw [List.filter_cons]; simp [hk']
      rw [this]
      simp only [List.length_cons]
      have := ih hd.2 hv
      omega

theorem sorted_erase {m : List (String × β)} (h : SortedKeys m) (k : String) : SortedKeys (mapErase m k) :=
  List.Pairwise.filter _ h

end

namespace Api

variable {K : Type} [Field K] [LinearOrder K] [HasSqrt K] [Arith K] [BandOps]

open Registry

/-! ## The invariant -/

/-- The registry is in order. -/
structure Inv (s : Api K) : Prop where
  sorted : SortedKeys s.datasets
  ids : (s.datasets.map Prod.snd).Nodup
  live : ∀ e ∈ s.datasets, ∃ g, s.deref e.2 = some g
  count : s.count = s.datasets.length

theorem inv_fresh : Inv (fresh : Api K) :=
  ⟨List.Pairwise.nil, List.nodup_nil, (fun e he => by cases he), rfl⟩

theorem deref_some {s : Api K} {id : ℕ} {g : GSet K} : s.deref id = some g ↔ s.heap[id]? = some (some g) := by
  unfold deref
  cases s.heap[id]? with
  | none => simp
  | some o => cases o <;> simp

theorem Inv.find {s : Api K} (hI : Inv s) {name : String} {id : ℕ} (h : mapFind s.datasets name = some id) :
    ∃ g, s.deref id = some g := hI.live _ (mapFind_mem h)

theorem Inv.holds {s : Api K} (hI : Inv s) {name : String} {g : GSet K} :
    Holds s name g ↔ ∃ id, mapFind s.datasets name = some id ∧ s.deref id = some g := by
  constructor
  · rintro ⟨id, hm, hg⟩
    exact ⟨id, mapFind_of_mem hI.sorted hm, deref_some.2 hg⟩
  · rintro ⟨id, hm, hg⟩
    exact ⟨id, mapFind_mem hm, deref_some.1 hg⟩

theorem ids_unique {m : List (String × ℕ)} (h : (m.map Prod.snd).Nodup) {a b : String} {id : ℕ} (ha : (a, id) ∈ m)
    (hb : (b, id) ∈ m) : a = b := by
  induction m with
  | nil => cases ha
  | cons d m ih =>
    rw [List.map_cons, List.nodup_cons] at h
    rcases List.mem_cons.1 ha with h1 | h1 <;> rcases List.mem_cons.1 hb with h2 | h2
    · rw [← h2] at h1; exact (Prod.mk.inj h1).1
    · have := List.mem_map_of_mem (f := Prod.snd) h2
      rw [← h1] at h
      exact absurd this h.1
    · have := List.mem_map_of_mem (f := Prod.snd) h1
      rw [← h2] at h
      exact absurd this h.1
    · exact ih h.2 h1 h2

theorem withSet_none {s : Api K} {name : String} {f : ℕ → GSet K → Api K × Reply K} (h : mapFind s.datasets name = none) :
    s.withSet name f = (s, rejected) := by
  unfold withSet
  rw [h]
  rfl

theorem withSet_some {s : Api K} {name : String} {f : ℕ → GSet K → Api K × Reply K} {id : ℕ} {g : GSet K}
    (h : mapFind s.datasets name = some id) (hg : s.deref id = some g) : s.withSet name f = f id g := by
  unfold withSet
  rw [h]
  simp only [hg]

theorem withSet_fst {s : Api K} {name : String} {f : ℕ → GSet K → Api K × Reply K} (h : ∀ id g, (f id g).1 = s) :
    (s.withSet name f).1 = s := by
  unfold withSet
  split
  · rfl
  · split
    · rfl
    · exact h _ _

/-- A set found by its name, or none. -/
theorem Inv.cases {s : Api K} (hI : Inv s) (name : String) :
    mapFind s.datasets name = none ∨ ∃ id g, mapFind s.datasets name = some id ∧ s.deref id = some g := by
  cases h : mapFind s.datasets name with
  | none => exact .inl rfl
  | some id =>
    obtain ⟨g, hg⟩ := hI.find h
    exact .inr ⟨id, g, rfl, hg⟩

/-! ## How loading fails -/

/-- Loading fails with an exception of its own or is undefined. -/
def Plain (r : Res Unit) : Prop := ∀ msg, r ≠ .error (.std msg)

theorem write_plain {ds : Dataset K} {i : Int} {x : Dbl K} {e : Fault} (h : ds.write i x = .error e) : ∀ msg, e ≠ .std msg := by
  unfold Dataset.write at h
  split at h
  · cases h; simp
  · split at h
    · cases h
    · cases h; simp

theorem loadToks_plain (parse : Text → Parsed K) (raw sc : Int) (hn : Bool) (row : ℕ) (ts : List Text) (col : ℕ) (ds : Dataset K) :
    Plain (Dataset.loadToks parse raw sc hn row ts col ds).2 := by
  induction ts generalizing col ds with
  | nil => simp [Dataset.loadToks, Plain]
  | cons t ts ih =>
    unfold Dataset.loadToks
    split
    · split
      · exact ih _ _
      · split
        · simp [Plain]
        · simp [Plain]
        · split
          · rename_i e he
            intro msg h
            cases h
            exact write_plain he msg rfl
          · exact ih _ _
    · exact ih _ _

theorem loadRows_plain (parse : Text → Parsed K) (sep : List Char) (raw sc : Int) (hn : Bool) (ls : List Text) (row : ℕ) (ds : Dataset K) :
    Plain (Dataset.loadRows parse sep raw sc hn ls row ds).2 := by
  induction ls generalizing row ds with
  | nil => simp [Dataset.loadRows, Plain]
  | cons l ls ih =>
    unfold Dataset.loadRows
    simp only
    split
    · rename_i e he
      intro msg h
      cases h
      exact loadToks_plain _ _ _ _ _ _ _ _ msg he
    · exact ih _ _

theorem loadData_plain (parse : Text → Parsed K) (file : Option Text) (path : Text) (m sc : Int) (sep : List Char) (hn : Bool)
    (ds : Dataset K) : Plain (Dataset.loadData parse file path m sc sep hn ds).2 := by
  unfold Dataset.loadData
  simp only
  split
  · simp [Plain]
  · split
    · rename_i e he
      intro msg h
      cases h
      exact loadRows_plain _ _ _ _ _ _ _ _ msg he
    · simp [Plain]

theorem load_fault {parse : Text → Parsed K} {file : Option Text} {path : Text} {m sc : Int} {sep : List Char} {hn : Bool}
    {ds : Dataset K} {e : Fault} (h : ∀ msg, e = .genex msg → False)
    (he : (Dataset.loadData parse file path m sc sep hn ds).2 = .error e) : ¬ Survives (.ret (.error e) : Reply K) := by
  cases e with
  | genex msg => exact fun _ => h msg rfl
  | std msg => exact fun _ => loadData_plain _ _ _ _ _ _ _ _ msg he
  | ub => exact fun h => h
  | diverge => exact fun h => h

/-! ## The effect of a call -/

/-- The effects that a call can have on the heap, the registry and the count. -/
inductive Eff (s : Api K) (c : AnyCall K) (s' : Api K) (r : Reply K) : Prop
  | same (hh : s'.heap = s.heap) (hd : s'.datasets = s.datasets) (hc : s'.count = s.count)
      (hr : ∀ n, register n (c, r) = n)
  | leak (o : Option (GSet K)) (hh : s'.heap = s.heap ++ [o]) (hd : s'.datasets = s.datasets) (hc : s'.count = s.count)
      (hr : ∀ n, register n (c, r) = n) (hs : Survives r → o = none)
  | add (name : String) (g : GSet K) (hf : mapFind s.datasets name = none) (hh : s'.heap = s.heap ++ [some g])
      (hd : s'.datasets = mapSet name s.heap.length s.datasets) (hc : s'.count = s.count + 1)
      (hr : ∀ n, register n (c, r) = insert name n) (hn : named c = [name]) (hch : Changes c)
  | store (name : String) (id : ℕ) (g₀ g : GSet K) (hf : mapFind s.datasets name = some id) (hg : s.deref id = some g₀)
      (hh : s'.heap = s.heap.set id (some g)) (hd : s'.datasets = s.datasets) (hc : s'.count = s.count)
      (hr : ∀ n, register n (c, r) = n) (hn : named c = [name]) (hch : Changes c)
  | remove (name : String) (id : ℕ) (g : GSet K) (hf : mapFind s.datasets name = some id) (hg : s.deref id = some g)
      (hh : s'.heap = s.heap.set id none) (hd : s'.datasets = mapErase s.datasets name) (hc : s'.count = s.count - 1)
      (hr : ∀ n, register n (c, r) = n.erase name) (hn : named c = [name]) (hch : Changes c)
  | clear (hh : ∃ t, deleteAll s.datasets s = some t ∧ s'.heap = t.heap) (hd : s'.datasets = []) (hc : s'.count = 0) (hr : ∀ n, register n (c, r) = ∅) (hch : c = .call .unloadAll)

/-- The calls that leave the registry as it is. -/
def Reads : Call K → Prop
  | .load _ _ _ _ _ _ _ => False
  | .unload _ => False
  | .unloadAll => False
  | .normalize _ => False
  | .loadGroups _ _ => False
  | .loadGroupsOld _ _ => False
  | .setRatio _ => False
  | .preparePAA _ _ => False
  | _ => True

theorem exec_reads (E : Env K) (s : Api K) (c : Call K) (h : Reads c) : (s.exec E c).1 = s := by
  cases c <;> first
    | exact h.elim
    | (simp only [exec]; done)
    | (simp only [exec]
       refine withSet_fst (fun id g => ?_)
       first
         | rfl
         | (refine withSet_fst (fun id g => ?_)
            first
              | rfl
              | (repeat' split) <;> rfl))
    | (simp only [exec]; split <;> rfl)

theorem reads_register {c : Call K} (h : Reads c) (r : Reply K) (n : Finset String) : register n (.call c, r) = n := by
  cases c <;> first | exact h.elim | rfl

theorem deleteAll_some {m : List (String × ℕ)} {s : Api K} (hn : (m.map Prod.snd).Nodup)
    (hl : ∀ e ∈ m, ∃ g, s.deref e.2 = some g) :
    ∃ s', deleteAll m s = some s' ∧ s'.wrappers = s.wrappers ∧ s'.ratio = s.ratio := by
  induction m generalizing s with
  | nil => exact ⟨s, rfl, rfl, rfl⟩
  | cons d m ih =>
    rw [List.map_cons, List.nodup_cons] at hn
    obtain ⟨g, hg⟩ := hl d List.mem_cons_self
    have hdel : s.delete d.2 = some { s with heap := s.heap.set d.2 none } := by
      unfold delete
      rw [hg]
      rfl
    obtain ⟨s', h1, h2, h3⟩ := @ih { s with heap := s.heap.set d.2 none } hn.2 (by
      intro e he
      obtain ⟨g', hg'⟩ := hl e (List.mem_cons_of_mem _ he)
      refine ⟨g', ?_⟩
      rw [deref_some] at hg' ⊢
      have : d.2 ≠ e.2 := fun h => hn.1 (h ▸ List.mem_map_of_mem (f := Prod.snd) he)
      rw [List.getElem?_set_ne this]
      exact hg')
    exact ⟨s', by unfold deleteAll; rw [hdel]; exact h1, h2, h3⟩

theorem metaOf_ungrouped (name : String) (ds : Dataset K) :
    metaOf name ⟨ds, none⟩ = .ok ⟨name, ds.itemCount, ds.maxCol, ds.normalized, false, "", 0⟩ := rfl

theorem step_eff {E : Env K} {s s' : Api K} {c : AnyCall K} {r : Reply K} (hI : Inv s) (h : Step E s c s' r) :
    Eff s c s' r := by
  cases c with
  | group name t distance numThreads whole =>
    unfold Step GroupCall at h
    simp only at h
    rcases hI.cases name with hf | ⟨id, g, hf, hg⟩
    · rw [hf] at h
      obtain ⟨rfl, rfl⟩ := h
      exact .same rfl rfl rfl (fun _ => rfl)
    · rw [hf] at h
      simp only [hg] at h
      obtain ⟨log, out, -, rfl, rfl⟩ := h
      exact .store name id g out.1 hf hg rfl rfl rfl (fun _ => rfl) rfl trivial
  | call c =>
    change s.exec E c = (s', r) at h
    by_cases hr : Reads c
    · have h1 := exec_reads E s c hr
      rw [h] at h1
      simp only at h1
      subst h1
      exact .same rfl rfl rfl (fun _ => reads_register hr _ _)
    · cases c <;> first | exact absurd trivial hr | skip
      case load name file path sep maxNumRow startCol hasName =>
        simp only [exec] at h
        cases hf : mapFind s.datasets name with
        | some id =>
          rw [hf] at h
          cases h
          exact .same rfl rfl rfl (fun _ => rfl)
        | none =>
          rw [hf] at h
          simp only at h
          split at h
          · cases h
            exact .leak none rfl rfl rfl (fun _ => rfl) (fun _ => rfl)
          · cases h
            exact .leak _ rfl rfl rfl (fun _ => rfl) (fun hsv => absurd hsv (load_fault (by assumption) (by assumption)))
          · cases h
            exact .add name _ hf rfl rfl rfl (fun _ => rfl) rfl trivial
      case unload name =>
        simp only [exec] at h
        rcases hI.cases name with hf | ⟨id, g, hf, hg⟩
        · rw [withSet_none hf] at h
          cases h
          exact .same rfl rfl rfl (fun _ => rfl)
        · rw [withSet_some hf hg] at h
          have hdel : s.delete id = some { s with heap := s.heap.set id none } := by
            unfold delete
            rw [hg]
            rfl
          simp only [hdel] at h
          cases h
          exact .remove name id g hf hg rfl rfl rfl (fun _ => rfl) rfl trivial
      case unloadAll =>
        simp only [exec] at h
        obtain ⟨t, ht, -, -⟩ := deleteAll_some (s := s) hI.ids hI.live
        rw [ht] at h
        cases h
        exact .clear ⟨t, ht, rfl⟩ rfl rfl (fun _ => rfl) rfl
      case normalize name =>
        simp only [exec] at h
        rcases hI.cases name with hf | ⟨id, g, hf, hg⟩
        · rw [withSet_none hf] at h
          cases h
          exact .same rfl rfl rfl (fun _ => rfl)
        · rw [withSet_some hf hg] at h
          split at h
          · cases h
            exact .same rfl rfl rfl (fun _ => rfl)
          · cases h
            exact .store name id g _ hf hg rfl rfl rfl (fun _ => rfl) rfl trivial
      case loadGroups name file =>
        simp only [exec] at h
        rcases hI.cases name with hf | ⟨id, g, hf, hg⟩
        · rw [withSet_none hf] at h
          cases h
          exact .same rfl rfl rfl (fun _ => rfl)
        · rw [withSet_some hf hg] at h
          cases h
          exact .store name id g _ hf hg rfl rfl rfl (fun _ => rfl) rfl trivial
      case loadGroupsOld name file =>
        simp only [exec] at h
        rcases hI.cases name with hf | ⟨id, g, hf, hg⟩
        · rw [withSet_none hf] at h
          cases h
          exact .same rfl rfl rfl (fun _ => rfl)
        · rw [withSet_some hf hg] at h
          cases h
          exact .store name id g _ hf hg rfl rfl rfl (fun _ => rfl) rfl trivial
      case setRatio ratio =>
        cases h
        exact .same rfl rfl rfl (fun _ => rfl)
      case preparePAA name b =>
        simp only [exec] at h
        rcases hI.cases name with hf | ⟨id, g, hf, hg⟩
        · rw [withSet_none hf] at h
          cases h
          exact .same rfl rfl rfl (fun _ => rfl)
        · rw [withSet_some hf hg] at h
          repeat' split at h
          all_goals cases h; exact .same rfl rfl rfl (fun _ => rfl)

/-! ## The invariant is kept -/

theorem inv_eff {s s' : Api K} {c : AnyCall K} {r : Reply K} (hI : Inv s) (h : Eff s c s' r) : Inv s' := by
  have hlt : ∀ {id g}, s.deref id = some g → id < s.heap.length := fun hg => by
    rw [deref_some] at hg
    exact (List.getElem?_eq_some_iff.1 hg).1
  cases h with
  | same hh hd hc hr =>
    refine ⟨by rw [hd]; exact hI.sorted, by rw [hd]; exact hI.ids, ?_, by rw [hc, hd]; exact hI.count⟩
    intro e he
    rw [hd] at he
    obtain ⟨g, hg⟩ := hI.live e he
    exact ⟨g, by unfold deref at hg ⊢; rw [hh]; exact hg⟩
  | leak o hh hd hc hr hs =>
    refine ⟨by rw [hd]; exact hI.sorted, by rw [hd]; exact hI.ids, ?_, by rw [hc, hd]; exact hI.count⟩
    intro e he
    rw [hd] at he
    obtain ⟨g, hg⟩ := hI.live e he
    exact ⟨g, by unfold deref at hg ⊢; rw [hh, List.getElem?_append_left (hlt hg)]; exact hg⟩
  | add name g hf hh hd hc hr hn hch =>
    refine ⟨by rw [hd]; exact sorted_mapSet hI.sorted, ?_, ?_, ?_⟩
    · rw [hd, ((mapSet_perm hf).map Prod.snd).nodup_iff, List.map_cons, List.nodup_cons]
      refine ⟨fun hm => ?_, hI.ids⟩
      obtain ⟨e, he, hid⟩ := List.mem_map.1 hm
      obtain ⟨g', hg'⟩ := hI.live e he
      have := hlt hg'
      omega
    · intro e he
      rw [hd] at he
      rcases mem_mapSet he with rfl | he
      · exact ⟨g, deref_some.2 (by rw [hh]; simp)⟩
      · obtain ⟨g', hg'⟩ := hI.live e he
        exact ⟨g', by unfold deref at hg' ⊢; rw [hh, List.getElem?_append_left (hlt hg')]; exact hg'⟩
    · rw [hc, hd, (mapSet_perm hf).length_eq, hI.count]
      simp
  | store name id g₀ g hf hg hh hd hc hr hn hch =>
    refine ⟨by rw [hd]; exact hI.sorted, by rw [hd]; exact hI.ids, ?_, by rw [hc, hd]; exact hI.count⟩
    intro e he
    rw [hd] at he
    by_cases hid : e.2 = id
    · refine ⟨g, deref_some.2 ?_⟩
      rw [hh, hid, List.getElem?_set_self (hlt hg)]
    · obtain ⟨g', hg'⟩ := hI.live e he
      refine ⟨g', ?_⟩
      unfold deref at hg' ⊢
      rw [hh, List.getElem?_set_ne (fun h => hid h.symm)]
      exact hg'
  | remove name id g hf hg hh hd hc hr hn hch =>
    refine ⟨by rw [hd]; exact sorted_erase hI.sorted _, ?_, ?_, ?_⟩
    · rw [hd]
      exact hI.ids.sublist (List.Sublist.map _ List.filter_sublist)
    · intro e he
      rw [hd, mem_mapErase] at he
      obtain ⟨g', hg'⟩ := hI.live e he.1
      have hid : id ≠ e.2 := fun h => he.2 (ids_unique hI.ids (id := id) (by rw [h]; exact he.1) (mapFind_mem hf))
      refine ⟨g', ?_⟩
      unfold deref at hg' ⊢
      rw [hh, List.getElem?_set_ne hid]
      exact hg'
    · have := sorted_length_erase hI.sorted hf
      rw [hc, hd, hI.count]
      omega
  | clear hh hd hc hr hch =>
    exact ⟨by rw [hd]; exact List.Pairwise.nil, by rw [hd]; exact List.nodup_nil,
      (by rw [hd]; intro e he; cases he), by rw [hc, hd]; rfl⟩

theorem inv_step {E : Env K} {s s' : Api K} {c : AnyCall K} {r : Reply K} (hI : Inv s) (h : Step E s c s' r) : Inv s' :=
  inv_eff hI (step_eff hI h)

theorem inv_history {E : Env K} {s s' : Api K} {h : List (AnyCall K × Reply K)} (hI : Inv s) (hh : History E s h s') :
    Inv s' := by
  induction hh with
  | nil => exact hI
  | snoc h1 h2 h3 ih => exact inv_step ih h2

/-! ## The registry follows the history -/

/-- The keys of the map are the names. -/
def HasKeys (s : Api K) (n : Finset String) : Prop := ∀ name, name ∈ n ↔ (mapFind s.datasets name).isSome = true

theorem keys_eff {s s' : Api K} {c : AnyCall K} {r : Reply K} {n : Finset String} (hk : HasKeys s n) (h : Eff s c s' r) :
    HasKeys s' (register n (c, r)) := by
  intro name
  cases h with
  | same hh hd hc hr => rw [hr, hd]; exact hk name
  | leak o hh hd hc hr hs => rw [hr, hd]; exact hk name
  | add name' g hf hh hd hc hr hn hch =>
    rw [hr, hd, mapFind_mapSet, Finset.mem_insert, hk name]
    by_cases h : name = name' <;> simp [h]
  | store name' id g₀ g hf hg hh hd hc hr hn hch => rw [hr, hd]; exact hk name
  | remove name' id g hf hg hh hd hc hr hn hch =>
    rw [hr, hd, mapFind_mapErase, Finset.mem_erase, hk name]
    by_cases h : name = name' <;> simp [h]
  | clear hh hd hc hr hch => rw [hr, hd]; simp [mapFind_nil]

theorem keys_history {E : Env K} {s' : Api K} {h : List (AnyCall K × Reply K)} (hh : History E fresh h s') :
    HasKeys s' (loaded h) := by
  induction hh with
  | nil =>
    intro name
    simp [loaded, fresh, mapFind_nil]
  | snoc h1 h2 h3 ih =>
    have := keys_eff ih (step_eff (inv_history inv_fresh h1) h2)
    unfold loaded at this ⊢
    rw [List.foldl_append]
    exact this

theorem sorted_nodup {β : Type} {m : List (String × β)} (h : SortedKeys m) : (m.map Prod.fst).Nodup := by
  unfold List.Nodup
  rw [List.pairwise_map]
  exact h.imp (fun hab => ne_of_lt hab)

theorem keys_card {s : Api K} {n : Finset String} (hI : Inv s) (hk : HasKeys s n) : n.card = s.datasets.length := by
  have h1 : n = (s.datasets.map Prod.fst).toFinset := by
    ext name
    rw [hk name, List.mem_toFinset, List.mem_map]
    constructor
    · intro h
      obtain ⟨id, hid⟩ := Option.isSome_iff_exists.1 h
      exact ⟨_, mapFind_mem hid, rfl⟩
    · rintro ⟨e, he, rfl⟩
      rw [mapFind_of_mem hI.sorted (k := e.1) (v := e.2) he]
      rfl
  rw [h1, List.toFinset_card_of_nodup (sorted_nodup hI.sorted), List.length_map]

/-! ## Other datasets -/

theorem holds_eff {s s' : Api K} {c : AnyCall K} {r : Reply K} (hI : Inv s) (h : Eff s c s' r) {name : String}
    (hn : ¬ (Changes c ∧ (name ∈ named c ∨ c = .call .unloadAll))) : SameAt s s' name := by
  intro x
  have hI' := inv_eff hI h
  have hlt : ∀ {id g}, s.deref id = some g → id < s.heap.length := fun hg => by
    rw [deref_some] at hg
    exact (List.getElem?_eq_some_iff.1 hg).1
  have key : ∀ (hd : mapFind s'.datasets name = mapFind s.datasets name)
      (hh : ∀ id, mapFind s.datasets name = some id → s'.deref id = s.deref id), Holds s name x ↔ Holds s' name x := by
    intro hd hh
    rw [hI.holds, hI'.holds, hd]
    constructor
    · rintro ⟨id, h1, h2⟩
      exact ⟨id, h1, by rw [hh id h1]; exact h2⟩
    · rintro ⟨id, h1, h2⟩
      exact ⟨id, h1, by rw [← hh id h1]; exact h2⟩
  cases h with
  | same hh hd hc hr => exact key (by rw [hd]) (fun id _ => by unfold deref; rw [hh])
  | leak o hh hd hc hr hs =>
    refine key (by rw [hd]) (fun id hid => ?_)
    obtain ⟨g, hg⟩ := hI.find hid
    unfold deref
    rw [hh, List.getElem?_append_left (hlt hg)]
  | add name' g hf hh hd hc hr hn' hch =>
    have hne : name ≠ name' := fun h => hn ⟨hch, .inl (by rw [hn', h]; exact List.mem_singleton.2 rfl)⟩
    refine key (by rw [hd, mapFind_mapSet, if_neg hne]) (fun id hid => ?_)
    obtain ⟨g, hg⟩ := hI.find hid
    unfold deref
    rw [hh, List.getElem?_append_left (hlt hg)]
  | store name' id' g₀ g hf hg hh hd hc hr hn' hch =>
    have hne : name ≠ name' := fun h => hn ⟨hch, .inl (by rw [hn', h]; exact List.mem_singleton.2 rfl)⟩
    refine key (by rw [hd]) (fun id hid => ?_)
    have : id' ≠ id := fun h => hne (ids_unique hI.ids (mapFind_mem hid) (h ▸ mapFind_mem hf))
    unfold deref
    rw [hh, List.getElem?_set_ne this]
  | remove name' id' g hf hg hh hd hc hr hn' hch =>
    have hne : name ≠ name' := fun h => hn ⟨hch, .inl (by rw [hn', h]; exact List.mem_singleton.2 rfl)⟩
    refine key (by rw [hd, mapFind_mapErase, if_neg hne]) (fun id hid => ?_)
    have : id' ≠ id := fun h => hne (ids_unique hI.ids (mapFind_mem hid) (h ▸ mapFind_mem hf))
    unfold deref
    rw [hh, List.getElem?_set_ne this]
  | clear hh hd hc hr hch =>
    subst hch
    exact absurd ⟨trivial, .inr rfl⟩ hn

/-! ## Dangling pointers -/

theorem withSet_ret {s : Api K} (hI : Inv s) {name : String} {f : ℕ → GSet K → Api K × Reply K}
    (h : ∀ id g, mapFind s.datasets name = some id → s.deref id = some g → (f id g).2 ≠ .dangling) :
    (s.withSet name f).2 ≠ .dangling := by
  rcases hI.cases name with hf | ⟨id, g, hf, hg⟩
  · rw [withSet_none hf]
    exact fun h => by cases h
  · rw [withSet_some hf hg]
    exact h id g hf hg

theorem allSets_some {s : Api K} {m : List (String × ℕ)} (hl : ∀ e ∈ m, ∃ g, s.deref e.2 = some g) :
    ∃ l, s.allSets m = some l ∧ l.map Prod.fst = m.map Prod.fst ∧
      ∀ e ∈ l, ∃ id, (e.1, id) ∈ m ∧ s.deref id = some e.2 := by
  induction m with
  | nil => exact ⟨[], rfl, rfl, by intro e he; cases he⟩
  | cons d m ih =>
    obtain ⟨g, hg⟩ := hl d List.mem_cons_self
    obtain ⟨l, h1, h2, h3⟩ := ih (fun e he => hl e (List.mem_cons_of_mem _ he))
    refine ⟨(d.1, g) :: l, ?_, ?_, ?_⟩
    · simp only [allSets, hg, h1, Option.bind_some, Option.map_some]
    · rw [List.map_cons, List.map_cons, h2]
    · intro e he
      rcases List.mem_cons.1 he with rfl | he
      · exact ⟨d.2, List.mem_cons_self, hg⟩
      · obtain ⟨id, h4, h5⟩ := h3 e he
        exact ⟨id, List.mem_cons_of_mem _ h4, h5⟩

theorem step_ret {E : Env K} {s s' : Api K} {c : AnyCall K} {r : Reply K} (hI : Inv s) (h : Step E s c s' r)
    (hp : ¬ UsesPAA c) : r ≠ .dangling := by
  cases c with
  | group name t distance numThreads whole =>
    unfold Step GroupCall at h
    simp only at h
    rcases hI.cases name with hf | ⟨id, g, hf, hg⟩
    · rw [hf] at h
      rw [h.2]
      exact fun h => by cases h
    · rw [hf] at h
      simp only [hg] at h
      obtain ⟨log, out, -, -, rfl⟩ := h
      exact fun h => by cases h
  | call c =>
    change s.exec E c = (s', r) at h
    have h2 : r = (s.exec E c).2 := by rw [h]
    rw [h2]
    cases c <;> first | exact absurd trivial hp | skip
    case load name file path sep maxNumRow startCol hasName =>
      simp only [exec]
      repeat' split
      all_goals exact fun h => by cases h
    case unload name =>
      simp only [exec]
      refine withSet_ret hI (fun id g hf hg => ?_)
      have hdel : s.delete id = some { s with heap := s.heap.set id none } := by
        unfold delete
        rw [hg]
        rfl
      simp only [hdel]
      exact fun h => by cases h
    case unloadAll =>
      simp only [exec]
      obtain ⟨t, ht, -, -⟩ := deleteAll_some (s := s) hI.ids hI.live
      rw [ht]
      exact fun h => by cases h
    case allInfo =>
      simp only [exec]
      obtain ⟨l, hl, -, -⟩ := allSets_some hI.live
      rw [hl]
      exact fun h => by cases h
    case normalize name =>
      simp only [exec]
      refine withSet_ret hI (fun id g hf hg => ?_)
      split <;> exact fun h => by cases h
    all_goals
      simp only [exec]
      first
        | exact fun h => by cases h
        | (refine withSet_ret hI (fun id g hf hg => ?_)
           first
             | exact fun h => by cases h
             | (refine withSet_ret hI (fun id g hf hg => ?_)
                exact fun h => by cases h))

/-! ## Wrappers -/

theorem step_wrappers {E : Env K} {s s' : Api K} {c : AnyCall K} {r : Reply K} (hI : Inv s) (h : Step E s c s' r) :
    s'.wrappers = s.wrappers ∨ ∃ name b id wid w, c = .call (.preparePAA name b) ∧ mapFind s.datasets name = some id ∧
      s'.wrappers = mapSet name (wid, w) s.wrappers ∧ (wid = id ∨ ∃ w₀, mapFind s.wrappers name = some (wid, w₀)) := by
  cases c with
  | group name t distance numThreads whole =>
    left
    unfold Step GroupCall at h
    simp only at h
    repeat' split at h
    · rw [h.1]
    · rw [h.1]
    · obtain ⟨log, out, -, rfl, -⟩ := h
      rfl
  | call c =>
    change s.exec E c = (s', r) at h
    by_cases hr : Reads c
    · have h1 := exec_reads E s c hr
      rw [h] at h1
      simp only at h1
      rw [h1]
      exact .inl rfl
    · cases c <;> first | exact absurd trivial hr | skip
      case load name file path sep maxNumRow startCol hasName =>
        simp only [exec] at h
        repeat' split at h
        all_goals cases h; exact .inl rfl
      case unload name =>
        simp only [exec] at h
        rcases hI.cases name with hf | ⟨id, g, hf, hg⟩
        · rw [withSet_none hf] at h
          cases h
          exact .inl rfl
        · rw [withSet_some hf hg] at h
          have hdel : s.delete id = some { s with heap := s.heap.set id none } := by
            unfold delete
            rw [hg]
            rfl
          simp only [hdel] at h
          cases h
          left
          simp only
          split
          · rename_i hw
            exact mapErase_absent (Option.isNone_iff_eq_none.1 hw)
          · rfl
      case unloadAll =>
        simp only [exec] at h
        obtain ⟨t, ht, hw, -⟩ := deleteAll_some (s := s) hI.ids hI.live
        rw [ht] at h
        cases h
        exact .inl hw
      case normalize name =>
        simp only [exec] at h
        rcases hI.cases name with hf | ⟨id, g, hf, hg⟩
        · rw [withSet_none hf] at h
          cases h
          exact .inl rfl
        · rw [withSet_some hf hg] at h
          split at h <;> cases h <;> exact .inl rfl
      case loadGroups name file =>
        simp only [exec] at h
        rcases hI.cases name with hf | ⟨id, g, hf, hg⟩
        · rw [withSet_none hf] at h
          cases h
          exact .inl rfl
        · rw [withSet_some hf hg] at h
          cases h
          exact .inl rfl
      case loadGroupsOld name file =>
        simp only [exec] at h
        rcases hI.cases name with hf | ⟨id, g, hf, hg⟩
        · rw [withSet_none hf] at h
          cases h
          exact .inl rfl
        · rw [withSet_some hf hg] at h
          cases h
          exact .inl rfl
      case setRatio ratio =>
        cases h
        exact .inl rfl
      case preparePAA name b =>
        simp only [exec] at h
        rcases hI.cases name with hf | ⟨id, g, hf, hg⟩
        · rw [withSet_none hf] at h
          cases h
          exact .inl rfl
        · rw [withSet_some hf hg] at h
          cases hw : mapFind s.wrappers name with
          | some ww =>
            obtain ⟨wid, w⟩ := ww
            rw [hw] at h
            simp only at h
            repeat' split at h
            · cases h
              exact .inl rfl
            · cases h
              exact .inl rfl
            · cases h
              exact .inr ⟨name, b, id, wid, _, rfl, hf, rfl, .inr ⟨w, hw⟩⟩
          | none =>
            rw [hw] at h
            simp only at h
            split at h
            · cases h
              exact .inl rfl
            · cases h
              exact .inr ⟨name, b, id, id, _, rfl, hf, rfl, .inl rfl⟩

/-- Every wrapper refers to the dataset that is loaded under its name. -/
def Wrapped (s : Api K) : Prop :=
  ∀ name wid w, mapFind s.wrappers name = some (wid, w) → mapFind s.datasets name = some wid

/-- Only prepared names have a wrapper. -/
theorem prepared_history {E : Env K} {s' : Api K} {h : List (AnyCall K × Reply K)} (hh : History E fresh h s')
    {name : String} {e : ℕ × Paa K} (hw : mapFind s'.wrappers name = some e) : Prepared h name := by
  induction hh with
  | nil => cases hw
  | @snoc t u h c r h1 h2 h3 ih =>
    rcases step_wrappers (inv_history inv_fresh h1) h2 with hw' | ⟨n, b, id, wid, w, hc, hf, hw', -⟩
    · rw [hw'] at hw
      obtain ⟨e, he, b, hb⟩ := ih hw
      exact ⟨e, List.mem_append_left _ he, b, hb⟩
    · rw [hw', mapFind_mapSet] at hw
      split at hw
      · rename_i hn
        exact ⟨_, List.mem_append_right _ (List.mem_singleton.2 rfl), b, by rw [hn]; exact hc⟩
      · obtain ⟨e, he, b, hb⟩ := ih hw
        exact ⟨e, List.mem_append_left _ he, b, hb⟩

theorem keepsPrepared_snoc {h : List (AnyCall K × Reply K)} {e : AnyCall K × Reply K} (hk : KeepsPrepared (h ++ [e])) :
    KeepsPrepared h ∧ (∀ name, e.1 = .call (.unload name) → ¬ Prepared h name) ∧
      (e.1 = .call .unloadAll → ∀ name, ¬ Prepared h name) := by
  refine ⟨fun h₁ e' h₂ heq => hk h₁ e' (h₂ ++ [e]) (by rw [heq]; simp), ?_⟩
  exact hk h e [] rfl

theorem wrapped_history {E : Env K} {s' : Api K} {h : List (AnyCall K × Reply K)} (hh : History E fresh h s')
    (hk : KeepsPrepared h) : Wrapped s' := by
  induction hh with
  | nil => intro name wid w hw; cases hw
  | @snoc t u h c r h1 h2 h3 ih =>
    obtain ⟨hk1, hk2, hk3⟩ := keepsPrepared_snoc hk
    have hW := ih hk1
    have hI := inv_history inv_fresh h1
    have hE := step_eff hI h2
    intro name wid w hw
    rcases step_wrappers hI h2 with hw' | ⟨n, b, id, wid', w', hc, hf, hw', hor⟩
    · rw [hw'] at hw
      have h0 := hW name wid w hw
      have hp := prepared_history h1 hw
      cases hE with
      | same hh hd hc hr => rw [hd]; exact h0
      | leak o hh hd hc hr hs => rw [hd]; exact h0
      | add name' g hf hh hd hc hr hn hch =>
        rw [hd, mapFind_mapSet, if_neg]
        · exact h0
        · intro heq
          rw [heq, hf] at h0
          cases h0
      | store name' id g₀ g hf hg hh hd hc hr hn hch => rw [hd]; exact h0
      | remove name' id g hf hg hh hd hc hr hn hch =>
        rw [hd, mapFind_mapErase, if_neg]
        · exact h0
        · intro heq
          -- only `unload` erases a name
          have : c = .call (.unload name') := by
            have hr' := hr {name'}
            cases c with
            | group a b c d e => simp [register] at hr'
            | call c =>
              cases c <;> try (simp [register] at hr'; done)
              all_goals
                simp only [named, List.cons.injEq, and_true] at hn
                try subst hn
                try rfl
              all_goals
                unfold register at hr'
                split at hr' <;> simp_all
          exact hk2 name' this (heq ▸ hp)
      | clear hh hd hc hr hch => exact absurd hp (hk3 hch name)
    · subst hc
      have hsame : u.datasets = t.datasets := by
        have h2' : t.exec E (.preparePAA n b) = (u, r) := h2
        simp only [exec] at h2'
        obtain ⟨g, hg⟩ := hI.find hf
        rw [withSet_some hf hg] at h2'
        repeat' split at h2'
        all_goals cases h2'; rfl
      rw [hsame]
      rw [hw', mapFind_mapSet] at hw
      split at hw
      · rename_i hn
        cases hw
        rcases hor with rfl | ⟨w₀, hw₀⟩
        · rw [hn]; exact hf
        · rw [hn]; exact hW n _ _ hw₀
      · exact hW name wid w hw

theorem step_wrapped {E : Env K} {s s' : Api K} {c : AnyCall K} {r : Reply K} (hI : Inv s) (hW : Wrapped s)
    (h : Step E s c s' r) : r ≠ .dangling := by
  by_cases hp : UsesPAA c
  swap
  · exact step_ret hI h hp
  cases c with
  | group name t distance numThreads whole => exact hp.elim
  | call c =>
    change s.exec E c = (s', r) at h
    have h2 : r = (s.exec E c).2 := by rw [h]
    rw [h2]
    cases c <;> first | exact hp.elim | skip
    case preparePAA name b =>
      simp only [exec]
      refine withSet_ret hI (fun id g hf hg => ?_)
      cases hw : mapFind s.wrappers name with
      | some ww =>
        obtain ⟨wid, w⟩ := ww
        have := hW name wid w hw
        rw [hf] at this
        cases this
        simp only [hg]
        split <;> exact fun h => by cases h
      | none =>
        simp only
        split <;> exact fun h => by cases h
    case kBestPAA k target query index start stop distance =>
      simp only [exec]
      refine withSet_ret hI (fun id g hf hg => ?_)
      refine withSet_ret hI (fun id' g' hf' hg' => ?_)
      cases hw : mapFind s.wrappers target with
      | some ww =>
        obtain ⟨wid, w⟩ := ww
        have := hW target wid w hw
        rw [hf] at this
        cases this
        simp only [hg]
        repeat' split
        all_goals exact fun h => by cases h
      | none => exact fun h => by cases h

/-! ## Unknown names -/

theorem step_unknown {E : Env K} {s s' : Api K} {c : AnyCall K} {r : Reply K} (hI : Inv s) (h : Step E s c s' r)
    {name : String} (hn : name ∈ named c) (hf : mapFind s.datasets name = none)
    (hl : ∀ f p sep m sc hc, c ≠ .call (.load name f p sep m sc hc)) : s' = s ∧ r = rejected := by
  have two : ∀ {n1 n2 : String} {f : GSet K → GSet K → Api K × Reply K}, name ∈ [n1, n2] →
      s.withSet n1 (fun _ g1 => s.withSet n2 (fun _ g2 => f g1 g2)) = (s', r) → s' = s ∧ r = rejected := by
    intro n1 n2 f hm h
    rcases hI.cases n1 with h1 | ⟨id, g, h1, hg⟩
    · rw [withSet_none h1] at h
      cases h
      exact ⟨rfl, rfl⟩
    · rw [withSet_some h1 hg] at h
      have : name = n2 := by
        rcases List.mem_cons.1 hm with h2 | h2
        · rw [← h2, hf] at h1; cases h1
        · exact List.mem_singleton.1 h2
      rw [withSet_none (this ▸ hf)] at h
      cases h
      exact ⟨rfl, rfl⟩
  cases c with
  | group n t distance numThreads whole =>
    have : name = n := List.mem_singleton.1 hn
    subst this
    unfold Step GroupCall at h
    simp only [hf] at h
    exact h
  | call c =>
    change s.exec E c = (s', r) at h
    cases c <;> simp only [named, List.not_mem_nil] at hn <;> first
      | (simp only [exec] at h; exact two hn h)
      | (have hn' := List.mem_singleton.1 hn
         subst hn'
         first
           | exact absurd rfl (hl _ _ _ _ _ _)
           | (simp only [exec] at h
              rw [withSet_none hf] at h
              cases h
              exact ⟨rfl, rfl⟩))

/-! ## The threshold is set unless grouping failed -/

/-- The groups, if any, have a threshold. -/
def Known (g : GSet K) : Prop := ∀ gs, g.groups = some gs → gs.threshold ≠ none

theorem metaOf_known {g : GSet K} (hk : Known g) (name : String) :
    ∃ m, metaOf name g = .ok m ∧ m.name = name ∧ m.itemCount = g.ds.itemCount ∧ m.itemLength = g.ds.maxCol ∧
      m.isNormalized = g.ds.normalized ∧ (m.isGrouped = true ↔ g.groups ≠ none) ∧
      (∀ gs, g.groups = some gs → m.distance = gs.distanceName ∧ gs.threshold = some m.threshold) := by
  obtain ⟨ds, groups⟩ := g
  cases groups with
  | none => exact ⟨_, rfl, rfl, rfl, rfl, rfl, by simp [GSet.isGrouped], by intro gs h; cases h⟩
  | some gs =>
    cases ht : gs.threshold with
    | none => exact absurd ht (hk gs rfl)
    | some t =>
      refine ⟨⟨name, ds.itemCount, ds.maxCol, ds.normalized, true, gs.distanceName, t⟩, ?_, rfl, rfl, rfl, rfl,
        by simp, ?_⟩
      · simp only [metaOf, ht]
        rfl
      · intro gs' h
        cases h
        exact ⟨rfl, ht⟩

theorem prepare_threshold {ds : Dataset K} {name : String} {t : Dbl K} {whole : Bool} {gs : GSpace K} {p : DistRef}
    (h : (gs.prepare ds name t whole).2 = .ok p) : (gs.prepare ds name t whole).1.threshold = some t := by
  unfold GSpace.prepare at h ⊢
  simp only at h ⊢
  split
  · rename_i e he
    rw [he] at h
    cases h
  · rename_i u hu
    rw [hu] at h
    simp only at h
    split
    · rename_i hc
      rw [if_pos hc] at h
      cases h
    · split <;> rfl

theorem groupLoop_threshold {f : ℕ → Option (LocalSpace K) × Res ℕ} {is : List ℕ} {gs : GSpace K} :
    (GSpace.groupLoop f is gs).1.threshold = gs.threshold := by
  induction is generalizing gs with
  | nil => rfl
  | cons i is ih =>
    unfold GSpace.groupLoop
    simp only
    split
    · rfl
    · rw [ih]

theorem groupAll_known [BandOps] {ratio : ℚ} {log : ℕ → Bool} {name : String} {t : Dbl K} {whole : Bool} {numThreads : Int}
    {g : GSet K} {out : GSet K × Res Int} (h : g.GroupAll ratio log name t whole numThreads out) {z : Int}
    (hz : out.2 = .ok z) : Known out.1 := by
  obtain ⟨multi, hm, rfl⟩ := h
  unfold GSet.groupAllLengths at hz ⊢
  simp only at hz ⊢
  split
  · rename_i hd
    rw [hd] at hz
    cases hz
  · rename_i d hd
    rw [hd] at hz
    simp only at hz
    by_cases h1 : numThreads = 1
    · rw [if_pos h1] at hz ⊢
      intro gs hgs
      cases hgs
      simp only [GSpace.group] at hz ⊢
      cases hp : ((GSpace.fresh : GSpace K).prepare g.ds name t whole).2 with
      | error e => rw [hp] at hz; cases hz
      | ok p =>
        simp only
        rw [groupLoop_threshold, prepare_threshold hp]
        exact fun h => by cases h
    · rw [if_neg h1] at hz ⊢
      by_cases h2 : 1 < numThreads
      · rw [if_pos h2] at hz ⊢
        intro gs hgs
        cases hgs
        cases hm h2 with
        | fails e h => cases hz
        | undefined => cases hz
        | runs p hp k m s hr hd _ =>
          simp only
          rw [prepare_threshold hp]
          exact fun h => by cases h
      · rw [if_neg h2] at hz
        cases hz

theorem prepare_whole {ds : Dataset K} {name : String} {t : Dbl K} {whole : Bool} {gs : GSpace K} {p : DistRef}
    (h : (gs.prepare ds name t whole).2 = .ok p) : (gs.prepare ds name t whole).1.whole = whole := by
  unfold GSpace.prepare at h ⊢
  simp only at h ⊢
  split
  · rename_i e he
    rw [he] at h
    cases h
  · rename_i u hu
    rw [hu] at h
    simp only at h
    split
    · rename_i hc
      rw [if_pos hc] at h
      cases h
    · split <;> rfl

theorem groupLoop_whole {f : ℕ → Option (LocalSpace K) × Res ℕ} {is : List ℕ} {gs : GSpace K} :
    (GSpace.groupLoop f is gs).1.whole = gs.whole := by
  induction is generalizing gs with
  | nil => rfl
  | cons i is ih =>
    unfold GSpace.groupLoop
    simp only
    split
    · rfl
    · rw [ih]

theorem groupAll_whole [BandOps] {ratio : ℚ} {log : ℕ → Bool} {name : String} {t : Dbl K} {whole : Bool} {numThreads : Int}
    {g : GSet K} {out : GSet K × Res Int} (h : g.GroupAll ratio log name t whole numThreads out) {z : Int}
    (hz : out.2 = .ok z) : ∀ gs, out.1.groups = some gs → gs.whole = whole := by
  obtain ⟨multi, hm, rfl⟩ := h
  unfold GSet.groupAllLengths at hz ⊢
  simp only at hz ⊢
  split
  · rename_i hd
    rw [hd] at hz
    cases hz
  · rename_i d hd
    rw [hd] at hz
    simp only at hz
    by_cases h1 : numThreads = 1
    · rw [if_pos h1] at hz ⊢
      intro gs hgs
      cases hgs
      simp only [GSpace.group] at hz ⊢
      cases hp : ((GSpace.fresh : GSpace K).prepare g.ds name t whole).2 with
      | error e => rw [hp] at hz; cases hz
      | ok p =>
        simp only
        rw [groupLoop_whole, prepare_whole hp]
    · rw [if_neg h1] at hz ⊢
      by_cases h2 : 1 < numThreads
      · rw [if_pos h2] at hz ⊢
        intro gs hgs
        cases hgs
        cases hm h2 with
        | fails e h => cases hz
        | undefined => cases hz
        | runs p hp k m s hr hd _ =>
          simp only
          rw [prepare_whole hp]
      · rw [if_neg h2] at hz
        cases hz

theorem loadLoop_threshold {ds : Dataset K} {is : List ℕ} {gs : GSpace K} {ts : List (Tok K)} :
    (GSpace.loadLoop ds is gs ts).1.threshold = gs.threshold := by
  induction is generalizing gs ts with
  | nil => rfl
  | cons i is ih =>
    unfold GSpace.loadLoop
    split
    · rfl
    · split
      · rfl
      · rw [ih]

theorem loadDistance_threshold {gs : GSpace K} {name : String} : (gs.loadDistance name).1.threshold = gs.threshold := by
  unfold GSpace.loadDistance
  simp only
  repeat' split
  all_goals rfl

theorem gspaceLoad_known {ds : Dataset K} {gs : GSpace K} {ts : List (Tok K)} {x : List (Tok K)}
    (h : (GSpace.load ds gs ts).2 = .ok x) : (GSpace.load ds gs ts).1.threshold ≠ none := by
  unfold GSpace.load at h ⊢
  split
  · rename_i e he
    rw [he] at h
    cases h
  rename_i minLen ts1 h1
  rw [h1] at h
  simp only at h
  split
  · rename_i e he
    rw [he] at h
    cases h
  rename_i maxLen ts2 h2
  rw [h2] at h
  simp only at h
  split
  · rename_i e he
    rw [he] at h
    cases h
  rename_i nm ts3 h3
  rw [h3] at h
  simp only at h ⊢
  split
  · rename_i e he
    rw [he] at h
    cases h
  rename_i th ts4 h4
  rw [h4] at h
  simp only at h
  split
  · rw [loadDistance_threshold]
    exact fun h => by cases h
  · split
    · rw [loadDistance_threshold]
      exact fun h => by cases h
    · rw [loadLoop_threshold]
      simp only
      rw [loadDistance_threshold]
      exact fun h => by cases h

theorem loadFromFile_known {g : GSet K} {file : Option (List (Tok K))} {u : Unit} (h : (g.loadFromFile file).2 = .ok u) :
    Known (g.loadFromFile file).1 := by
  unfold GSet.loadFromFile at h ⊢
  split
  · cases h
  · rename_i ts
    simp only at h
    unfold GSet.load at h ⊢
    split
    · rename_i e he
      rw [he] at h
      cases h
    rename_i n ts1 h1
    rw [h1] at h
    simp only at h
    split
    · rename_i e he
      rw [he] at h
      cases h
    rename_i len ts2 h2
    rw [h2] at h
    simp only at h
    split
    · rename_i hc
      rw [if_pos hc] at h
      cases h
    rename_i hc
    rw [if_neg hc] at h
    split
    · rename_i hc2
      rw [if_pos hc2] at h
      cases h
    rename_i hc2
    rw [if_neg hc2] at h
    simp only at h ⊢
    intro gs hgs
    cases hgs
    cases hx : (GSpace.load g.ds GSpace.fresh ts2).2 with
    | error e => rw [hx] at h; cases h
    | ok x => exact gspaceLoad_known hx

theorem holds_store {s : Api K} (hI : Inv s) {name : String} {id : ℕ} {g g' : GSet K}
    (hf : mapFind s.datasets name = some id) (h : Holds (s.store id g) name g') : g' = g := by
  obtain ⟨id', hm, hg⟩ := h
  have hid : id' = id := by
    have := mapFind_of_mem (m := s.datasets) hI.sorted hm
    rw [hf] at this
    cases this
    rfl
  subst hid
  obtain ⟨g₀, hg₀⟩ := hI.find hf
  rw [deref_some] at hg₀
  unfold store at hg
  simp only at hg
  rw [List.getElem?_set_self (List.getElem?_eq_some_iff.1 hg₀).1] at hg
  cases hg
  rfl

theorem step_known {E : Env K} {s s' : Api K} {c : AnyCall K} {r : Reply K} (hI : Inv s) (h : Step E s c s' r)
    {name : String} (hk : ∀ g, Holds s name g → Known g)
    (hs : ((∃ t d n w, c = .group name t d n w) ∨ ∃ f, c = .call (.loadGroups name f)) → ∃ o, r = .ret (.ok o))
    (hso : ∀ f, c ≠ .call (.loadGroupsOld name f)) :
    ∀ g, Holds s' name g → Known g := by
  have hE := step_eff hI h
  have hI' := inv_eff hI hE
  by_cases hn : Changes c ∧ (name ∈ named c ∨ c = .call .unloadAll)
  swap
  · intro g hg
    exact hk g ((holds_eff hI hE hn g).2 hg)
  intro x hx
  obtain ⟨hch, hn⟩ := hn
  cases c with
  | group n t distance numThreads whole =>
    have : name = n := by
      rcases hn with hn | hn
      · exact List.mem_singleton.1 hn
      · cases hn
    subst this
    unfold Step GroupCall at h
    simp only at h
    rcases hI.cases name with hf | ⟨id, g, hf, hg⟩
    · rw [hf] at h
      obtain ⟨rfl, rfl⟩ := h
      exact hk x hx
    · rw [hf] at h
      simp only [hg] at h
      obtain ⟨log, out, hout, rfl, rfl⟩ := h
      obtain ⟨o, ho⟩ := hs (.inl ⟨_, _, _, _, rfl⟩)
      rw [holds_store hI hf hx]
      cases hz : out.2 with
      | error e => rw [hz] at ho; cases ho
      | ok z => exact groupAll_known hout hz
  | call c =>
    change s.exec E c = (s', r) at h
    cases c <;> first | exact hch.elim | skip
    case load n file path sep maxNumRow startCol hasName =>
      have : name = n := by
        rcases hn with hn | hn
        · exact List.mem_singleton.1 hn
        · cases hn
      subst this
      simp only [exec] at h
      cases hf : mapFind s.datasets name with
      | some id =>
        rw [hf] at h
        cases h
        exact hk x hx
      | none =>
        rw [hf] at h
        simp only at h
        have hno : ∀ (o : Option (GSet K)), ¬ Holds { s with heap := s.heap ++ [o] } name x := by
          rintro o ⟨id, hm, -⟩
          exact mapFind_none.1 hf id hm
        split at h
        · cases h
          exact absurd hx (hno _)
        · cases h
          exact absurd hx (hno _)
        · cases h
          obtain ⟨id, hm, hg⟩ := hx
          rcases mem_mapSet hm with h1 | h1
          · cases h1
            simp only [List.getElem?_concat_length] at hg
            cases hg
            intro gs hgs
            cases hgs
          · exact absurd h1 (mapFind_none.1 hf id)
    case unload n =>
      have : name = n := by
        rcases hn with hn | hn
        · exact List.mem_singleton.1 hn
        · cases hn
      subst this
      simp only [exec] at h
      rcases hI.cases name with hf | ⟨id, g, hf, hg⟩
      · rw [withSet_none hf] at h
        cases h
        exact hk x hx
      · rw [withSet_some hf hg] at h
        have hdel : s.delete id = some { s with heap := s.heap.set id none } := by
          unfold delete
          rw [hg]
          rfl
        simp only [hdel] at h
        cases h
        obtain ⟨id', hm, -⟩ := hx
        exact absurd rfl (mem_mapErase.1 hm).2
    case unloadAll =>
      simp only [exec] at h
      obtain ⟨t, ht, -, -⟩ := deleteAll_some (s := s) hI.ids hI.live
      rw [ht] at h
      cases h
      obtain ⟨id', hm, -⟩ := hx
      cases hm
    case normalize n =>
      have : name = n := by
        rcases hn with hn | hn
        · exact List.mem_singleton.1 hn
        · cases hn
      subst this
      simp only [exec] at h
      rcases hI.cases name with hf | ⟨id, g, hf, hg⟩
      · rw [withSet_none hf] at h
        cases h
        exact hk x hx
      · rw [withSet_some hf hg] at h
        split at h
        · cases h
          exact hk x hx
        · cases h
          rw [holds_store hI hf hx]
          intro gs hgs
          exact hk g ((hI.holds).2 ⟨id, hf, hg⟩) gs hgs
    case loadGroups n file =>
      have : name = n := by
        rcases hn with hn | hn
        · exact List.mem_singleton.1 hn
        · cases hn
      subst this
      simp only [exec] at h
      rcases hI.cases name with hf | ⟨id, g, hf, hg⟩
      · rw [withSet_none hf] at h
        cases h
        exact hk x hx
      · rw [withSet_some hf hg] at h
        cases h
        obtain ⟨o, ho⟩ := hs (.inr ⟨_, rfl⟩)
        rw [holds_store hI hf hx]
        cases hz : (g.loadFromFile file).2 with
        | error e => rw [hz] at ho; cases ho
        | ok z => exact loadFromFile_known hz
    case loadGroupsOld n file =>
      have : name = n := by
        rcases hn with hn | hn
        · exact List.mem_singleton.1 hn
        · cases hn
      subst this
      exact absurd rfl (hso _)

theorem known_history {E : Env K} {s' : Api K} {h : List (AnyCall K × Reply K)} (hh : History E fresh h s')
    {name : String} (hn : NoFailedGrouping h name) : ∀ g, Holds s' name g → Known g := by
  induction hh with
  | nil =>
    rintro g ⟨id, hm, -⟩
    cases hm
  | @snoc t u h c r h1 h2 h3 ih =>
    refine step_known (inv_history inv_fresh h1) h2 (ih (fun e he => hn e (List.mem_append_left _ he))) ?_ ?_
    · exact (hn (c, r) (List.mem_append_right _ (List.mem_singleton.2 rfl))).1
    · exact (hn (c, r) (List.mem_append_right _ (List.mem_singleton.2 rfl))).2

/-! ## Replies depend on the named datasets only -/

theorem sameAt_find {s t : Api K} (hs : Inv s) (ht : Inv t) {name : String} (h : SameAt s t name) :
    (mapFind s.datasets name = none ∧ mapFind t.datasets name = none) ∨
    ∃ id id' g, mapFind s.datasets name = some id ∧ s.deref id = some g ∧ mapFind t.datasets name = some id' ∧
      t.deref id' = some g := by
  rcases hs.cases name with hf | ⟨id, g, hf, hg⟩
  · rcases ht.cases name with hf' | ⟨id', g', hf', hg'⟩
    · exact .inl ⟨hf, hf'⟩
    · obtain ⟨id, h1, -⟩ := hs.holds.1 ((h g').2 (ht.holds.2 ⟨id', hf', hg'⟩))
      rw [hf] at h1
      cases h1
  · obtain ⟨id', h1, h2⟩ := ht.holds.1 ((h g).1 (hs.holds.2 ⟨id, hf, hg⟩))
    exact .inr ⟨id, id', g, hf, hg, h1, h2⟩

theorem withSet_congr {s t : Api K} (hs : Inv s) (ht : Inv t) {name : String} (h : SameAt s t name)
    {f f' : ℕ → GSet K → Api K × Reply K} (hf : ∀ id id' g, s.deref id = some g → t.deref id' = some g → (f id g).2 = (f' id' g).2) :
    (s.withSet name f).2 = (t.withSet name f').2 := by
  rcases sameAt_find hs ht h with ⟨h1, h2⟩ | ⟨id, id', g, h1, h2, h3, h4⟩
  · rw [withSet_none h1, withSet_none h2]
  · rw [withSet_some h1 h2, withSet_some h3 h4]
    exact hf id id' g h2 h4

theorem exec_local (E : Env K) {s t : Api K} (hs : Inv s) (ht : Inv t) (c : Call K) (hp : ¬ UsesPAA (.call c))
    (hg : ¬ Global (.call c)) (hr : s.ratio = t.ratio) (h : ∀ n ∈ named (.call c), SameAt s t n) :
    (s.exec E c).2 = (t.exec E c).2 := by
  cases c <;> first | exact absurd trivial hp | exact absurd trivial hg | skip
  case load name file path sep maxNumRow startCol hasName =>
    simp only [exec]
    rcases sameAt_find hs ht (h name List.mem_cons_self) with ⟨h1, h2⟩ | ⟨id, id', g, h1, h2, h3, h4⟩
    · rw [h1, h2]
      simp only
      split <;> rename_i h5 <;> simp only [h5]
    · rw [h1, h3]
  case unload name =>
    simp only [exec]
    refine withSet_congr hs ht (h name List.mem_cons_self) (fun id id' g hg hg' => ?_)
    simp only [delete, hg, hg', Option.map_some]
  case normalize name =>
    simp only [exec]
    refine withSet_congr hs ht (h name List.mem_cons_self) (fun id id' g hg hg' => ?_)
    split <;> rfl
  all_goals
    simp only [exec]
    first
      | done
      | (refine withSet_congr hs ht (h _ List.mem_cons_self) (fun id id' g hg hg' => ?_)
         first
           | (refine withSet_congr hs ht (h _ (List.mem_cons_of_mem _ List.mem_cons_self)) (fun id id' g hg hg' => ?_)
              simp only [hr])
           | rfl)

theorem sameAt_of {s t : Api K} (hs : Inv s) (ht : Inv t) {name : String}
    (h : (mapFind s.datasets name = none ∧ mapFind t.datasets name = none) ∨
      ∃ id id' g, mapFind s.datasets name = some id ∧ s.deref id = some g ∧ mapFind t.datasets name = some id' ∧
      t.deref id' = some g) : SameAt s t name := by
  intro x
  rw [hs.holds, ht.holds]
  rcases h with ⟨h1, h2⟩ | ⟨id, id', g, h1, h2, h3, h4⟩
  · rw [h1, h2]
    simp
  · constructor
    · rintro ⟨i, h5, h6⟩
      rw [h1] at h5
      cases h5
      rw [h2] at h6
      cases h6
      exact ⟨id', h3, h4⟩
    · rintro ⟨i, h5, h6⟩
      rw [h3] at h5
      cases h5
      rw [h4] at h6
      cases h6
      exact ⟨id, h1, h2⟩

theorem deref_store {s : Api K} {id : ℕ} {g g₀ : GSet K} (h : s.deref id = some g₀) :
    (s.store id g).deref id = some g := by
  rw [deref_some] at h ⊢
  exact List.getElem?_set_self (List.getElem?_eq_some_iff.1 h).1

theorem step_local (E : Env K) {s s' t : Api K} {r : Reply K} (hs : Inv s) (ht : Inv t) {c : AnyCall K}
    (hp : ¬ UsesPAA c) (hg : ¬ Global c) (hr : s.ratio = t.ratio) (h : ∀ n ∈ named c, SameAt s t n)
    (hst : Step E s c s' r) : ∃ t', Step E t c t' r ∧ ∀ n ∈ named c, SameAt s' t' n := by
  cases c with
  | group name th distance numThreads whole =>
    rcases sameAt_find hs ht (h name List.mem_cons_self) with ⟨h1, h2⟩ | ⟨id, id', g, h1, h2, h3, h4⟩
    · unfold Step GroupCall at hst
      simp only [h1] at hst
      obtain ⟨rfl, rfl⟩ := hst
      refine ⟨t, ?_, h⟩
      unfold Step GroupCall
      simp only [h2]
      exact ⟨trivial, trivial⟩
    · have hst0 := hst
      unfold Step GroupCall at hst
      simp only [h1, h2] at hst
      obtain ⟨log, out, hout, rfl, rfl⟩ := hst
      have hstep : Step E t (.group name th distance numThreads whole) (t.store id' out.1) (.ret (out.2.map .int)) := by
        unfold Step GroupCall
        simp only [h3, h4]
        exact ⟨log, out, hr ▸ hout, rfl, rfl⟩
      refine ⟨t.store id' out.1, hstep, ?_⟩
      intro n hn
      rw [List.mem_singleton.1 hn]
      exact sameAt_of (inv_step hs hst0) (inv_step ht hstep)
        (.inr ⟨id, id', out.1, h1, deref_store h2, h3, deref_store h4⟩)
  | call c =>
    have hrep := exec_local E hs ht c hp hg hr h
    change s.exec E c = (s', r) at hst
    have hstep : Step E t (.call c) (t.exec E c).1 r := by
      change t.exec E c = ((t.exec E c).1, r)
      have : r = (t.exec E c).2 := by rw [← hrep, hst]
      rw [this]
    refine ⟨_, hstep, ?_⟩
    have hI1 : Inv s' := inv_step hs (c := .call c) (r := r) hst
    have hI2 := inv_step ht hstep
    by_cases hch : Changes (.call c)
    swap
    · intro n hn g
      rw [← holds_eff hs (step_eff hs (c := .call c) hst) (fun h => hch h.1) g,
        ← holds_eff ht (step_eff ht hstep) (fun h => hch h.1) g]
      exact h n hn g
    clear hstep
    generalize ht' : (t.exec E c).1 = t' at hI2
    cases c <;> first | exact hch.elim | exact absurd trivial hg | skip
    case load name file path sep maxNumRow startCol hasName =>
      intro n hn
      rw [List.mem_singleton.1 hn]
      rcases sameAt_find hs ht (h name List.mem_cons_self) with ⟨h1, h2⟩ | ⟨id, id', g, h1, h2, h3, h4⟩
      · refine sameAt_of hI1 hI2 ?_
        simp only [exec, h1] at hst
        simp only [exec, h2] at ht'
        split at hst
        · rename_i h5
          simp only [h5] at ht'
          cases hst
          subst ht'
          exact .inl ⟨h1, h2⟩
        · rename_i h5 h6
          simp only [h6] at ht'
          cases hst
          subst ht'
          exact .inl ⟨h1, h2⟩
        · rename_i h5
          simp only [h5] at ht'
          cases hst
          subst ht'
          refine .inr ⟨s.heap.length, t.heap.length,
            ⟨(Dataset.loadData E.parse file path maxNumRow startCol sep hasName Dataset.fresh).1, none⟩, ?_, ?_, ?_, ?_⟩
          · simp [mapFind_mapSet]
          · rw [deref_some]; simp
          · simp [mapFind_mapSet]
          · rw [deref_some]; simp
      · simp only [exec, h1] at hst
        simp only [exec, h3] at ht'
        cases hst
        subst ht'
        exact h name List.mem_cons_self
    case unload name =>
      intro n hn
      rw [List.mem_singleton.1 hn]
      rcases sameAt_find hs ht (h name List.mem_cons_self) with ⟨h1, h2⟩ | ⟨id, id', g, h1, h2, h3, h4⟩
      · simp only [exec] at hst ht'
        rw [withSet_none h1] at hst
        rw [withSet_none h2] at ht'
        cases hst
        subst ht'
        exact h name List.mem_cons_self
      · refine sameAt_of hI1 hI2 (.inl ?_)
        simp only [exec] at hst ht'
        rw [withSet_some h1 h2] at hst
        rw [withSet_some h3 h4] at ht'
        simp only [delete, h2, h4, Option.map_some] at hst ht'
        cases hst
        subst ht'
        simp [mapFind_mapErase]
    case normalize name =>
      intro n hn
      rw [List.mem_singleton.1 hn]
      rcases sameAt_find hs ht (h name List.mem_cons_self) with ⟨h1, h2⟩ | ⟨id, id', g, h1, h2, h3, h4⟩
      · simp only [exec] at hst ht'
        rw [withSet_none h1] at hst
        rw [withSet_none h2] at ht'
        cases hst
        subst ht'
        exact h name List.mem_cons_self
      · simp only [exec] at hst ht'
        rw [withSet_some h1 h2] at hst
        rw [withSet_some h3 h4] at ht'
        split at hst
        · rename_i h5
          simp only [h5] at ht'
          cases hst
          subst ht'
          exact h name List.mem_cons_self
        · rename_i h5
          simp only [h5] at ht'
          cases hst
          subst ht'
          exact sameAt_of hI1 hI2 (.inr ⟨id, id', _, h1, deref_store h2, h3, deref_store h4⟩)
    case loadGroups name file =>
      intro n hn
      rw [List.mem_singleton.1 hn]
      rcases sameAt_find hs ht (h name List.mem_cons_self) with ⟨h1, h2⟩ | ⟨id, id', g, h1, h2, h3, h4⟩
      · simp only [exec] at hst ht'
        rw [withSet_none h1] at hst
        rw [withSet_none h2] at ht'
        cases hst
        subst ht'
        exact h name List.mem_cons_self
      · simp only [exec] at hst ht'
        rw [withSet_some h1 h2] at hst
        rw [withSet_some h3 h4] at ht'
        cases hst
        subst ht'
        exact sameAt_of hI1 hI2 (.inr ⟨id, id', _, h1, deref_store h2, h3, deref_store h4⟩)
    case loadGroupsOld name file =>
      intro n hn
      rw [List.mem_singleton.1 hn]
      rcases sameAt_find hs ht (h name List.mem_cons_self) with ⟨h1, h2⟩ | ⟨id, id', g, h1, h2, h3, h4⟩
      · simp only [exec] at hst ht'
        rw [withSet_none h1] at hst
        rw [withSet_none h2] at ht'
        cases hst
        subst ht'
        exact h name List.mem_cons_self
      · simp only [exec] at hst ht'
        rw [withSet_some h1 h2] at hst
        rw [withSet_some h3 h4] at ht'
        cases hst
        subst ht'
        exact sameAt_of hI1 hI2 (.inr ⟨id, id', _, h1, deref_store h2, h3, deref_store h4⟩)

/-! ## Loading -/

theorem load_fails {E : Env K} {s s' : Api K} {name : String} {file : Option Text} {path : Text} {sep : List Char}
    {maxNumRow startCol : Int} {hasName : Bool} {e : Fault}
    (hl : s.exec E (.load name file path sep maxNumRow startCol hasName) = (s', .ret (.error e))) :
    s' = s ∨ ∃ o, s' = { s with heap := s.heap ++ [o] } ∧ ∀ msg, e = .genex msg → o = none := by
  simp only [exec] at hl
  split at hl
  · cases hl
    exact .inl rfl
  · split at hl
    · cases hl
      exact .inr ⟨none, rfl, fun _ _ => rfl⟩
    · rename_i h5 h6
      cases hl
      refine .inr ⟨_, rfl, fun msg hm => ?_⟩
      subst hm
      exact absurd rfl (h5 msg)
    · cases hl

theorem exec_load_reply (E : Env K) {s t : Api K} {name : String} (hs : mapFind s.datasets name = none)
    (ht : mapFind t.datasets name = none) (file : Option Text) (path : Text) (sep : List Char) (maxNumRow startCol : Int)
    (hasName : Bool) :
    (s.exec E (.load name file path sep maxNumRow startCol hasName)).2 =
      (t.exec E (.load name file path sep maxNumRow startCol hasName)).2 := by
  simp only [exec, hs, ht]
  split <;> rename_i h5 <;> simp only [h5]

theorem metaOf_name {name : String} {g : GSet K} {m : Meta K} (h : metaOf name g = .ok m) : m.name = name := by
  unfold metaOf at h
  repeat' split at h
  all_goals first | (cases h; rfl) | cases h

theorem metasOf_names {l : List (String × GSet K)} {ms : List (Meta K)} (h : metasOf l = .ok ms) :
    ms.map Meta.name = l.map Prod.fst := by
  induction l generalizing ms with
  | nil => cases h; rfl
  | cons e l ih =>
    unfold metasOf at h
    simp only [bind, Except.bind] at h
    cases h1 : metaOf e.1 e.2 with
    | error x => rw [h1] at h; cases h
    | ok m =>
      rw [h1] at h
      simp only at h
      cases h2 : metasOf l with
      | error x => rw [h2] at h; cases h
      | ok l' =>
        rw [h2] at h
        cases h
        rw [List.map_cons, List.map_cons, ih h2, metaOf_name h1]

/-! ## Grouping leaves the data alone -/

theorem groupAll_ds [BandOps] {ratio : ℚ} {log : ℕ → Bool} {name : String} {t : Dbl K} {whole : Bool} {numThreads : Int}
    {g : GSet K} {out : GSet K × Res Int} (h : g.GroupAll ratio log name t whole numThreads out) : out.1.ds = g.ds := by
  obtain ⟨multi, hm, rfl⟩ := h
  unfold GSet.groupAllLengths
  repeat' split
  all_goals rfl

theorem loadFromFile_ds {g : GSet K} {file : Option (List (Tok K))} : (g.loadFromFile file).1.ds = g.ds := by
  unfold GSet.loadFromFile
  split
  · rfl
  · unfold GSet.load
    repeat' split
    all_goals rfl

theorem loadOld_ds {g : GSet K} {file : Option (List (Lex K))} : (g.loadOld file).1.ds = g.ds := by
  unfold GSet.loadOld
  repeat' (first | rfl | split | simp only [])

theorem holds_self_store {s : Api K} {name : String} {id : ℕ} {g g₀ : GSet K} (hf : mapFind s.datasets name = some id)
    (hg : s.deref id = some g₀) : Holds (s.store id g) name g :=
  ⟨id, mapFind_mem hf, deref_some.1 (deref_store hg)⟩

theorem step_data {E : Env K} {s s' : Api K} {c : AnyCall K} {r : Reply K} (hI : Inv s) (h : Step E s c s' r)
    {name : String} (hn : ¬ ChangesData name c) {g : GSet K} (hg : Holds s name g) :
    ∃ g', Holds s' name g' ∧ g'.ds = g.ds := by
  have hE := step_eff hI h
  by_cases hc : Changes c ∧ (name ∈ named c ∨ c = .call .unloadAll)
  swap
  · exact ⟨g, (holds_eff hI hE hc g).1 hg, rfl⟩
  obtain ⟨hch, hc⟩ := hc
  obtain ⟨id, hf, hd⟩ := hI.holds.1 hg
  cases c with
  | group n t distance numThreads whole =>
    have : name = n := by
      rcases hc with hc | hc
      · exact List.mem_singleton.1 hc
      · cases hc
    subst this
    unfold Step GroupCall at h
    simp only [hf, hd] at h
    obtain ⟨log, out, hout, rfl, rfl⟩ := h
    exact ⟨out.1, holds_self_store hf hd, groupAll_ds hout⟩
  | call c =>
    change s.exec E c = (s', r) at h
    cases c <;> first | exact hch.elim | exact absurd trivial hn | skip
    case loadGroups n file =>
      have : name = n := by
        rcases hc with hc | hc
        · exact List.mem_singleton.1 hc
        · cases hc
      subst this
      simp only [exec] at h
      rw [withSet_some hf hd] at h
      cases h
      exact ⟨_, holds_self_store hf hd, loadFromFile_ds⟩
    case loadGroupsOld n file =>
      have : name = n := by
        rcases hc with hc | hc
        · exact List.mem_singleton.1 hc
        · cases hc
      subst this
      simp only [exec] at h
      rw [withSet_some hf hd] at h
      cases h
      exact ⟨_, holds_self_store hf hd, loadOld_ds⟩
    all_goals
      rcases hc with hc | hc
      · exact absurd (List.mem_singleton.1 hc).symm hn
      · cases hc

theorem data_history {E : Env K} {s s' : Api K} {h : List (AnyCall K × Reply K)} (hI : Inv s) (hh : History E s h s')
    {name : String} (hn : ∀ e ∈ h, ¬ ChangesData name e.1) {g : GSet K} (hg : Holds s name g) :
    ∃ g', Holds s' name g' ∧ g'.ds = g.ds := by
  induction hh with
  | nil => exact ⟨g, hg, rfl⟩
  | @snoc t u h c r h1 h2 h3 ih =>
    obtain ⟨g1, hg1, hd1⟩ := ih (fun e he => hn e (List.mem_append_left _ he))
    obtain ⟨g2, hg2, hd2⟩ := step_data (inv_history hI h1) h2 (hn (c, r) (List.mem_append_right _ (List.mem_singleton.2 rfl)))
      hg1
    exact ⟨g2, hg2, hd2.trans hd1⟩

theorem kept_history {E : Env K} {s s' : Api K} {h : List (AnyCall K × Reply K)} (hI : Inv s) (hh : History E s h s')
    {name : String} (hn : ∀ e ∈ h, ¬ (Changes e.1 ∧ (name ∈ named e.1 ∨ e.1 = .call .unloadAll))) : SameAt s s' name := by
  induction hh with
  | nil => exact fun g => Iff.rfl
  | @snoc t u h c r h1 h2 h3 ih =>
    intro g
    rw [ih (fun e he => hn e (List.mem_append_left _ he)) g]
    have hI1 := inv_history hI h1
    exact holds_eff hI1 (step_eff hI1 h2) (hn (c, r) (List.mem_append_right _ (List.mem_singleton.2 rfl))) g

end Api

end Genex
