import Verif.Spec.EndToEnd
import Verif.Lemmas.Api
import Verif.Lemmas.DatasetProps
import Verif.Lemmas.Normalize

set_option linter.unusedSectionVars false

/-! Lemmas on loaded and grouped datasets. -/

namespace Genex.Registry

open Genex.Api

variable {K : Type} [Field K] [LinearOrder K] [HasSqrt K] [Arith K] [BandOps]

theorem Loaded.inv {E : Env K} {name : String} {rows : List (List K)} {s : Api K} (h : Loaded E name rows s) : Inv s := by
  induction h with
  | mk hb _ hl ha _ => exact inv_history (inv_step (inv_history inv_fresh hb) (c := .call _) hl) ha
  | normalised _ _ hn ha _ ih => exact inv_history (inv_step ih (c := .call _) hn) ha

theorem Grouped.inv {E : Env K} {name : String} {rows : List (List K)} {d : String} {t : Dbl K} {w : Bool} {s : Api K}
    (h : Grouped E name rows d t w s) : Inv s := by
  obtain ⟨hl, hg, ha, -⟩ := h
  exact inv_history (inv_step hl.inv hg) ha

/-- One history after another. -/
theorem history_trans {E : Env K} {s t u : Api K} {h h' : List (AnyCall K × Reply K)} (h1 : History E s h t)
    (h2 : History E t h' u) : History E s (h ++ h') u := by
  induction h2 with
  | nil => simpa using h1
  | snoc _ hs hv ih => rw [← List.append_assoc]; exact .snoc ih hs hv

theorem Loaded.later {E : Env K} {name : String} {rows : List (List K)} {s s' : Api K} (h : Loaded E name rows s)
    {l : List (AnyCall K × Reply K)} (hl : History E s l s') (hk : ∀ e ∈ l, ¬ ChangesData name e.1) : Loaded E name rows s' := by
  have key : ∀ {l' : List (AnyCall K × Reply K)}, (∀ e ∈ l', ¬ ChangesData name e.1) → ∀ e ∈ l' ++ l, ¬ ChangesData name e.1 := by
    intro l' hk' e he
    rcases List.mem_append.1 he with he | he
    · exact hk' e he
    · exact hk e he
  cases h with
  | mk hb hf hl' ha hk' => exact .mk hb hf hl' (history_trans ha hl) (key hk')
  | normalised hb hs hn ha hk' => exact .normalised hb hs hn (history_trans ha hl) (key hk')

theorem changesData_changes {name : String} {c : AnyCall K} (h : ChangesData name c) :
    Changes c ∧ (name ∈ named c ∨ c = .call .unloadAll) := by
  cases c with
  | group => cases h
  | call c => cases c <;> simp_all [ChangesData, Changes, named]

theorem Grouped.loaded {E : Env K} {name : String} {rows : List (List K)} {d : String} {t : Dbl K} {w : Bool} {s : Api K}
    (h : Grouped E name rows d t w s) : Loaded E name rows s := by
  obtain ⟨hl, hg, ha, hk⟩ := h
  refine (hl.later (.snoc (.nil _) hg trivial) ?_).later ha (fun e he hc => hk e he (changesData_changes hc))
  intro e he
  simp only [List.nil_append, List.mem_singleton] at he
  subst he
  exact id

theorem query_points {E : Env K} {s : Api K} {name : String} {i a b : Int} {q : List K}
    (h : Query E s name i a b q) : ∃ id g, mapFind s.datasets name = some id ∧ s.deref id = some g ∧
      queryOf g i a b = .ok (q.map .fin) := by
  obtain ⟨s', h⟩ := h
  simp only [exec, withSet] at h
  split at h
  · cases h
  rename_i id hid
  split at h
  · cases h
  rename_i g hg
  refine ⟨id, g, hid, hg, ?_⟩
  cases e : queryOf g i a b with
  | error f => rw [e] at h; cases h
  | ok pts =>
    rw [e] at h
    cases h
    rfl

theorem best_exec {E : Env K} {s : Api K} (hI : Inv s) {name qname : String} {i a b : Int} {q : List K}
    (hq : Query E s qname i a b q) {z : GSet K} (hz : Holds s name z) :
    s.exec E (.bestMatch name qname i a b) = (s, .ret ((z.getBestMatch s.ratio (q.map .fin)).map .cand)) := by
  obtain ⟨id, g, h1, h2, h3⟩ := query_points hq
  obtain ⟨id', h4, h5⟩ := hI.holds.1 hz
  simp only [exec]
  rw [withSet_some h4 h5, withSet_some h1 h2, h3]
  rfl

theorem kBest_exec {E : Env K} {s : Api K} (hI : Inv s) {name qname : String} {i a b : Int} {q : List K}
    (hq : Query E s qname i a b q) {z : GSet K} (hz : Holds s name z) (k ke : Int) :
    s.exec E (.kBest k ke name qname i a b) =
      (s, .ret ((z.getKBestMatches E.A E.B s.ratio (q.map .fin) k ke).map .entries)) := by
  obtain ⟨id, g, h1, h2, h3⟩ := query_points hq
  obtain ⟨id', h4, h5⟩ := hI.holds.1 hz
  simp only [exec]
  rw [withSet_some h4 h5, withSet_some h1 h2, h3]
  rfl

theorem brute_exec {E : Env K} {s : Api K} (hI : Inv s) {name qname : String} {i a b : Int} {q : List K}
    (hq : Query E s qname i a b q) {z : GSet K} (hz : Holds s name z) (k : Int) (d : String) :
    s.exec E (.bruteForce k name qname i a b d) =
      (s, .ret ((Genex.bruteForce E.A s.ratio z.ds (q.map .fin) k d).map .cands)) := by
  obtain ⟨id, g, h1, h2, h3⟩ := query_points hq
  obtain ⟨id', h4, h5⟩ := hI.holds.1 hz
  simp only [exec]
  rw [withSet_some h4 h5, withSet_some h1 h2, h3]
  rfl

theorem le_longest {rows : List (List K)} {r : List K} (h : r ∈ rows) : r.length ≤ longest rows := by
  induction rows with
  | nil => cases h
  | cons a l ih =>
    simp only [longest, List.map_cons, List.foldr_cons]
    rcases List.mem_cons.1 h with rfl | h
    · exact le_max_left _ _
    · exact le_trans (ih h) (le_max_right _ _)

theorem longest_le {rows : List (List K)} {n : ℕ} (h : ∀ r ∈ rows, r.length ≤ n) : longest rows ≤ n := by
  induction rows with
  | nil => exact Nat.zero_le _
  | cons a l ih =>
    simp only [longest, List.map_cons, List.foldr_cons]
    exact max_le (h a (by simp)) (ih (fun r hr => h r (by simp [hr])))

theorem subsOfLength_zero {rows : List (List K)} {ℓ : ℕ} (h : longest rows < ℓ) : Spec.subsOfLength rows ℓ = 0 := by
  unfold Spec.subsOfLength
  rw [List.sum_eq_zero_iff]
  intro x hx
  obtain ⟨r, hr, rfl⟩ := List.mem_map.1 hx
  have := le_longest hr
  omega

/-- The width of the dataset does not matter if it is not too small. -/
theorem available_longest {rows : List (List K)} [BandOps] {ratio : ℚ} {q : ℕ} (n : ℕ) :
    Spec.available rows ((longest rows + n : ℕ) : Int) false ratio q = partCount rows ratio q := by
  induction n with
  | zero => rfl
  | succ n ih =>
    rw [← ih]
    unfold Spec.available
    rw [Int.toNat_natCast, Int.toNat_natCast, ← Nat.add_assoc, List.range_succ, List.filter_append, List.map_append,
      List.sum_append]
    have h0 : (((List.filter (fun ℓ => decide (Spec.Considered ((longest rows + n + 1 : ℕ) : Int) false ratio q ℓ))
        [longest rows + n + 1])).map (Spec.subsOfLength rows)).sum = 0 := by
      rw [List.sum_eq_zero_iff]
      intro x hx
      obtain ⟨ℓ, hℓ, rfl⟩ := List.mem_map.1 hx
      have := List.mem_singleton.1 (List.mem_filter.1 hℓ).1
      exact subsOfLength_zero (by omega)
    rw [h0, Nat.add_zero]
    congr 2
    apply List.filter_congr
    intro ℓ hℓ
    have := List.mem_range.1 hℓ
    rw [decide_eq_decide]
    unfold Spec.Considered Spec.InRange
    refine and_congr_left' (and_congr_left' ?_)
    push_cast
    omega

section Exact

variable {K : Type} [Field K] [LinearOrder K] [IsStrictOrderedRing K] [HasSqrt K] [BandOps]

theorem Loaded.data {E : Env K} {name : String} {rows : List (List K)} {s : Api K} (h : Loaded E name rows s) :
    ∃ g, Holds s name g ∧ Spec.Holds g.ds (rows.map (·.map .fin)) ∧ 0 ≤ g.ds.maxCol := by
  induction h with
  | @mk h0 h' s0 s₁ _ content path sep maxNumRow startCol hasName rows o hb hf hl ha hk =>
    have hI := inv_history inv_fresh hb
    have hI₁ : Inv s₁ := inv_step hI (c := .call _) hl
    simp only [exec] at hl
    split at hl
    · cases hl
    split at hl
    · cases hl
    · cases hl
    obtain ⟨ds, e, H, -, -, -⟩ := load_holds E.parse content path maxNumRow startCol sep hasName (rows.map (·.map .fin))
      (by
        have := hf.numbers
        unfold readVals
        rw [this]
        simp [List.map_map, Function.comp_def]) hf.reach
    have hhold : Holds s₁ name ⟨ds, none⟩ := by
      cases hl
      refine (hI₁.holds).2 ⟨s0.heap.length, ?_, ?_⟩
      · simp [mapFind_mapSet]
      · rw [deref_some]; simp [e]
    obtain ⟨g', hg', hd'⟩ := data_history hI₁ ha hk hhold
    refine ⟨g', hg', by rw [hd']; exact H, ?_⟩
    rw [hd']
    obtain ⟨r, hr⟩ := List.exists_mem_of_ne_nil _ hf.some
    obtain ⟨i, hi⟩ := List.mem_iff_getElem?.1 hr
    have := H.fits i (r.map .fin) (by rw [List.getElem?_map, hi]; rfl)
    exact le_trans (Int.natCast_nonneg _) this
  | @normalised h s₀ s₁ s' raw rows o hb hs hn ha hk ih =>
    obtain ⟨g, hg, H, hm⟩ := ih
    obtain ⟨lo, hi, hlo, hhi, rfl⟩ := hs
    obtain ⟨id, k1, k2⟩ := hb.inv.holds.1 hg
    obtain ⟨ds', lo', hi', e, hlo', hhi', -, H', -, -, hm'⟩ := normalize_ok H ⟨lo, hlo.1⟩
    obtain rfl := hlo.unique hlo'
    obtain rfl := hhi.unique hhi'
    have hI₁ := inv_step hb.inv (E := E) (c := .call _) hn
    simp only [exec] at hn
    rw [withSet_some k1 k2] at hn
    simp only [Arith.normalize, e] at hn
    cases hn
    obtain ⟨g', hg', hd'⟩ := data_history hI₁ ha hk (holds_self_store (g := { g with ds := ds' }) k1 k2)
    refine ⟨g', hg', ?_, by rw [hd']; show 0 ≤ ds'.maxCol; rw [hm']; exact hm⟩
    rw [hd']
    simpa [List.map_map, Function.comp_def, scale] using H'

theorem Grouped.ready {E : Env K} {name : String} {rows : List (List K)} {d : String} {t : Dbl K} {w : Bool} {s : Api K}
    (h : Grouped E name rows d t w s) : ∃ z, Holds s name z ∧ Spec.Ready (rows.map (·.map .fin)) d t w z := by
  obtain @⟨h3, s2, s3, _, nt, o, hl, hg, ha, hk⟩ := h
  have hI := hl.inv
  have hI₁ : Inv s3 := inv_step hI hg
  obtain ⟨g, hh, H, hmax⟩ := hl.data
  obtain ⟨id, h1, h2⟩ := hI.holds.1 hh
  simp only [Step, GroupCall, h1, h2] at hg
  obtain ⟨log, out, ho, rfl, hr⟩ := hg
  refine ⟨out.1, (kept_history hI₁ ha hk out.1).1 (holds_self_store h1 h2), ?_⟩
  cases e : out.2 with
  | error f => rw [e] at hr; cases hr
  | ok N => exact .grouped g H hmax s2.ratio log nt out ho N e

theorem Grouped.readyWhole {E : Env K} {name : String} {rows : List (List K)} {d : String} {t : Dbl K} {w : Bool} {s : Api K}
    (h : Grouped E name rows d t w s) : ∃ z, Holds s name z ∧ Spec.Ready (rows.map (·.map .fin)) d t w z ∧
      ∀ gs, z.groups = some gs → gs.whole = w := by
  obtain @⟨h3, s2, s3, _, nt, o, hl, hg, ha, hk⟩ := h
  have hI := hl.inv
  have hI₁ : Inv s3 := inv_step hI hg
  obtain ⟨g, hh, H, hmax⟩ := hl.data
  obtain ⟨id, h1, h2⟩ := hI.holds.1 hh
  simp only [Step, GroupCall, h1, h2] at hg
  obtain ⟨log, out, ho, rfl, hr⟩ := hg
  refine ⟨out.1, (kept_history hI₁ ha hk out.1).1 (holds_self_store h1 h2), ?_⟩
  cases e : out.2 with
  | error f => rw [e] at hr; cases hr
  | ok N => exact ⟨.grouped g H hmax s2.ratio log nt out ho N e, groupAll_whole ho e⟩

end Exact

end Genex.Registry
