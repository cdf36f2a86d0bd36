import Verif.Props.EndToEnd
import Verif.Props.OldFormat

/-!
# C80: groups as text, through the interface
-/

set_option linter.unusedSectionVars false

namespace Genex.Props

open Dbl Api Registry

section

variable {K : Type} [Field K] [LinearOrder K] [IsStrictOrderedRing K] [HasSqrt K]

section

variable [PairwiseEvals K] (E : Env K) (s : Api K) (name dst : String) (rows : List (List K)) (distance : String) (t : Dbl K) (whole : Bool)
    (hg : Registry.Grouped E name rows distance t whole s) (hd : Loaded E dst rows s)
    (hlen : ∀ z g, Holds s name z → Holds s dst g → g.ds.maxCol = z.ds.maxCol)
    (hP : Spec.ReadsBack E.printer (rows.map (·.map fin)) id) (hlow : Spec.numberOf (E.printer.low t) ≠ none)
    (old : Option (List (Lex K)))

include hg hd hlen hP hlow

theorem text_state : ∃ f N s₂ g₂ g, s.exec E (.saveGroupsOld name false old true) = (s, .ret (.ok (.words (some f)))) ∧
    s.exec E (.loadGroupsOld dst (some f)) = (s₂, .ret (.ok (.int N))) ∧ Inv s₂ ∧ s₂.ratio = s.ratio ∧ Holds s₂ dst g₂ ∧
    Spec.Ready (rows.map (·.map fin)) distance t whole g ∧
    (∃ z gs, Holds s name z ∧ z.groups = some gs ∧ N = gs.total) ∧
    ∀ q, g₂.getBestMatch s.ratio q = g.getBestMatch s.ratio q := by
  obtain ⟨z, hz, R, hw⟩ := hg.readyWhole
  obtain ⟨g, hh, H, hmax⟩ := hd.data
  have hI := hg.inv
  have hm := hlen z g hz hh
  obtain ⟨id, h1, h2⟩ := hI.holds.1 hz
  obtain ⟨id', h3, h4⟩ := hI.holds.1 hh
  obtain ⟨e1, gs, gs', e2, e3, -⟩ := C76_round_trip_partial (rows.map (·.map fin)) distance t whole z R hw E.printer g H hm _root_.id hP hlow old
  have hs := fun q => (C76_search_partial (rows.map (·.map fin)) distance t whole z R hw E.printer g H hm hP hlow old s.ratio q).1
  cases hf : (z.saveOld E.printer false old true).1 with
  | none =>
    rw [hf] at e3
    simp [GSet.loadOld] at e3
  | some f =>
    rw [hf] at e3
    have hst : s.exec E (.loadGroupsOld dst (some f)) = (s.store id' ⟨g.ds, some gs'⟩, .ret (.ok (.int gs.total))) := by
      simp only [exec]
      rw [withSet_some h3 h4, e3]
      rfl
    refine ⟨f, gs.total, s.store id' ⟨g.ds, some gs'⟩, ⟨g.ds, some gs'⟩, (g.load z.save.1).1, ?_, hst, ?_, rfl, holds_self_store h3 h4,
      .loaded z R hw g H hm, ⟨z, gs, hz, e2, rfl⟩, ?_⟩
    · simp only [exec]
      rw [withSet_some h1 h2, e1, hf]
      rfl
    · exact inv_step hI (E := E) (c := .call _) hst
    · intro q
      have := hs q
      rw [hf, e3] at this
      exact this

/-- C80: groups saved as text under one name and loaded under another (or the same) name with the same series: the call returns the
number of groups, and `getBestMatch` then answers as C70 says, with a part of a line of the file and its distance; if all lengths
were grouped it always answers. -/
theorem C80_best (m : Metric) (hdist : distance = metricName m) (hm : m ≠ .sorensen ∧ m ≠ .cosine) (hs : m = .euclidean → LawfulSqrt K)
    (hr : 0 ≤ s.ratio) :
    ∃ f N s₂, s.exec E (.saveGroupsOld name false old true) = (s, .ret (.ok (.words (some f)))) ∧
      s.exec E (.loadGroupsOld dst (some f)) = (s₂, .ret (.ok (.int N))) ∧
      (∃ z gs, Holds s name z ∧ z.groups = some gs ∧ N = gs.total) ∧
      ∀ qname index start stop q, Query E s₂ qname index start stop q →
        (∀ s' c, s₂.exec E (.bestMatch dst qname index start stop) = (s', .ret (.ok (.cand c))) →
          s' = s₂ ∧ ∃ i p ℓ y x, Names c i p ℓ ∧ Spec.SubOf rows ℓ i p y ∧ Spec.Comparable s.ratio q.length ℓ ∧
            Spec.Dtw m s.ratio q y c.dist ∧ c.dist = fin x) ∧
        (whole = false → 2 ≤ q.length → (∃ r ∈ rows, q.length ≤ r.length) →
          ∃ c, s₂.exec E (.bestMatch dst qname index start stop) = (s₂, .ret (.ok (.cand c)))) := by
  subst hdist
  obtain ⟨f, N, s₂, g₂, g, e1, e2, hI, hrat, hg2, R, hN, hsame⟩ :=
    text_state E s name dst rows (metricName m) t whole hg hd hlen hP hlow old
  refine ⟨f, N, s₂, e1, e2, hN, ?_⟩
  intro qname index start stop q hq
  rw [best_exec hI hq hg2, hrat, hsame]
  refine ⟨?_, ?_⟩
  · intro s' c hc
    cases e : g.getBestMatch s.ratio (q.map .fin) with
    | error f => rw [e] at hc; cases hc
    | ok c' =>
      rw [e] at hc
      cases hc
      obtain ⟨ℓ, i, p, y, x, h1, h2, h3, -, h5, h6⟩ := C34_best_match g rows s.ratio hr m hm hs t whole R q c e
      exact ⟨rfl, i, p, ℓ, y, x, by rw [Names, h3]; exact ⟨rfl, rfl, rfl⟩, h2, h1.2, h5, h6⟩
  · rintro rfl h2 hrow
    obtain ⟨c, hc⟩ := C34_returns g rows s.ratio hr m hm hs t false R q h2 (.inl ⟨rfl, hrow⟩)
    exact ⟨c, by rw [hc]; rfl⟩

/-- C80: and no part of a line of the file of a comparable length is nearer to the query than the answer by more than `τ / 4` (euclidean)
or `τ / 2` (chebyshev). -/
theorem C80_near (m : Metric) (hdist : distance = metricName m) (hm : m = .euclidean ∨ m = .chebyshev)
    (hs : m = .euclidean → LawfulSqrt K) (hr : 0 ≤ s.ratio) (τ : K) (hτ : 0 ≤ τ) (ht : t = fin τ) (hw : whole = false) :
    ∃ f N s₂, s.exec E (.saveGroupsOld name false old true) = (s, .ret (.ok (.words (some f)))) ∧
      s.exec E (.loadGroupsOld dst (some f)) = (s₂, .ret (.ok (.int N))) ∧
      ∀ qname index start stop q, Query E s₂ qname index start stop q →
        ∀ s' c, s₂.exec E (.bestMatch dst qname index start stop) = (s', .ret (.ok (.cand c))) →
          ∀ (ℓ i p : ℕ) (y : List K), 2 ≤ ℓ → Spec.SubOf rows ℓ i p y → Spec.Comparable s.ratio q.length ℓ →
            ∀ x, Spec.Dtw m s.ratio q y (fin x) → c.dist ≤ fin (x + (if m = .euclidean then τ / 4 else τ / 2)) := by
  subst hdist ht hw
  obtain ⟨f, N, s₂, g₂, g, e1, e2, hI, hrat, hg2, R, hN, hsame⟩ :=
    text_state E s name dst rows (metricName m) (fin τ) false hg hd hlen hP hlow old
  refine ⟨f, N, s₂, e1, e2, ?_⟩
  intro qname index start stop q hq s' c hc ℓ i p y h2 hy hcom x hx
  rw [best_exec hI hq hg2, hrat, hsame] at hc
  cases e : g.getBestMatch s.ratio (q.map .fin) with
  | error f => rw [e] at hc; cases hc
  | ok c' =>
    rw [e] at hc
    cases hc
    have hcon : Spec.Considered g.ds.maxCol false s.ratio q.length ℓ := by
      refine ⟨⟨?_, by simpa using h2⟩, hcom⟩
      obtain ⟨r, hr1, hr2, -⟩ := hy
      have := R.usable.1.fits i (r.map fin) (by rw [List.getElem?_map, hr1]; rfl)
      rw [List.length_map] at this
      omega
    rcases hm with rfl | rfl
    · have := hs rfl
      rw [if_pos rfl]
      exact C69_euclidean g rows s.ratio hr τ hτ false R q c e ℓ i p y hcon hy x hx
    · rw [if_neg (by decide)]
      exact C69_chebyshev g rows s.ratio hr τ hτ false R q c e ℓ i p y hcon hy x hx

end

/-- C80: saving does not change the interface, whatever becomes of it. -/
theorem C80_save (E : Env K) {h : List (AnyCall K × Reply K)} {s : Api K} (hh : History E fresh h s) (name : String) (sizeOnly : Bool)
    (old : Option (List (Lex K))) (opens : Bool) : (s.exec E (.saveGroupsOld name sizeOnly old opens)).1 = s :=
  exec_reads E s _ trivial

/-- C80: loading into one dataset does not change another, nor any series. -/
theorem C80_load (E : Env K) {h : List (AnyCall K × Reply K)} {s s' : Api K} {r : Reply K} (hh : History E fresh h s) (name : String)
    (file : Option (List (Lex K))) (he : s.exec E (.loadGroupsOld name file) = (s', r)) :
    (∀ other, other ≠ name → SameAt s s' other) ∧ ∀ g, Holds s name g → ∃ g', Holds s' name g' ∧ g'.ds = g.ds := by
  have hI := inv_history inv_fresh hh
  have hst : Step E s (.call (.loadGroupsOld name file)) s' r := he
  refine ⟨?_, ?_⟩
  · intro other ho g
    refine holds_eff hI (step_eff hI hst) ?_ g
    rintro ⟨-, h | h⟩
    · exact ho (List.mem_singleton.1 h)
    · cases h
  · intro g hg
    exact step_data hI hst (fun h => h) hg

end

/-! ### Examples -/

theorem exServed_len : ∀ z g, Holds exServed "f" z → Holds exServed "f" g → g.ds.maxCol = z.ds.maxCol := by
  intro z g hz hg
  obtain ⟨id, h1, h2⟩ := (exServed_grouped.inv.holds).1 hz
  obtain ⟨id', h3, h4⟩ := (exServed_grouped.inv.holds).1 hg
  rw [h1] at h3
  cases h3
  rw [h2] at h4
  cases h4
  rfl

example := C80_best exEnv exServed "f" "f" exTripleRows _ (fin 1) false exServed_grouped exServed_grouped.loaded exServed_len
  (fun _ _ _ _ => rfl) (by decide +kernel) none .chebyshev rfl (by decide) (by simp) (by decide +kernel)
example := C80_near exEnv exServed "f" "f" exTripleRows _ (fin 1) false exServed_grouped exServed_grouped.loaded exServed_len
  (fun _ _ _ _ => rfl) (by decide +kernel) none .chebyshev rfl (by decide) (by simp) (by decide +kernel) 1 (by decide) rfl rfl
example := C80_save exEnv (run_fresh [exTiny, exTriples] (by decide +kernel)) "f" false none true
example (s' : Api ℚ) (r : Reply ℚ) := C80_load (s' := s') (r := r) exEnv (run_fresh [exTiny, exTriples] (by decide +kernel)) "f" none

/-- A text with two groups of length two and one of length three. -/
def exText : List (Lex ℚ) := [.int 1, .int 10, .int 2, .int 3, .int 2, .int 4, .word "manhattan",
  .int 2, .int 1, .int 4, .int 2, .int 0, .int 0, .int 1, .int 0, .int 4, .int 2, .int 2, .int 0, .int 1, .int 1, .int 1,
  .int 1, .int 1, .int 4, .int 2, .int 2, .int 0, .int 0, .int 1, .int 0]

/-- The interface after loading two series and then groups from the text. -/
def exTexted : Api ℚ := (run fresh [exTriples, .loadGroupsOld "f" (some exText)]).1

example : found (exTexted.exec exEnv (.bestMatch "f" "f" 0 1 3)).2 = [(0, 1, 3, fin 0)] := by decide +kernel

/-- C80 is false: the dataset cannot be listed afterwards, nor searched for several matches, nor its groups saved: a variable is read
that was never set. -/
theorem C80_info_false :
    ∃ (h : List (AnyCall ℚ × Reply ℚ)) (s : Api ℚ), History exEnv fresh h s ∧ "f" ∈ loaded h ∧ (∀ e ∈ h, kind e.2 = .ok) ∧
      kind (s.exec exEnv (.info "f")).2 = .ub ∧ kind (s.exec exEnv .allInfo).2 = .ub ∧
      kind (s.exec exEnv (.kBest 3 3 "f" "f" 0 1 3)).2 = .ub ∧ kind (s.exec exEnv (.saveGroups "f" none true)).2 = .ub ∧
      kind (s.exec exEnv (.saveGroupsOld "f" true none true)).2 = .ub :=
  ⟨_, exTexted, run_fresh [exTriples, .loadGroupsOld "f" (some exText)] (by decide +kernel), by decide +kernel, by decide +kernel,
    by decide +kernel, by decide +kernel, by decide +kernel, by decide +kernel, by decide +kernel⟩

end Genex.Props
