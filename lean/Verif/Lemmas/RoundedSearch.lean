import Verif.Lemmas.KSearchAll
import Verif.Props.RoundedError

/-! Grouping and the searches with distances in rounded arithmetic: the order of candidates, what the searches need of the distances. -/

set_option linter.unusedSectionVars false

namespace Genex

open Spec Dbl Props

variable {K : Type} [Field K] [LinearOrder K] [IsStrictOrderedRing K] {rd : K → K}

/-! ## The order of candidates -/

theorem Separated.ltR_iff (hrd : Rounding rd) (he : 0 < rd eps) {l : List (Cand K)} (h : Separated l) {a b : Cand K} (ha : a ∈ l) (hb : b ∈ l) :
    Cand.ltR rd a b ↔ Cand.lt a b := by
  have key : (Dbl.abs (rnd rd (a.dist - b.dist)) < fin (rd eps)) ↔ (Dbl.abs (a.dist - b.dist) < fin eps) := by
    rcases h.num a ha with ea | ⟨x, ea⟩ <;> rcases h.num b hb with eb | ⟨y, eb⟩
    · rw [ea, eb]; exact ⟨fun h => absurd h id, fun h => absurd h id⟩
    · rw [ea, eb]; exact ⟨fun h => absurd h id, fun h => absurd h id⟩
    · rw [ea, eb]; exact ⟨fun h => absurd h id, fun h => absurd h id⟩
    · rw [ea, eb, fin_sub_fin, rnd_fin, abs_fin, abs_fin, fin_lt_fin, fin_lt_fin]
      by_cases hxy : x = y
      · subst hxy
        rw [sub_self, hrd.zero, abs_zero]
        exact ⟨fun _ => eps_pos, fun _ => he⟩
      · have hg := h.gap a ha b hb x y ea eb hxy
        rw [hrd.abs]
        exact ⟨fun h => absurd h (_root_.not_lt.2 (hrd.mono _ _ hg)), fun h => absurd h (_root_.not_lt.2 hg)⟩
  unfold Cand.ltR Cand.lt
  by_cases hc : Dbl.abs (a.dist - b.dist) < fin eps
  · rw [if_pos hc, if_pos (key.2 hc)]
  · rw [if_neg hc, if_neg (fun h => hc (key.1 h))]

theorem swo_congr {α : Type} {lt lt' : α → α → Prop} {l : List α} (h : ∀ a ∈ l, ∀ b ∈ l, (lt a b ↔ lt' a b)) (hl : SWO lt l) : SWO lt' l := by
  obtain ⟨h1, h2, h3⟩ := hl
  refine ⟨fun a ha => by rw [← h a ha a ha]; exact h1 a ha, fun a ha b hb c hc => ?_, fun a ha b hb c hc => ?_⟩
  · rw [← h a ha b hb, ← h b hb c hc, ← h a ha c hc]; exact h2 a ha b hb c hc
  · have := h3 a ha b hb c hc
    simpa only [h a ha b hb, h b hb c hc, h a ha c hc, h b hb a ha, h c hc b hb, h c hc a ha] using this

theorem heap_congr {α : Type} {lt lt' : α → α → Prop} {l : List α} (h : ∀ a ∈ l, ∀ b ∈ l, (lt a b ↔ lt' a b)) (hl : IsHeap lt l) :
    IsHeap lt' l := fun i a b hi ha hb => by
  rw [← h a (List.mem_of_getElem? ha) b (List.mem_of_getElem? hb)]; exact hl i a b hi ha hb

/-- Algorithms that are right for the rounded order do the same on well separated candidates. -/
theorem Algos.Lawful.apartR (hrd : Rounding rd) (he : 0 < rd eps) {A : Algos (Cand K)} (hA : A.Lawful (Cand.ltR rd)) : SortsApart A := by
  have up : ∀ l : List (Cand K), Separated l → ∀ l' : List (Cand K), (∀ x ∈ l', x ∈ l) → ∀ a ∈ l', ∀ b ∈ l', (Cand.ltR rd a b ↔ Cand.lt a b) :=
    fun l h l' hl a ha b hb => h.ltR_iff hrd he (hl a ha) (hl b hb)
  have dn : ∀ l : List (Cand K), Separated l → ∀ l' : List (Cand K), (∀ x ∈ l', x ∈ l) → ∀ a ∈ l', ∀ b ∈ l', (Cand.lt a b ↔ Cand.ltR rd a b) :=
    fun l h l' hl a ha b hb => (up l h l' hl a ha b hb).symm
  have swo : ∀ l : List (Cand K), Separated l → SWO (Cand.ltR rd) l := fun l h => swo_congr (dn l h l (fun _ h => h)) h.swo
  refine ⟨?_, ?_, ?_, ?_⟩
  · intro l h
    obtain ⟨h1, h2⟩ := hA.make l (swo l h)
    exact ⟨h1, heap_congr (up l h _ (fun x hx => h1.mem_iff.1 hx)) h2⟩
  · intro l x h hl
    obtain ⟨h1, h2⟩ := hA.push l x (swo _ h) (heap_congr (dn _ h l (fun y hy => List.mem_append.2 (Or.inl hy))) hl)
    exact ⟨h1, heap_congr (up _ h _ (fun x hx => h1.mem_iff.1 hx)) h2⟩
  · intro x l h hl
    obtain ⟨l', h1, h2, h3⟩ := hA.pop x l (swo _ h) (heap_congr (dn _ h _ (fun y hy => hy)) hl)
    exact ⟨l', h1, h2, heap_congr (up _ h _ (fun y hy => List.mem_cons.2 (Or.inr (h2.mem_iff.1 hy)))) h3⟩
  · intro l h
    obtain ⟨h1, h2⟩ := hA.sort l (swo l h)
    refine ⟨h1, h2.imp_of_mem ?_⟩
    intro a b ha hb hn
    rwa [← h.ltR_iff hrd he (h1.mem_iff.1 hb) (h1.mem_iff.1 ha)]

/-! ## The distances -/

variable [HasSqrt K]

theorem rounded_evals [Arith K] [BandOps] (hE : Rounds rd) : PairwiseEvals K := ⟨by
  intro ratio m x y h d
  rw [hE]
  change ∃ v, pairwiseDistance (m.dmR rd) x y d = .ok v
  unfold pairwiseDistance
  rw [if_neg (by simp [h])]
  exact ⟨_, rfl⟩⟩

/-- The computed DTW distance. -/
theorem warpedR_ok (hrd : Rounding rd) (m : Metric) (hm : m ≠ .sorensen ∧ m ≠ .cosine) (hs : m = .euclidean → LawfulSqrt K) [BandOps] (ratio : ℚ)
    (hr : 0 ≤ ratio) (a b : List K) (ha : 1 ≤ a.length) (hb : 1 ≤ b.length)
    (h1 : b.length = 1 → a.length ≤ bandWidth ratio a.length + 1 ∨ 2 * bandWidth ratio a.length + 1 < a.length) :
    ∃ F, warpedValue (m.dmR rd) ratio (a.map fin) (b.map fin) .inf = .ok F ∧ IsDist F ∧
      ExactEval (warpedValue (m.dmR rd) ratio (a.map fin) (b.map fin)) F ∧
      (Comparable ratio a.length b.length → ∃ v, F = fin v) := by
  have hbw := band_eq_bandWidth hr (len := max a.length b.length) (by omega)
  have main : ∀ L : Grow (m.dmR rd) a.length b.length, (∀ s, L.ok s → 0 ≤ L.val s) →
      ∃ F, warpedValue (m.dmR rd) ratio (a.map fin) (b.map fin) .inf = .ok F ∧ IsDist F ∧
        (Comparable ratio a.length b.length → ∃ v, F = fin v) := by
    intro L h0
    rcases warped_attain L hbw ha (by omega) with ⟨p, p1, p2, e⟩ | ⟨e, hno⟩
    · exact ⟨_, e, Or.inr ⟨_, rfl, h0 _ (pathAcc_ok p1)⟩, fun _ => ⟨_, rfl⟩⟩
    · refine ⟨_, e, Or.inl rfl, fun hc => ?_⟩
      exfalso
      apply hno
      obtain ⟨x, p, h1, h2', -⟩ := (C01_feasible (K := K) a.length b.length (dtwBand ratio a.length b.length) (by omega) (by omega)
        (fun _ => 0)).2 (by
          unfold Comparable at hc
          unfold dtwBand
          split <;> omega)
      exact ⟨p, alignment_iff.1 h1, (allowed_dtwBand (by omega) (by omega) h1).2 h2'⟩
  have fin' : (∃ F, warpedValue (m.dmR rd) ratio (a.map fin) (b.map fin) .inf = .ok F ∧ IsDist F ∧
        (Comparable ratio a.length b.length → ∃ v, F = fin v)) := by
    have hpos : (0 : K) ≤ ((2 * max a.length b.length : ℕ) : K) := by positivity
    cases m with
    | euclidean =>
      have := hs rfl
      refine main (growEuclideanR hrd (by omega)) ?_
      rintro s ⟨t, ht, -, rfl⟩
      exact hrd.nonneg (div_nonneg (hrd.nonneg (LawfulSqrt.sqrt_nonneg ht)) hpos)
    | manhattan =>
      refine main (growManhattanR hrd (by omega)) ?_
      rintro s ⟨t, ht, -, rfl⟩
      exact hrd.nonneg (div_nonneg ht hpos)
    | chebyshev =>
      rcases warped_attain (monoChebyshevR (rd := rd)).toGrow hbw ha (by omega : 1 ≤ b.length) with ⟨p, p1, p2, e⟩ | ⟨e, hno⟩
      · refine ⟨_, e, Or.inr ⟨_, rfl, ?_⟩, fun _ => ⟨_, rfl⟩⟩
        have := valCR hrd a b (m := a.length) (n := b.length) _ p p1
        refine le_of_le_of_eq ?_ this.symm
        exact hrd.nonneg (maxCost_nonneg _ _ _)
      · refine ⟨_, e, Or.inl rfl, fun hc => ?_⟩
        exfalso
        apply hno
        obtain ⟨x, p, h1, h2', -⟩ := (C01_feasible (K := K) a.length b.length (dtwBand ratio a.length b.length) (by omega) (by omega)
          (fun _ => 0)).2 (by
            unfold Comparable at hc
            unfold dtwBand
            split <;> omega)
        exact ⟨p, alignment_iff.1 h1, (allowed_dtwBand (by omega) (by omega) h1).2 h2'⟩
    | cosine => exact absurd rfl hm.2
    | sorensen => exact absurd rfl hm.1
  obtain ⟨F, e1, h2, h3⟩ := fin'
  refine ⟨F, e1, h2, fun d => ?_, h3⟩
  obtain ⟨G, e, h⟩ := C72_dropout_partial hrd m hm hs ratio hr a b ha hb h1 d
  simp only at e h
  rw [e1, Except.ok.injEq] at e
  subst e
  exact h

/-- The computed distance from the first series to the second. -/
def Computed (rd : K → K) (m : Metric) [BandOps] (ratio : ℚ) (a b : List K) (d : Dbl K) : Prop :=
  warpedValue (m.dmR rd) ratio (a.map fin) (b.map fin) .inf = .ok d

theorem Computed.unique {m : Metric} [BandOps] {ratio : ℚ} {a b : List K} {d d' : Dbl K} (h : Computed rd m ratio a b d)
    (h' : Computed rd m ratio a b d') : d = d' := by
  unfold Computed at h h'
  rw [h, Except.ok.injEq] at h'
  exact h'

/-- What a search calls. -/
theorem evalR_warpedOf (hrd : Rounding rd) (m : Metric) (hm : m ≠ .sorensen ∧ m ≠ .cosine) (hs : m = .euclidean → LawfulSqrt K) [BandOps] (ratio : ℚ)
    (hr : 0 ≤ ratio) (a b : List K) (ha : 1 ≤ a.length) (hb : 1 ≤ b.length)
    (hone : b.length = 1 → a.length ≤ bandWidth ratio a.length + 1 ∨ 2 * bandWidth ratio a.length + 1 < a.length) :
    ∃ F, Computed rd m ratio a b F ∧ IsDist F ∧ ExactEval ((warpedOf m).evalR rd ratio (a.map fin) (b.map fin)) F ∧
      (Comparable ratio a.length b.length → ∃ v, F = fin v) := by
  obtain ⟨F, h1, h2, h3, h4⟩ := warpedR_ok hrd m hm hs ratio hr a b ha hb hone
  refine ⟨F, h1, h2, ?_, h4⟩
  unfold warpedOf
  by_cases he : m = .euclidean
  · subst he
    have := hs rfl
    rw [if_pos rfl]
    obtain ⟨G, g1, -, g2⟩ := C72_cascade_partial hrd ratio hr a b (by omega) (by omega) hone
    simp only [Metric.dmR] at h1
    rw [h1, Except.ok.injEq] at g1
    subst g1
    exact g2
  · rw [if_neg he]
    exact h3

theorem comparable_symm [BandOps] {ratio : ℚ} {q ℓ : ℕ} (h : Comparable ratio q ℓ) : Comparable ratio ℓ q := by
  unfold Comparable at h ⊢
  rw [max_comm]
  exact h.symm

theorem dists_rounded [Arith K] [BandOps] (hE : Rounds rd) (hrd : Rounding rd) (m : Metric) (hm : m ≠ .sorensen ∧ m ≠ .cosine)
    (hs : m = .euclidean → LawfulSqrt K) (ratio : ℚ) (hr : 0 ≤ ratio) (q : List K) (hq : 1 ≤ q.length) :
    Dists ratio m q (fun x => Computed rd m ratio x q) (Computed rd m ratio q) := by
  have hcol : ∀ x : List K, 2 ≤ x.length → (q.length = 1 → Comparable ratio q.length x.length) →
      q.length = 1 → x.length ≤ bandWidth ratio x.length + 1 ∨ 2 * bandWidth ratio x.length + 1 < x.length := by
    intro x hx hc h
    have := (hc h).2
    rw [h, show max 1 x.length = x.length by omega] at this
    omega
  refine ⟨?_, ?_, ?_, fun _ _ _ => Computed.unique, fun _ _ _ => Computed.unique⟩
  · intro x hx hc
    obtain ⟨F, h1, h2, h3, -⟩ := evalR_warpedOf hrd m hm hs ratio hr x q (by omega) hq (hcol x hx hc)
    obtain ⟨G, g1, g2, g3, -⟩ := evalR_warpedOf hrd m hm hs ratio hr q x hq (by omega) (by omega)
    refine ⟨F, G, h1, g1, h2, g2, fun d => ?_, fun d => ?_⟩
    · rw [hE]; exact h3 d
    · rw [hE]; exact g3 d
  · intro x hx hc
    obtain ⟨F, h1, -, -, h2⟩ := evalR_warpedOf hrd m hm hs ratio hr x q (by omega) hq (hcol x hx (fun _ => hc))
    obtain ⟨v, rfl⟩ := h2 (comparable_symm hc)
    exact ⟨v, h1⟩
  · intro x hx hc
    obtain ⟨F, h1, -, -, h2⟩ := evalR_warpedOf hrd m hm hs ratio hr q x hq (by omega) (by omega)
    obtain ⟨v, rfl⟩ := h2 hc
    exact ⟨v, h1⟩

end Genex
