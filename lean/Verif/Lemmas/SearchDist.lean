import Verif.Lemmas.KSearch
import Verif.Lemmas.GroupDist

/-! Searching the groups of finite data: the distances, the lengths, the spaces. -/

set_option linter.unusedSectionVars false

namespace Genex

open Spec Dbl Props

variable {K : Type} [Field K] [LinearOrder K] [IsStrictOrderedRing K] [HasSqrt K]

/-- The warped distance that goes with a metric is the DTW distance in either order of the arguments. -/
theorem warpedOf_exact (m : Metric) (hm : m ≠ .sorensen ∧ m ≠ .cosine) (hs : m = .euclidean → LawfulSqrt K) [BandOps] (ratio : ℚ)
    (hr : 0 ≤ ratio) (q x : List K) (hq : 1 ≤ q.length) (hx : 2 ≤ x.length) (hc : q.length = 1 → Comparable ratio q.length x.length) :
    ∃ F, Dtw m ratio q x F ∧ IsDist F ∧ ExactEval ((warpedOf m).eval ratio (x.map fin) (q.map fin)) F ∧
      ExactEval ((warpedOf m).eval ratio (q.map fin) (x.map fin)) F := by
  have hcol : q.length = 1 → x.length ≤ bandWidth ratio x.length + 1 ∨ 2 * bandWidth ratio x.length + 1 < x.length := by
    intro h
    have := (hc h).2
    rw [h, show max 1 x.length = x.length by omega] at this
    omega
  obtain ⟨F, h1, h2, h3⟩ := dtw_exact m hm hs ratio hr q x (by omega) (by omega) (by omega)
  obtain ⟨F', h1', h2', h3'⟩ := dtw_exact m hm hs ratio hr x q (by omega) (by omega) hcol
  have hsym := C11_symmetric m hm hs ratio hr q x (by omega) (by omega)
  have e : F' = F := by
    rw [(dtw_iff hm hs hr (by omega) (by omega)).1 h1, (dtw_iff hm hs hr (by omega) (by omega)).1 h1', Except.ok.injEq] at hsym
    exact hsym.symm
  subst e
  refine ⟨F', h1, h2, ?_⟩
  unfold warpedOf
  by_cases he : m = .euclidean
  · subst he
    have := hs rfl
    obtain ⟨G, g1, -, g2⟩ := C07_cascade_partial ratio hr x q (by omega) (by omega) hcol
    obtain ⟨G', g1', -, g2'⟩ := C07_cascade_partial ratio hr q x (by omega) (by omega) (by omega)
    have k1 := (dtw_iff hm hs hr (by omega) (by omega)).1 h1
    have k1' := (dtw_iff hm hs hr (by omega) (by omega)).1 h1'
    simp only [Metric.dm] at k1 k1'
    rw [k1', Except.ok.injEq] at g1
    rw [k1, Except.ok.injEq] at g1'
    subst g1 g1'
    rw [if_pos rfl]
    exact ⟨g2, g2'⟩
  · rw [if_neg he]
    exact ⟨h3', h3⟩

/-- `PE x d`: the distance of the series `x` to the query is `d`; `PD x d`: that of the query to `x`.  What the searches need of them. -/
structure Dists [Arith K] [BandOps] (ratio : ℚ) (m : Metric) (q : List K) (PE PD : List K → Dbl K → Prop) : Prop where
  ok : ∀ x : List K, 2 ≤ x.length → (q.length = 1 → Comparable ratio q.length x.length) → ∃ F G, PE x F ∧ PD x G ∧ IsDist F ∧ IsDist G ∧
    ExactEval (Arith.eval ratio (warpedOf m) (x.map fin) (q.map fin)) F ∧
    ExactEval (Arith.eval ratio (warpedOf m) (q.map fin) (x.map fin)) G
  finE : ∀ x, 2 ≤ x.length → Comparable ratio q.length x.length → ∃ v, PE x (fin v)
  finD : ∀ x, 2 ≤ x.length → Comparable ratio q.length x.length → ∃ v, PD x (fin v)
  uniqE : ∀ x d d', PE x d → PE x d' → d = d'
  uniqD : ∀ x d d', PD x d → PD x d' → d = d'

open Classical in
/-- The distance as a function. -/
noncomputable def distTo (P : List K → Dbl K → Prop) (rows : List (List K)) (ℓ : ℕ) (c : ℕ × ℕ) : Dbl K :=
  if h : ∃ F, P (finPts rows ℓ c) F then h.choose else .nan

theorem distTo_eq {P : List K → Dbl K → Prop} (hP : ∀ x d d', P x d → P x d' → d = d') {rows : List (List K)} {ℓ : ℕ}
    {c : ℕ × ℕ} {F : Dbl K} (h : P (finPts rows ℓ c) F) : distTo P rows ℓ c = F := by
  have h' : ∃ F, P (finPts rows ℓ c) F := ⟨F, h⟩
  unfold distTo
  rw [dif_pos h']
  exact hP _ _ _ h'.choose_spec h

theorem dtwTo_eq {m : Metric} [BandOps] {ratio : ℚ} {rows : List (List K)} {q : List K} {ℓ : ℕ} {c : ℕ × ℕ} {F : Dbl K}
    (h : Dtw m ratio q (finPts rows ℓ c) F) : distTo (Dtw m ratio q) rows ℓ c = F :=
  distTo_eq (P := Dtw m ratio q) (fun _ _ _ => dtw_unique) h

section
variable [Arith K] [BandOps] {ratio : ℚ} {m : Metric} {q : List K} {PE PD : List K → Dbl K → Prop}

theorem Dists.eqE (hd : Dists ratio m q PE PD) {rows : List (List K)} {ℓ : ℕ} {c : ℕ × ℕ} {F : Dbl K}
    (h : PE (finPts rows ℓ c) F) : distTo PE rows ℓ c = F := distTo_eq hd.uniqE h

theorem Dists.eqD (hd : Dists ratio m q PE PD) {rows : List (List K)} {ℓ : ℕ} {c : ℕ × ℕ} {F : Dbl K}
    (h : PD (finPts rows ℓ c) F) : distTo PD rows ℓ c = F := distTo_eq hd.uniqD h

theorem Dists.distAt (hd : Dists ratio m q PE PD) (rows : List (List K)) {ℓ : ℕ} (hℓ : 2 ≤ ℓ)
    (hcmp : q.length = 1 → Comparable ratio q.length ℓ) :
    DistAt (rows.map (·.map fin)) ratio (warpedOf m) (q.map fin) (distTo PE rows) (distTo PD rows) ℓ ∧
    ∀ c, SubAt (rows.map (·.map (fin : K → Dbl K))) ℓ c →
      PE (finPts rows ℓ c) (distTo PE rows ℓ c) ∧ PD (finPts rows ℓ c) (distTo PD rows ℓ c) := by
  have key : ∀ c, SubAt (rows.map (·.map (fin : K → Dbl K))) ℓ c →
      (ExactEval (Arith.eval ratio (warpedOf m) (ptsAt (rows.map (·.map fin)) ℓ c) (q.map fin)) (distTo PE rows ℓ c) ∧
       ExactEval (Arith.eval ratio (warpedOf m) (q.map fin) (ptsAt (rows.map (·.map fin)) ℓ c)) (distTo PD rows ℓ c) ∧
       IsDist (distTo PE rows ℓ c) ∧ IsDist (distTo PD rows ℓ c)) ∧
      PE (finPts rows ℓ c) (distTo PE rows ℓ c) ∧ PD (finPts rows ℓ c) (distTo PD rows ℓ c) := by
    intro c hc
    obtain ⟨h1, h2, -⟩ := ptsAt_fin hc
    obtain ⟨F, G, g1, g2, g3, g4, g5, g6⟩ := hd.ok (finPts rows ℓ c) (by omega) (by rw [h2]; exact hcmp)
    rw [hd.eqE g1, hd.eqD g2, h1]
    exact ⟨⟨g5, g6, g3, g4⟩, g1, g2⟩
  exact ⟨fun c hc => (key c hc).1, fun c hc => (key c hc).2⟩

end

instance : Nonempty (LocalSpace K) :=
  ⟨{ length := 0, subCount := 0, memberMap := [], groups := [] }⟩

/-- The spaces of a grouped dataset. -/
theorem GroupedAll.spaces [Arith K] {ds : Dataset K} {rows : List (List (Dbl K))} [BandOps] {ratio : ℚ} {m : Metric} {t : Dbl K} {whole : Bool}
    {gs : GSpace K} (G : GroupedAll ds rows ratio m t whole gs) :
    ∃ SP ABS, Spaces ds rows (InRange ds.maxCol whole) gs SP ABS ∧
      ∀ ℓ, InRange ds.maxCol whole ℓ → Grouped ds rows ratio (.pairwise m) t ℓ (SP ℓ) (ABS ℓ) := by
  have h := G.at_range
  choose! SP ABS h1 h2 using h
  exact ⟨SP, ABS, ⟨G.size, fun ℓ h => h.1, h1, fun ℓ h => (h2 ℓ h).rep, G.off_range⟩, h2⟩

/-- The lengths a search visits. -/
theorem order_ok [BandOps] {ratio : ℚ} (hr : 0 ≤ ratio) {q : ℕ} {maxCol : Int} (hq : 2 ≤ q) (hN : (q : Int) ≤ maxCol) :
    ∃ order : List ℕ, generateTraverseOrder ratio q maxCol = .ok (order.map Nat.cast) ∧ order.Nodup ∧
      ∀ ℓ, ℓ ∈ order ↔ 2 ≤ ℓ ∧ (ℓ : Int) ≤ maxCol ∧ Comparable ratio q ℓ := by
  obtain ⟨N, rfl⟩ := Int.eq_ofNat_of_zero_le (by omega : 0 ≤ maxCol)
  obtain ⟨l, e, -, hn, h1, h2⟩ := C15_traverse ratio hr q N (by omega) (by omega)
  have hpos : ∀ x ∈ l, 2 ≤ x ∧ x ≤ N := by
    intro x hx
    rcases h1 x hx with rfl | h
    · omega
    · exact h
  have hl : (l.map Int.toNat).map (Nat.cast : ℕ → Int) = l := by
    rw [List.map_map]
    conv_rhs => rw [← List.map_id l]
    apply List.map_congr_left
    intro x hx
    have := hpos x hx
    simp only [Function.comp_apply, id]
    omega
  refine ⟨l.map Int.toNat, by rw [hl]; exact e, ?_, ?_⟩
  · refine List.Nodup.map_on ?_ hn
    intro x hx y hy h
    have := hpos x hx
    have := hpos y hy
    omega
  · intro ℓ
    rw [List.mem_map]
    constructor
    · rintro ⟨x, hx, rfl⟩
      have := hpos x hx
      refine ⟨by omega, by omega, (h2 x.toNat (by omega) (by omega)).1 ?_⟩
      rw [Int.toNat_of_nonneg (by omega)]; exact hx
    · rintro ⟨a, b, c⟩
      exact ⟨(ℓ : Int), (h2 ℓ a (by exact_mod_cast b)).2 c, by simp⟩

/-- The same for a query with one point. -/
theorem order_any [BandOps] {ratio : ℚ} (hr : 0 ≤ ratio) {q : ℕ} {maxCol : Int} (hq : 1 ≤ q) (hN : (q : Int) ≤ maxCol) :
    ∃ order : List ℕ, generateTraverseOrder ratio q maxCol = .ok (order.map Nat.cast) ∧ order.Nodup ∧
      (∀ ℓ ∈ order, 1 ≤ ℓ ∧ (ℓ : Int) ≤ maxCol) ∧
      ∀ ℓ, 2 ≤ ℓ → (ℓ ∈ order ↔ (ℓ : Int) ≤ maxCol ∧ Comparable ratio q ℓ) := by
  obtain ⟨N, rfl⟩ := Int.eq_ofNat_of_zero_le (by omega : 0 ≤ maxCol)
  obtain ⟨l, e, -, hn, h1, h2⟩ := C15_traverse ratio hr q N (by omega) (by omega)
  have hpos : ∀ x ∈ l, 1 ≤ x ∧ x ≤ N := by
    intro x hx
    rcases h1 x hx with rfl | h <;> omega
  have hl : (l.map Int.toNat).map (Nat.cast : ℕ → Int) = l := by
    rw [List.map_map]
    conv_rhs => rw [← List.map_id l]
    apply List.map_congr_left
    intro x hx
    have := hpos x hx
    simp only [Function.comp_apply, id]
    omega
  refine ⟨l.map Int.toNat, by rw [hl]; exact e, ?_, ?_, ?_⟩
  · refine List.Nodup.map_on ?_ hn
    intro x hx y hy h
    have := hpos x hx
    have := hpos y hy
    omega
  · intro ℓ hℓ
    obtain ⟨x, hx, rfl⟩ := List.mem_map.1 hℓ
    have := hpos x hx
    omega
  · intro ℓ h2ℓ
    rw [List.mem_map]
    constructor
    · rintro ⟨x, hx, rfl⟩
      have := hpos x hx
      refine ⟨by omega, (h2 x.toNat (by omega) (by omega)).1 ?_⟩
      rw [Int.toNat_of_nonneg (by omega)]; exact hx
    · rintro ⟨b, c⟩
      exact ⟨(ℓ : Int), (h2 ℓ h2ℓ (by exact_mod_cast b)).2 c, by simp⟩

/-- A query longer than `maxCol` leaves the loop of lengths at its first access. -/
theorem order_head [BandOps] (ratio : ℚ) (q total : Int) (l : List Int) (h : generateTraverseOrder ratio q total = .ok l) :
    l.head? = some q := by
  have key : ∀ (fuel : ℕ) (s : Trav), s.order.head? = some q → Trav.loop ratio q total fuel s = .ok l → l.head? = some q := by
    intro fuel
    induction fuel with
    | zero =>
      intro s hs h
      unfold Trav.loop at h
      split at h
      · rw [Except.ok.injEq] at h; rw [← h]; exact hs
      · cases h
    | succ fuel ih =>
      intro s hs h
      unfold Trav.loop at h
      split at h
      · rw [Except.ok.injEq] at h; rw [← h]; exact hs
      · refine ih _ ?_ h
        have hap : ∀ (t : List Int) (x : Int), t.head? = some q → (t ++ [x]).head? = some q := by
          intro t x ht; cases t <;> simp_all
        have h1 : (s.tests total).order.head? = some q := hs
        have h2 : ∀ s : Trav, s.order.head? = some q → (s.goLow ratio q).order.head? = some q := by
          intro s hs; unfold Trav.goLow; split_ifs <;> simp_all
        have h3 : ∀ s : Trav, s.order.head? = some q → (s.goHigh ratio q).order.head? = some q := by
          intro s hs; unfold Trav.goHigh; split_ifs <;> simp_all
        exact h3 _ (h2 _ h1)
  exact key _ _ rfl h

theorem order_error [BandOps] (ratio : ℚ) (q total : Int) (e : Fault) (h : generateTraverseOrder ratio q total = .error e) :
    e = .diverge := by
  have key : ∀ (fuel : ℕ) (s : Trav), Trav.loop ratio q total fuel s = .error e → e = .diverge := by
    intro fuel
    induction fuel with
    | zero =>
      intro s h
      unfold Trav.loop at h
      split at h
      · cases h
      · rw [Except.error.injEq] at h; exact h.symm
    | succ fuel ih =>
      intro s h
      unfold Trav.loop at h
      split at h
      · cases h
      · exact ih _ h
  exact key _ _ h

end Genex
