import Verif.Model.LowerBounds

/-! Two metrics that compute the same on the accumulators that can occur give the same distances (lemmas for C87). -/

set_option linter.unusedSectionVars false

namespace Genex

open Dbl

/-- Both fail with the same fault, or both succeed with related results. -/
def RelRes {α β : Type} (R : α → β → Prop) : Res α → Res β → Prop
  | .ok x, .ok y => R x y
  | .error e, .error e' => e = e'
  | _, _ => False

theorem foldlM_rel {σ τ ι : Type} {R : σ → τ → Prop} {f : σ → ι → Res σ} {g : τ → ι → Res τ} (l : List ι)
    (h : ∀ i ∈ l, ∀ s t, R s t → RelRes R (f s i) (g t i)) {s : σ} {t : τ} (h0 : R s t) :
    RelRes R (l.foldlM f s) (l.foldlM g t) := by
  induction l generalizing s t with
  | nil => exact h0
  | cons i l ih =>
    rw [List.foldlM_cons, List.foldlM_cons]
    have h1 := h i (by simp) s t h0
    cases hf : f s i with
    | error e =>
      cases hg : g t i with
      | error e' => rw [hf, hg] at h1; exact h1
      | ok y => rw [hf, hg] at h1; exact h1.elim
    | ok x =>
      cases hg : g t i with
      | error e' => rw [hf, hg] at h1; exact h1.elim
      | ok y =>
        rw [hf, hg] at h1
        exact ih (fun j hj => h j (by simp [hj])) h1

variable {K : Type} [Field K] [LinearOrder K]

/-- The metrics agree on accumulators of up to `m + n` steps, which satisfy `ok`. -/
structure LSim (M M' : DM K) (e : M.S → M'.S) (ok : ℕ → M.S → Prop) (dom : Dbl K → Prop) (m n : ℕ) : Prop where
  unset : M'.unset = M.unset.map e
  init : M'.init = e M.init
  ok_unset : ∀ s, M.unset = some s → ok 0 s
  ok_init : ok 0 M.init
  mono : ∀ k s, ok k s → ok (k + 1) s
  step : ∀ k s x y, dom x → dom y → ok k s → k < m + n → ok (k + 1) (M.reduce s x y) ∧ M'.reduce (e s) x y = e (M.reduce s x y)
  normDTW : ∀ k s, ok k s → k ≤ m + n → M'.normDTW (e s) m n = M.normDTW s m n
  norm : ∀ k s, ok k s → k ≤ m + n → M'.norm (e s) m n = M.norm s m n
  drop : ∀ k s d, ok k s → k ≤ m + n → dropTest M' d m n (e s) = dropTest M d m n s

section
variable {M M' : DM K} {e : M.S → M'.S} {ok : ℕ → M.S → Prop} {dom : Dbl K → Prop} {a b : List (Dbl K)}
  (S : LSim M M' e ok dom a.length b.length) (ha : ∀ x ∈ a, dom x) (hb : ∀ x ∈ b, dom x)

include S in
theorem LSim.up {k k' : ℕ} (h : k ≤ k') {s : M.S} (hs : ok k s) : ok k' s := by
  induction h with
  | refl => exact hs
  | step _ ih => exact S.mono _ _ ih

include S ha hb in
theorem pairwise_sim (d : Dbl K) : pairwiseDistance M' a b d = pairwiseDistance M a b d := by
  unfold pairwiseDistance
  split
  · rfl
  · have key : ∀ (xs ys : List (Dbl K)) (k : ℕ) (s : M.S), (∀ x ∈ xs, dom x) → (∀ y ∈ ys, dom y) → ok k s → k + xs.length ≤ a.length →
        ∃ j t, pairwiseLoop M (dropTest M d a.length b.length) s xs ys = t ∧ ok j t.1 ∧ j ≤ a.length + b.length ∧
          pairwiseLoop M' (dropTest M' d a.length b.length) (e s) xs ys = (e t.1, t.2) := by
      intro xs
      induction xs with
      | nil => intro ys k s _ _ hs hk; exact ⟨k, (s, false), by simp [pairwiseLoop], hs, by simp at hk; omega, by simp [pairwiseLoop]⟩
      | cons x xs ih =>
        intro ys k s hx hy hs hk
        simp only [List.length_cons] at hk
        cases ys with
        | nil => exact ⟨k, (s, false), by simp [pairwiseLoop], hs, by omega, by simp [pairwiseLoop]⟩
        | cons y ys =>
          obtain ⟨h1, h2⟩ := S.step k s x y (hx x (by simp)) (hy y (by simp)) hs (by omega)
          simp only [pairwiseLoop]
          rw [h2, S.drop (k + 1) _ d h1 (by omega)]
          by_cases hd : dropTest M d a.length b.length (M.reduce s x y) = true
          · rw [if_pos hd, if_pos hd]
            exact ⟨k + 1, _, rfl, h1, by omega, rfl⟩
          · rw [if_neg hd, if_neg hd]
            exact ih ys (k + 1) _ (fun z hz => hx z (by simp [hz])) (fun z hz => hy z (by simp [hz])) h1 (by omega)
    obtain ⟨j, t, h1, h2, h3, h4⟩ := key a b 0 M.init ha hb S.ok_init (by omega)
    simp only [S.init, h4, h1]
    rw [S.norm j t.1 h2 h3]

/-- The matrices hold the same. -/
structure MatRel (e : M.S → M'.S) (ok : ℕ → M.S → Prop) (mt : Mat M) (mt' : Mat M') : Prop where
  cost : ∀ i j, mt'.cost i j = (mt.cost i j).map e
  ncost : mt'.ncost = mt.ncost
  ok : ∀ i j s, mt.cost i j = some s → ok (i + j + 1) s

include ha in
theorem dom_at {i : ℕ} (hi : i < a.length) : dom (at' a i) := by
  unfold at'
  rw [List.getD_eq_getElem?_getD, List.getElem?_eq_getElem hi]
  exact ha _ (List.getElem_mem _)

include S ha hb in
theorem fill_sim {mt : Mat M} {mt' : Mat M'} (h : MatRel e ok mt mt') {i j : ℕ} (hi : i < a.length) (hj : j < b.length)
    {p : Option M.S} (hp : ∀ s, p = some s → ok (i + j) s) :
    RelRes (MatRel e ok) (mt.fill a b i j p) (mt'.fill a b i j (p.map e)) := by
  cases p with
  | none => rfl
  | some s =>
    obtain ⟨h1, h2⟩ := S.step (i + j) s _ _ (dom_at ha hi) (dom_at hb hj) (hp s rfl) (by omega)
    have h3 := S.normDTW (i + j + 1) _ h1 (by omega)
    simp only [Mat.fill, Option.map_some, RelRes]
    refine ⟨fun i' j' => ?_, ?_, fun i' j' t => ?_⟩
    · simp only
      split
      · rw [h2]; rfl
      · exact h.cost i' j'
    · simp only [h2, h3, h.ncost]
    · simp only
      split
      · rename_i hij
        rw [hij.1, hij.2]
        intro ht
        cases ht
        exact h1
      · exact h.ok i' j' t

include S ha hb in
theorem cellStep_sim {r : Int} {i j : ℕ} (hi : i < a.length) (hi0 : 1 ≤ i) (hj : j < b.length) {st : Mat M × Dbl K} {st' : Mat M' × Dbl K}
    (h : MatRel e ok st.1 st'.1 ∧ st'.2 = st.2) :
    RelRes (fun s s' => MatRel e ok s.1 s'.1 ∧ s'.2 = s.2) (cellStep a b r i st j) (cellStep a b r i st' j) := by
  obtain ⟨mt, best⟩ := st
  obtain ⟨mt', best'⟩ := st'
  obtain ⟨h, rfl⟩ : MatRel e ok mt mt' ∧ best' = best := h
  unfold cellStep
  simp only
  by_cases h0 : j = 0
  · rw [if_pos h0, if_pos h0, h.ncost]
    exact ⟨h, rfl⟩
  · rw [if_neg h0, if_neg h0, h.ncost]
    generalize (if (i : Int) - r ≤ (j : Int) - 1 ∧ (j : Int) - 1 ≤ i + r then mt.ncost i (j - 1) else Dbl.inf) = ij1
    generalize (if (j : Int) - r ≤ (i : Int) - 1 ∧ (i : Int) - 1 ≤ j + r then mt.ncost (i - 1) j else Dbl.inf) = i1j
    have hp : ∃ p : Option M.S, (if mt.ncost (i - 1) (j - 1) < ij1 ∧ mt.ncost (i - 1) (j - 1) < i1j then mt.cost (i - 1) (j - 1)
          else if ij1 < i1j then mt.cost i (j - 1) else mt.cost (i - 1) j) = p ∧
        (if mt.ncost (i - 1) (j - 1) < ij1 ∧ mt.ncost (i - 1) (j - 1) < i1j then mt'.cost (i - 1) (j - 1)
          else if ij1 < i1j then mt'.cost i (j - 1) else mt'.cost (i - 1) j) = p.map e ∧ ∀ s, p = some s → ok (i + j) s := by
      split
      · exact ⟨_, rfl, h.cost _ _, fun s hs => S.up (by omega) (h.ok _ _ s hs)⟩
      · split
        · exact ⟨_, rfl, h.cost _ _, fun s hs => S.up (by omega) (h.ok _ _ s hs)⟩
        · exact ⟨_, rfl, h.cost _ _, fun s hs => S.up (by omega) (h.ok _ _ s hs)⟩
    obtain ⟨p, e1, e2, hp⟩ := hp
    rw [e1, e2]
    have := fill_sim S ha hb h hi hj hp
    cases hf : mt.fill a b i j p with
    | error x =>
      cases hg : mt'.fill a b i j (p.map e) with
      | error y => rw [hf, hg] at this; exact this
      | ok y => rw [hf, hg] at this; exact this.elim
    | ok x =>
      cases hg : mt'.fill a b i j (p.map e) with
      | error y => rw [hf, hg] at this; exact this.elim
      | ok y =>
        rw [hf, hg] at this
        exact ⟨this, by simp only; rw [this.ncost]⟩

include S ha hb in
theorem rowsLoop_sim {r : Int} {d : Dbl K} (l : List ℕ) (hl : ∀ i ∈ l, 1 ≤ i ∧ i < a.length) {mt : Mat M} {mt' : Mat M'}
    (h : MatRel e ok mt mt') :
    RelRes (fun s s' => MatRel e ok s.1 s'.1 ∧ s'.2 = s.2) (rowsLoop a b r d l mt) (rowsLoop a b r d l mt') := by
  induction l generalizing mt mt' with
  | nil => exact ⟨h, rfl⟩
  | cons i l ih =>
    have hrow : RelRes (fun s s' => MatRel e ok s.1 s'.1 ∧ s'.2 = s.2) (rowLoop a b r i mt) (rowLoop a b r i mt') := by
      unfold rowLoop
      refine foldlM_rel (R := fun (s : Mat M × Dbl K) (s' : Mat M' × Dbl K) => MatRel e ok s.1 s'.1 ∧ s'.2 = s.2) _ (fun j hj s t hst => ?_) ⟨h, rfl⟩
      have hj' : j < b.length := by
        unfold rowRange at hj
        simp only [List.mem_filter, List.mem_range] at hj
        exact hj.1
      exact cellStep_sim S ha hb (hl i (by simp)).2 (hl i (by simp)).1 hj' hst
    simp only [rowsLoop]
    cases hf : rowLoop a b r i mt with
    | error x =>
      cases hg : rowLoop a b r i mt' with
      | error y => rw [hf, hg] at hrow; exact hrow
      | ok y => rw [hf, hg] at hrow; exact hrow.elim
    | ok x =>
      cases hg : rowLoop a b r i mt' with
      | error y => rw [hf, hg] at hrow; exact hrow.elim
      | ok y =>
        rw [hf, hg] at hrow
        obtain ⟨x1, x2⟩ := x
        obtain ⟨y1, y2⟩ := y
        obtain ⟨h1, rfl⟩ : MatRel e ok x1 y1 ∧ y2 = x2 := hrow
        simp only
        split
        · exact ⟨h1, rfl⟩
        · exact ih (fun i hi => hl i (by simp [hi])) h1

/-- A match on related outcomes. -/
theorem RelRes.elim {α β : Type} {R : α → β → Prop} {x : Res α} {y : Res β} (h : RelRes R x y) :
    (∃ e, x = .error e ∧ y = .error e) ∨ ∃ s t, x = .ok s ∧ y = .ok t ∧ R s t := by
  cases x <;> cases y <;> simp_all [RelRes]

include S ha hb in
theorem warped_sim [BandOps] (ratio : ℚ) (d : Dbl K) (q : List (ℕ × ℕ)) : warpedDistance M' ratio a b d q = warpedDistance M ratio a b d q := by
  unfold warpedDistance
  simp only
  split
  · rename_i h1
    obtain ⟨k1, k2⟩ := S.step 0 M.init _ _ (dom_at ha (i := 0) (by omega)) (dom_at hb (i := 0) (by omega)) S.ok_init (by omega)
    rw [S.init, k2, S.normDTW 1 _ k1 (by omega)]
  · split
    · rfl
    · rename_i h1 h2
      have ha0 : 0 < a.length := by omega
      have hb0 : 0 < b.length := by omega
      have e0 : RelRes (MatRel e ok) (matInit M a b) (matInit M' a b) := by
        unfold matInit
        have := fill_sim S ha hb (mt := { cost := fun _ _ => M.unset, ncost := fun i j => if i = a.length - 1 ∧ j = b.length - 1 then .inf else 0 })
          (mt' := { cost := fun _ _ => M'.unset, ncost := fun i j => if i = a.length - 1 ∧ j = b.length - 1 then .inf else 0 })
          ⟨fun _ _ => S.unset, rfl, fun i j s hs => S.up (by omega) (S.ok_unset s hs)⟩ (i := 0) (j := 0) ha0 hb0 (p := some M.init)
          (fun s hs => by cases hs; exact S.ok_init)
        rw [S.init]
        exact this
      rcases e0.elim with ⟨x, k1, k2⟩ | ⟨mt0, mt0', k1, k2, r0⟩ <;> rw [k1, k2]
      simp only
      have e1 : RelRes (MatRel e ok) (firstCol a b (band ratio (max a.length b.length : ℕ)) mt0)
          (firstCol a b (band ratio (max a.length b.length : ℕ)) mt0') := by
        unfold firstCol
        refine foldlM_rel _ (fun i hi s t hst => ?_) r0
        rw [List.mem_range'_1] at hi
        rw [hst.cost]
        exact fill_sim S ha hb hst (by omega) hb0 (fun u hu => S.up (by omega) (hst.ok _ _ u hu))
      rcases e1.elim with ⟨x, k1, k2⟩ | ⟨mt1, mt1', k1, k2, r1⟩ <;> rw [k1, k2]
      simp only
      have e2 : RelRes (MatRel e ok) (firstRow a b (band ratio (max a.length b.length : ℕ)) mt1)
          (firstRow a b (band ratio (max a.length b.length : ℕ)) mt1') := by
        unfold firstRow
        refine foldlM_rel _ (fun i hi s t hst => ?_) r1
        rw [List.mem_range'_1] at hi
        rw [hst.cost]
        exact fill_sim S ha hb hst ha0 (by omega) (fun u hu => S.up (by omega) (hst.ok _ _ u hu))
      rcases e2.elim with ⟨x, k1, k2⟩ | ⟨mt2, mt2', k1, k2, r2⟩ <;> rw [k1, k2]
      simp only
      have e3 := rowsLoop_sim S ha hb (r := band ratio (max a.length b.length : ℕ)) (d := d) (List.range' 1 (a.length - 1))
        (fun i hi => by rw [List.mem_range'_1] at hi; omega) r2
      rcases e3.elim with ⟨x, k1, k2⟩ | ⟨⟨mt3, dr⟩, ⟨mt3', dr'⟩, k1, k2, r3, rfl⟩ <;> rw [k1, k2]
      simp only
      rw [r3.ncost]
end

end Genex
