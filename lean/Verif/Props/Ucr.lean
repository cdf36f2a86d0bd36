import Verif.Lemmas.UcrFiles

/-!
# C83–C85: the search by scanning (genex/lib/trillionDTW.cpp)

`lift a` is an array whose cells hold the numbers of the list `a`.
-/

set_option linter.unusedSectionVars false

namespace Genex.Props

open Dbl Spec Ucr

section
variable {K : Type} [Field K] [LinearOrder K] [IsStrictOrderedRing K]

/-! ## C83: the distance -/

/-- C83.  `dtw` with terms `e` that bound the rows from below: every cell of the row `i` in the band costs at least `e i`, and
`cb` holds the sums of these terms from the end.  No memory is used that was not written or is outside; the result is the least
cost of the alignments in the band whenever that cost or the result is below `bsf`.  So giving up early never loses a better one. -/
theorem C83_dtw_rows {a b cb : List K} {m r : ℕ} (ha : a.length = m) (hb : b.length = m) (hcb : cb.length = m) (hm : 1 ≤ m)
    {bsf : K} (hbig : bsf ≤ 10 ^ 20) {e : ℕ → K}
    (he : ∀ i j, i < m → j < m → i ≤ j + r → j ≤ i + r → e i ≤ (a.getD i 0 - b.getD j 0) ^ 2)
    (hc : ∀ k < m, cb.getD k 0 = ∑ x ∈ Finset.Ico k m, e x) :
    ∃ v, dtw (lift a) (lift b) (lift cb) m r (fin bsf) = .ok (fin v) ∧ ∀ D, Apart r a b D → (v < bsf ∨ D < bsf) → v = D := by
  have hB : Below a b r true e m := fun i j h1 h2 h3 h4 => by simpa [along, cell] using he i j h1 h2 h3 h4
  obtain ⟨v, h1, h2⟩ := dtw_ok ha hb hcb hm hbig (hB.rest hc)
  refine ⟨v, h1, fun D hD h => h2 D ?_ h⟩
  unfold Apart at hD
  rwa [ha, hb] at hD

/-- C83.  The same with terms that bound the columns. -/
theorem C83_dtw_columns {a b cb : List K} {m r : ℕ} (ha : a.length = m) (hb : b.length = m) (hcb : cb.length = m) (hm : 1 ≤ m)
    {bsf : K} (hbig : bsf ≤ 10 ^ 20) {e : ℕ → K}
    (he : ∀ i j, i < m → j < m → i ≤ j + r → j ≤ i + r → e j ≤ (a.getD i 0 - b.getD j 0) ^ 2)
    (hc : ∀ k < m, cb.getD k 0 = ∑ x ∈ Finset.Ico k m, e x) :
    ∃ v, dtw (lift a) (lift b) (lift cb) m r (fin bsf) = .ok (fin v) ∧ ∀ D, Apart r a b D → (v < bsf ∨ D < bsf) → v = D := by
  have hB : Below a b r false e m := fun i j h1 h2 h3 h4 => by simpa [along, cell] using he i j h1 h2 h3 h4
  obtain ⟨v, h1, h2⟩ := dtw_ok ha hb hcb hm hbig (hB.rest hc)
  refine ⟨v, h1, fun D hD h => h2 D ?_ h⟩
  unfold Apart at hD
  rwa [ha, hb] at hD

/-- C83.  With no terms and the default `bsf`, the result is the least cost. -/
theorem C83_dtw_plain {a b : List K} {m r : ℕ} (ha : a.length = m) (hb : b.length = m) (hm : 1 ≤ m) {D : K} (hD : Apart r a b D)
    (hlt : D < 10 ^ 20) : dtw (lift a) (lift b) (lift (List.replicate m 0)) m r big = .ok (fin D) := by
  obtain ⟨v, h1, h2⟩ := C83_dtw_rows (cb := List.replicate m 0) (r := r) ha hb (by simp) hm (le_refl (10 ^ 20)) (e := fun _ => 0)
    (fun i j _ _ _ _ => sq_nonneg _) (fun k hk => by simp [List.getD, hk])
  rw [← h2 D hD (.inr hlt)]
  exact h1

/-! Two series of four points, band 1: the least cost is 2; with `bsf = 1` the search gives up. -/
example : dtw (lift [1, 2, 3, 4]) (lift [2, 3, 4, 3]) (lift [0, 0, 0, 0]) 4 1 (big : Dbl ℚ) = .ok (fin 2) := by decide +kernel
example : dtw (lift [1, 2, 3, 4]) (lift [2, 3, 4, 3]) (lift [0, 0, 0, 0]) 4 1 (fin 1 : Dbl ℚ) = .ok (fin 1) := by decide +kernel

/-- C83.  A result that is not below `bsf` need not be the cost. -/
theorem C83_given_up_false : ∃ (a b : List ℚ) (D : ℚ), a.length = 4 ∧ b.length = 4 ∧ Apart 1 a b D ∧
    ∃ v, dtw (lift a) (lift b) (lift [0, 0, 0, 0]) 4 1 (fin 1) = .ok (fin v) ∧ v ≠ D := by
  obtain ⟨D, hD⟩ := exists_apart (a := ([1, 2, 3, 4] : List ℚ)) (b := [2, 3, 4, 3]) (m := 4) 1 rfl rfl
  have hlt : D ≤ 4 := (apart_le_diag (m := 4) rfl rfl (by norm_num) hD).trans (by decide +kernel)
  have h := C83_dtw_plain (m := 4) rfl rfl (by norm_num) hD (by linarith)
  have h' : dtw (lift [1, 2, 3, 4]) (lift [2, 3, 4, 3]) (lift [0, 0, 0, 0]) 4 1 (big : Dbl ℚ) = .ok (fin 2) := by decide +kernel
  have e : (fin D : Dbl ℚ) = fin 2 := by
    have := h.symm.trans h'
    exact Except.ok.inj this
  refine ⟨_, _, D, rfl, rfl, hD, 1, by decide +kernel, ?_⟩
  rw [fin.inj e]
  norm_num

/-! ## C84: the bounds -/

/-- C84.  The bound of Kim, for a window `w` of at least six points held in the circular array from `j` on, and any mean `μ` and
deviation `σ` that are used to normalise: it is at most the cost of every alignment of the normalised window with the query, in any
band. -/
theorem C84_kim_partial {t : Arr K} {w b : List K} {m r : ℕ} {j : ℕ} {μ σ bsf : K} (hm : 6 ≤ m) (hw : w.length = m) (hb : b.length = m) (hσ : σ ≠ 0)
    (ht : ∀ k < m, t[k + j]? = some (some (fin (w.getD k 0)))) :
    ∃ v, lbKim t (lift b) j m (fin μ) (fin σ) (fin bsf) = .ok (fin v) ∧
      ∀ D, Apart r (w.map fun x => (x - μ) / σ) b D → v ≤ D := by
  obtain ⟨v, e, h⟩ := lbKim_ok (t := t) (a := w.map fun x => (x - μ) / σ) (b := b) (m := m) (j := j) (mean := fin μ) (std := fin σ) (bsf := bsf)
    (by omega) hb (by
      intro k hk
      have : rd t ((k : Int) + (j : Int)) = .ok (fin (w.getD k 0)) := by
        have := rd_some (ht k hk)
        push_cast at this
        exact this
      rw [zAt_ok this hσ]
      congr 2
      have : k < w.length := by omega
      simp [List.getD, this])
  refine ⟨v, e, fun D hD => ?_⟩
  obtain ⟨p, hp, -, rfl⟩ := hD.1
  rw [List.length_map, hw, hb, alignment_iff] at hp
  exact h.trans (kimSum_le _ b hm hp)

/-- C84.  With five points the bound of Kim is no bound: the third point is counted twice. -/
theorem C84_kim_false : ∃ (w b : List ℚ) (v D : ℚ), w.length = 5 ∧ b.length = 5 ∧
    lbKim (lift w ++ lift w) (lift b) 0 5 (fin 0) (fin 1) big = .ok (fin v) ∧ Apart 1 (w.map fun x => (x - 0) / 1) b D ∧ D < v := by
  obtain ⟨D, hD⟩ := exists_apart (a := ([10, 10, 0, 10, 10] : List ℚ).map fun x => (x - 0) / 1) (b := [10, 10, 1, 10, 10]) (m := 5) 1 rfl rfl
  have hle : D ≤ 1 := (apart_le_diag (m := 5) rfl rfl (by norm_num) hD).trans (by decide +kernel)
  exact ⟨[10, 10, 0, 10, 10], [10, 10, 1, 10, 10], 2, D, rfl, rfl, by decide +kernel, hD, by linarith⟩

/-- C84.  With two points the query is read outside of its memory. -/
theorem C84_kim_two_points_false : lbKim (lift [0, 1, 0, 1]) (lift [0, 1]) 0 2 (fin 0) (fin 1) (big : Dbl ℚ) =
    .error (.ub "index out of bounds") := by decide +kernel

/-! Six points: the bound is 1, there is an alignment of cost 1. -/
example : lbKim (lift [5, 5, 0, 5, 5, 5] ++ lift [5, 5, 0, 5, 5, 5]) (lift [5, 5, 1, 5, 5, 5]) 0 6 (fin 0) (fin 1) (big : Dbl ℚ) =
    .ok (fin 1) := by decide +kernel

/-- C84.  The bound of Keogh with the envelopes of the query, the terms being taken in any order: it is at most the cost of every
alignment in the band; and when it is below `bsf`, the array holds for every point of the window a term that is below every cell of its
row in the band. -/
theorem C84_keogh_query {t cb : Arr K} {w b : List K} {m r : ℕ} {j : ℕ} {μ σ bsf : K} {order : List ℕ} {lo up : OutArr K} (hm : 1 ≤ m)
    (hr : r < m) (hw : w.length = m) (hb : b.length = m) (hσ : σ ≠ 0) (ho : order.Perm (List.range m)) (hc : cb.length = m)
    (hl : lemire false (b.map fin) r = .ok (lo, up)) (ht : ∀ k < m, t[k + j]? = some (some (fin (w.getD k 0)))) :
    ∃ v cb', lbKeoghQ order t (order.map up) (order.map lo) cb j (fin μ) (fin σ) (fin bsf) = .ok (fin v, cb') ∧
      (∀ D, Apart r (w.map fun x => (x - μ) / σ) b D → v ≤ D) ∧
      (v < bsf → ∃ e : ℕ → K, (∀ k < m, cb'[k]? = some (some (fin (e k)))) ∧
        ∀ i k, i < m → k < m → i ≤ k + r → k ≤ i + r → e i ≤ ((w.getD i 0 - μ) / σ - b.getD k 0) ^ 2) := by
  obtain ⟨lo', up', el, l, u, h1, h2⟩ := lemire_lists b (r := r) (by omega)
  rw [hl] at el
  cases el
  rw [hb] at h1 h2
  obtain ⟨v, cb', e, hk⟩ := keoghQ_ok (t := t) (uo := order.map up) (lo := order.map lo) (j := (j : Int)) (mean := fin μ) (std := fin σ) (bsf := bsf)
    (up := u) (low := l) (z := fun k => (w.getD k 0 - μ) / σ) order (i := 0) (lb := 0) (cb := cb) (perm_nodup ho) (by
      intro n o hno
      have hom := perm_lt ho hno
      obtain ⟨a1, a2⟩ := h1 o hom
      refine ⟨by omega, by simp [hno, a2], by simp [hno, a1], zAt_ok ?_ hσ⟩
      have := rd_some (ht o hom)
      push_cast at this
      exact this)
  have hcell : ∀ i k, i < m → k < m → i ≤ k + r → k ≤ i + r →
      excess (l i) (u i) ((w.getD i 0 - μ) / σ) ≤ ((w.getD i 0 - μ) / σ - b.getD k 0) ^ 2 := by
    intro i k hi hk' h3 h4
    have := h2 i k hi hk' h3 h4
    calc _ ≤ (b.getD k 0 - (w.getD i 0 - μ) / σ) ^ 2 := excess_le this.1 this.2
      _ = _ := by ring
  have hget : ∀ k < m, (w.map fun x => (x - μ) / σ).getD k 0 = (w.getD k 0 - μ) / σ := by
    intro k hk'
    have : k < w.length := by omega
    simp [List.getD, this]
  refine ⟨v, cb', e, fun D hD => ?_, fun hv => ⟨_, fun k hk' => hk.full hv k (ho.mem_iff.2 (by simpa using hk')), hcell⟩⟩
  obtain ⟨p, hp, hp2, rfl⟩ := hD.1
  rw [List.length_map, hw, hb, alignment_iff] at hp
  have hB : Below (w.map fun x => (x - μ) / σ) b r true (fun k => excess (l k) (u k) ((w.getD k 0 - μ) / σ)) m := by
    intro i k hi hk' h3 h4
    simp only [along, cell, if_true]
    rw [hget i hi]
    exact hcell i k hi hk' h3 h4
  have hle := hk.le
  rw [zero_add, perm_sum ho] at hle
  exact hle.trans (hB.sum_le hm hp hp2)

/-- C84.  The same with the envelopes of the chunk `c` in which the window starts at `I`. -/
theorem C84_keogh_data {cb : Arr K} {c b : List K} {m r I : ℕ} {μ σ bsf : K} {order : List ℕ} {lo up : OutArr K} (hm : 1 ≤ m)
    (hr : r < m) (hI : I + m ≤ c.length) (hb : b.length = m) (hσ : 0 < σ) (ho : order.Perm (List.range m)) (hc : cb.length = m)
    (hl : lemire false (c.map fin) r = .ok (lo, up)) :
    ∃ v cb', lbKeoghD order (order.map fun o => (lift b)[o]?.join) cb ((List.range c.length).map lo) ((List.range c.length).map up) I
        (fin μ) (fin σ) (fin bsf) = .ok (fin v, cb') ∧
      (∀ D, Apart r ((part c m I).map fun x => (x - μ) / σ) b D → v ≤ D) ∧
      (v < bsf → ∃ e : ℕ → K, (∀ k < m, cb'[k]? = some (some (fin (e k)))) ∧
        ∀ i k, i < m → k < m → i ≤ k + r → k ≤ i + r → e k ≤ ((c.getD (I + i) 0 - μ) / σ - b.getD k 0) ^ 2) := by
  obtain ⟨lo', up', el, l, u, h1, h2⟩ := lemire_lists c (r := r) (by omega)
  rw [hl] at el
  cases el
  obtain ⟨v, cb', e, hk⟩ := keoghD_ok (qo := order.map fun o => (lift b)[o]?.join) (l := (List.range c.length).map lo)
    (u := (List.range c.length).map up) (I := (I : Int)) (mean := fin μ) (std := fin σ) (bsf := bsf)
    (up := fun k => (u (I + k) - μ) / σ) (low := fun k => (l (I + k) - μ) / σ) (z := fun k => b.getD k 0) order (i := 0) (lb := 0) (cb := cb)
    (perm_nodup ho) (by
      intro n o hno
      have hom := perm_lt ho hno
      have hlt : I + o < c.length := by omega
      obtain ⟨a1, a2⟩ := h1 (I + o) hlt
      have ec : ((I : Int) + (o : Int)) = ((I + o : ℕ) : Int) := by push_cast; ring
      rw [ec]
      have hob : o < b.length := by omega
      exact ⟨by omega, zAt_ok (rd_some (by simp [hlt, a2])) hσ.ne', zAt_ok (rd_some (by simp [hlt, a1])) hσ.ne', by simp [hno, lift, List.getD, hob]⟩)
  have hcell : ∀ i k, i < m → k < m → i ≤ k + r → k ≤ i + r →
      excess ((l (I + k) - μ) / σ) ((u (I + k) - μ) / σ) (b.getD k 0) ≤ ((c.getD (I + i) 0 - μ) / σ - b.getD k 0) ^ 2 := by
    intro i k hi hk' h3 h4
    have := h2 (I + k) (I + i) (by omega) (by omega) (by omega) (by omega)
    exact excess_le (div_le_div_of_nonneg_right (by linarith [this.1]) hσ.le) (div_le_div_of_nonneg_right (by linarith [this.2]) hσ.le)
  have hget : ∀ k < m, ((part c m I).map fun x => (x - μ) / σ).getD k 0 = (c.getD (I + k) 0 - μ) / σ := by
    intro k hk'
    rw [part_eq hI]
    simp [List.getD, hk']
  refine ⟨v, cb', e, fun D hD => ?_, fun hv => ⟨_, fun k hk' => hk.full hv k (ho.mem_iff.2 (by simpa using hk')), hcell⟩⟩
  obtain ⟨p, hp, hp2, rfl⟩ := hD.1
  rw [List.length_map, part_length hI, hb, alignment_iff] at hp
  have hB : Below ((part c m I).map fun x => (x - μ) / σ) b r false
      (fun k => excess ((l (I + k) - μ) / σ) ((u (I + k) - μ) / σ) (b.getD k 0)) m := by
    intro i k hi hk' h3 h4
    simp only [along, cell]
    rw [hget i hi]
    exact hcell i k hi hk' h3 h4
  have hle := hk.le
  rw [zero_add, perm_sum ho] at hle
  exact hle.trans (hB.sum_le hm hp hp2)

/-! Both bounds for a window and a query of three points. -/
example : (do
    let (lo, up) ← lemire false ([fin 0, fin 1, fin 0] : List (Dbl ℚ)) 1
    let (v, _) ← lbKeoghQ [2, 0, 1] (lift [3, 1, 0, 3, 1, 0]) ([2, 0, 1].map up) ([2, 0, 1].map lo) (lift [0, 0, 0]) 0 (fin 0) (fin 1) big
    pure v) = .ok (fin 4) := by decide +kernel
example : (do
    let (lo, up) ← lemire false ([fin 3, fin 1, fin 0] : List (Dbl ℚ)) 1
    let (v, _) ← lbKeoghD [2, 0, 1] ([2, 0, 1].map fun o => (lift [0, 1, 0])[o]?.join) (lift [0, 0, 0]) ([0, 1, 2].map lo) ([0, 1, 2].map up) 0
      (fin 0) (fin 1) big
    pure v) = .ok (fin 1) := by decide +kernel

end

/-! ## C85: the search -/

section
variable {K : Type} [Field K] [LinearOrder K] [IsStrictOrderedRing K] [HasSqrt K] [LawfulSqrt K]

/-- C85.  The search, for a query of at least six points that are not all the same, not longer than a chunk, a band narrower than the query, a data file
of less than 2³¹ numbers, and any way of ordering the points of the query: it ends without a fault; if all windows of the data are flat,
or there are none, location 0 and distance 10¹⁰ are reported; otherwise the location is the first of the windows that are not flat and
nearest to the query after standardisation, the distance is the root of the least cost; and no more windows are counted as pruned
than there are. -/
theorem C85_search_partial (S : Sorter K) {data query : Input K} {epoch m r : ℕ} (hd : data.bad = false) (hN : data.nums.length < 2 ^ 31)
    (hq : m ≤ query.nums.length) (hnf : ¬ Flat (query.nums.take m)) (hm : 6 ≤ m) (hme : m ≤ epoch) (hepoch : epoch ≤ 1000000) (hr : r < m)
    {fuel : ℕ} (hfuel : data.nums.length < fuel) :
    ∃ rep, search S epoch fuel (some data) (some query) m r = .ok rep ∧ rep.scanned = (max data.nums.length (m - 1) : ℕ) ∧
      rep.kim + rep.keogh + rep.keogh2 ≤ data.nums.length + 1 - m ∧
      ((rep.location = 0 ∧ rep.distance = fin (10 ^ 10) ∧ ∀ i, i + m ≤ data.nums.length → Flat (part data.nums m i)) ∨
        ∃ (l : ℕ) (D : K), rep.location = l ∧ rep.distance = fin (HasSqrt.sqrt D) ∧
          Nearest data.nums (query.nums.take m) r (data.nums.length + 1 - m) l D) := by
  have hlen : (query.nums.take m).length = m := by simp; omega
  obtain ⟨Q, d, e, hP⟩ := prepare_ok S (m := m) (r := r) (qf := query) (by omega) hr (by omega) hq hnf
  have hbig : (4 * (query.nums.take m).length : K) < 10 ^ 20 := by
    rw [hlen]
    have : ((4 * m : ℕ) : K) < ((10 ^ 20 : ℕ) : K) := by exact_mod_cast (by omega)
    norm_num at this ⊢
    exact this
  have hL : 1 ≤ epoch + 1 - m := by omega
  have hmul : fuel * 1 ≤ fuel * (epoch + 1 - m) := Nat.mul_le_mul_left _ hL
  have hP' : Prepared (standardised (query.nums.take m)) (query.nums.take m).length r Q := by rw [hlen]; exact hP
  have hc := chunks_ok (data := data.nums) (query := query.nums.take m) (epoch := epoch) (r := r) (Q := Q) hnf (by omega) (by omega) hepoch hbig hN (by omega)
    hP' fuel 0 data d (alloc epoch)
    ⟨alloc (2 * m), alloc m, List.replicate m (some 0), List.replicate m (some 0), List.replicate m (some 0), 0, 0, big, 0, 0, 0, 0⟩
    (by omega) (by rw [hlen]; omega)
    { good := hd, len := by simp [alloc], first := fun _ => rfl, later := fun h => by omega, t := by simp [alloc, hlen], cb1 := by simp [hlen], cb2 := by simp [hlen]
      best := ⟨10 ^ 20, rfl, .inl ⟨rfl, rfl, fun i hi => by simp at hi⟩⟩
      pruned := by simp [St.pruned] }
  rw [hlen] at hc
  obtain ⟨rep, h1, h2, h3, h4⟩ := hc
  refine ⟨rep, ?_, h2, h3, ?_⟩
  · unfold search
    simp only [e, bind, Except.bind]
    exact h1
  · rw [hlen] at h4
    rcases h4 with ⟨a, b, c⟩ | h4
    · exact .inl ⟨a, b, fun i hi => c i (by omega)⟩
    · exact .inr h4

/-- C85.  The same for the function of the code, whose chunks have 100000 points. -/
theorem C85_calculate_partial (S : Sorter K) {data query : Input K} {m r : ℕ} (hd : data.bad = false) (hN : data.nums.length < 2 ^ 31)
    (hq : m ≤ query.nums.length) (hnf : ¬ Flat (query.nums.take m)) (hm : 6 ≤ m) (hme : m ≤ 100000) (hr : r < m)
    (hw : ∃ i, i + m ≤ data.nums.length ∧ ¬ Flat (part data.nums m i)) {fuel : ℕ} (hfuel : data.nums.length < fuel) :
    ∃ (rep : Report K) (l : ℕ) (D : K), calculate S fuel (some data) (some query) m r = .ok rep ∧ rep.location = l ∧
      rep.distance = fin (HasSqrt.sqrt D) ∧ rep.scanned = data.nums.length ∧
      Nearest data.nums (query.nums.take m) r (data.nums.length + 1 - m) l D := by
  obtain ⟨rep, e, hs, -, h⟩ := C85_search_partial S hd hN hq hnf hm hme (by norm_num) hr hfuel
  obtain ⟨i, hi, hf⟩ := hw
  rcases h with ⟨-, -, h⟩ | ⟨l, D, h1, h2, h3⟩
  · exact absurd (h i hi) hf
  · exact ⟨rep, l, D, e, h1, h2, by rw [hs]; congr 1; omega, h3⟩

/-- C85.  What is reported does not depend on how the points of the query were ordered, nor on the size of the chunks. -/
theorem C85_order_partial (S S' : Sorter K) {data query : Input K} {epoch epoch' m r : ℕ} (hd : data.bad = false) (hN : data.nums.length < 2 ^ 31)
    (hq : m ≤ query.nums.length) (hnf : ¬ Flat (query.nums.take m)) (hm : 6 ≤ m) (hme : m ≤ epoch) (hepoch : epoch ≤ 1000000)
    (hme' : m ≤ epoch') (hepoch' : epoch' ≤ 1000000) (hr : r < m)
    {fuel fuel' : ℕ} (hfuel : data.nums.length < fuel) (hfuel' : data.nums.length < fuel') :
    ∃ rep rep', search S epoch fuel (some data) (some query) m r = .ok rep ∧ search S' epoch' fuel' (some data) (some query) m r = .ok rep' ∧
      rep.location = rep'.location ∧ rep.distance = rep'.distance ∧ rep.scanned = rep'.scanned := by
  obtain ⟨rep, e, hs, -, h⟩ := C85_search_partial S hd hN hq hnf hm hme hepoch hr hfuel
  obtain ⟨rep', e', hs', -, h'⟩ := C85_search_partial S' hd hN hq hnf hm hme' hepoch' hr hfuel'
  have hlen : (query.nums.take m).length = m := by simp; omega
  refine ⟨rep, rep', e, e', ?_⟩
  rw [hs, hs']
  rcases h with ⟨a, b, c⟩ | ⟨l, D, a, b, c⟩ <;> rcases h' with ⟨a', b', c'⟩ | ⟨l', D', a', b', c'⟩
  · exact ⟨a.trans a'.symm, b.trans b'.symm, rfl⟩
  · have := c'.rough
    rw [hlen] at this
    exact absurd (c l' (by have := c'.lt; omega)) this
  · have := c.rough
    rw [hlen] at this
    exact absurd (c' l (by have := c.lt; omega)) this
  · have h1 := c.first l' c'.lt c'.rough D' c'.dist
    have h2 := c'.first l c.lt c.rough D c.dist
    have hll : l = l' := by
      rcases Nat.lt_trichotomy l l' with h | h | h
      · exact absurd (h2.2 h) (by have := h1.1; exact _root_.not_lt.2 this)
      · exact h
      · exact absurd (h1.2 h) (by have := h2.1; exact _root_.not_lt.2 this)
    have hDD : D = D' := _root_.le_antisymm h1.1 h2.1
    subst hll hDD
    exact ⟨a.trans a'.symm, b.trans b'.symm, rfl⟩

/-- C85.  A query whose points are all the same is normalised to numbers that are none, which the comparison of the sorting converts
to `int`: undefined behaviour. -/
theorem C85_flat_query_false (S : Sorter K) {data query : Input K} {epoch fuel m r : ℕ} (hm : 2 ≤ m) (hr : r < m) (hq : m ≤ query.nums.length)
    (hf : Flat (query.nums.take m)) : search S epoch fuel (some data) (some query) m r = .error (.ub "conversion to int") := by
  unfold search
  simp only [prepare_flat S hm hr hq hf, bind, Except.bind]

/-- C85.  A query file with less numbers than the length that is passed: memory is read that was not written. -/
theorem C85_short_query_false (S : Sorter K) {data query : Input K} {epoch fuel m : ℕ} {r : Int} (hq : query.nums.length < m) (hb : query.bad = false) :
    search S epoch fuel (some data) (some query) m r = .error (.ub "uninitialised") := by
  unfold search
  simp only [prepare_short S hq hb, bind, Except.bind]

/-- C85.  A data file with something that is no number: no report is ever made. -/
theorem C85_no_number_false (S : Sorter K) {data query : Input K} {epoch fuel m : ℕ} {r : Int} (hb : data.bad = true) (hm : 1 ≤ m) (hme : m ≤ epoch)
    (rep : Report K) : search S epoch fuel (some data) (some query) m r ≠ .ok rep := by
  intro h
  unfold search at h
  simp only [bind, Except.bind] at h
  split at h
  · cases h
  · exact chunks_bad hm hme fuel _ _ _ _ _ hb rep h

/-- C85.  A query one longer than a chunk: nothing is compared, location 0 and distance 10¹⁰ are reported for every data. -/
theorem C85_long_query_false (S : Sorter K) {data query : Input K} {epoch m r fuel : ℕ} (hd : data.bad = false) (hm : m = epoch + 1) (h62 : m < 2 ^ 62)
    (hq : m ≤ query.nums.length) (hnf : ¬ Flat (query.nums.take m)) (hr : r < m) :
    search S epoch (fuel + 1) (some data) (some query) m r = .ok ⟨0, fin (10 ^ 10), epoch, 0, 0, 0⟩ := by
  obtain ⟨Q, d, e, -⟩ := prepare_ok S (m := m) (r := r) (qf := query) (by omega) hr (by omega) hq hnf
  obtain ⟨d', buf', e', -⟩ := readFirst_ok (m - 1) 0 data d (alloc epoch) hd (by simp [alloc]; omega)
  have hb : Dbl.sqrt (big : Dbl K) = fin (10 ^ 10) := by
    have : (0 : K) ≤ 10 ^ 20 := by positivity
    unfold big
    simp only [Dbl.sqrt]
    rw [if_neg (_root_.not_lt.2 this), sqrt_big]
  unfold search
  simp only [e, bind, Except.bind]
  rw [chunks]
  have hz : epoch - (m - 1) = 0 := by omega
  simp only [start, if_true, e', bind, Except.bind, hz, readRest]
  rw [if_pos le_rfl]
  simp [report, offset, bind, Except.bind, hb, hm]

end

/-- The points in the order of the query. -/
def inOrder (K : Type) : Sorter K := ⟨fun l => List.range l.length, fun _ => .refl _⟩

/-! A query of six points, in chunks of eight; the nearest window of the data is the one at 4, the other one, at 12, is as near. -/
example : (search (inOrder ℚ) 8 20 (some ⟨[0, 0, 0, 0, 1, -1, 1, 1, -1, -1, 1, 1, 2, -2, 2, 2, -2, -2, 0], false⟩)
    (some ⟨[1, -1, 1, 1, -1, -1], false⟩) 6 0).map (fun rep => (rep.location, rep.distance, rep.scanned)) = .ok (4, fin 0, 19) := by decide +kernel

/-! The hypotheses of the theorem hold for real numbers. -/
example : ∃ (rep : Report ℝ) (l : ℕ) (D : ℝ), calculate (inOrder ℝ) 9 (some ⟨[0, 0, 1, 5, 2, 2, 1, 1], false⟩) (some ⟨[1, -1, 1, 1, -1, -1, 7], false⟩) 6 2 =
    .ok rep ∧ rep.location = l ∧ rep.distance = fin (HasSqrt.sqrt D) := by
  obtain ⟨rep, l, D, h1, h2, h3, -⟩ := C85_calculate_partial (inOrder ℝ) (data := ⟨[0, 0, 1, 5, 2, 2, 1, 1], false⟩) (query := ⟨[1, -1, 1, 1, -1, -1, 7], false⟩)
    (m := 6) (r := 2) rfl (by simp) (by simp)
    (fun h => by
      have := h 1 (by simp) (-1) (by simp)
      norm_num at this) le_rfl (by norm_num) (by norm_num)
    ⟨0, by simp, fun h => by
      have := h 0 (by simp [part]) 1 (by simp [part])
      norm_num at this⟩ (fuel := 9) (by simp)
  exact ⟨rep, l, D, h1, h2, h3⟩

/-- C85.  With five points the nearest window can be missed: of two windows the one at 0 is reported, the one at 1 is nearer. -/
theorem C85_five_points_false : ∃ (data query : List ℚ) (D₀ D₁ : ℚ), data.length = 6 ∧ query.length = 5 ∧
    Apart 0 (standardised (part data 5 0)) (standardised query) D₀ ∧ Apart 0 (standardised (part data 5 1)) (standardised query) D₁ ∧ D₁ < D₀ ∧
    (search (inOrder ℚ) 10 20 (some ⟨data, false⟩) (some ⟨query, false⟩) 5 0).map (fun rep => rep.location) = .ok 0 := by
  obtain ⟨D₀, h₀⟩ := exists_apart (a := standardised (part ([0, -2, -2, 0, 1, 2] : List ℚ) 5 0)) (b := standardised [-2, -2, -2, -2, -1]) (m := 5) 0 rfl rfl
  obtain ⟨D₁, h₁⟩ := exists_apart (a := standardised (part ([0, -2, -2, 0, 1, 2] : List ℚ) 5 1)) (b := standardised [-2, -2, -2, -2, -1]) (m := 5) 0 rfl rfl
  have l₀ : D₀ ≤ 10 := (apart_le_diag (m := 5) rfl rfl (by norm_num) h₀).trans (by decide +kernel)
  have l₁ : D₁ ≤ 25 / 8 := (apart_le_diag (m := 5) rfl rfl (by norm_num) h₁).trans (by decide +kernel)
  have e := C83_dtw_plain (m := 5) rfl rfl (by norm_num) h₀ (by linarith)
  have e' : dtw (lift (standardised (part ([0, -2, -2, 0, 1, 2] : List ℚ) 5 0))) (lift (standardised [-2, -2, -2, -2, -1]))
      (lift (List.replicate 5 0)) 5 0 big = .ok (fin (10 / 3)) := by decide +kernel
  have e'' : (fin D₀ : Dbl ℚ) = fin (10 / 3) := Except.ok.inj (e.symm.trans e')
  refine ⟨[0, -2, -2, 0, 1, 2], [-2, -2, -2, -2, -1], D₀, D₁, rfl, rfl, h₀, h₁, ?_, by decide +kernel⟩
  rw [fin.inj e'']
  linarith

/-- C85.  A band as wide as the query: memory is written outside. -/
theorem C85_wide_band_false : (search (inOrder ℚ) 10 20 (some ⟨[0, 0, 1, 5, 2, 2, 1, 1], false⟩) (some ⟨[1, -1, 1, 1, -1, -1], false⟩) 6 6).map
    (fun rep => rep.location) = .error (.ub "envelope index out of bounds") := by decide +kernel

/-- C85.  With two points memory is read outside. -/
theorem C85_two_points_false : (search (inOrder ℚ) 10 20 (some ⟨[0, 1, 5, 2], false⟩) (some ⟨[1, -1], false⟩) 2 1).map
    (fun rep => rep.location) = .error (.ub "index out of bounds") := by decide +kernel

/-- C85.  Data with no window: location 0 is reported all the same, and five points are said to have been scanned. -/
theorem C85_no_window_false : (search (inOrder ℚ) 10 20 (some ⟨[7], false⟩) (some ⟨[1, -1, 1, 1, -1, -1], false⟩) 6 1).map
    (fun rep => (rep.location, rep.distance, rep.scanned)) = .ok (0, fin (10 ^ 10), 5) := by decide +kernel

/-- C85.  A flat window is never reported, though it may be the only one. -/
theorem C85_flat_window_false : (search (inOrder ℚ) 10 20 (some ⟨[7, 7, 7, 7, 7, 7, 7], false⟩) (some ⟨[1, -1, 1, 1, -1, -1], false⟩) 6 1).map
    (fun rep => (rep.location, rep.distance, rep.kim)) = .ok (0, fin (10 ^ 10), 2) := by decide +kernel

/-- C85.  The comparison that `qsort` is given is no order: the fractions are cut off, so that 0 and 3/5 are the same to it, and 3/5 and
6/5, but not 0 and 6/5. -/
theorem C85_order_false : ∃ a b c : ℚ, comp a b = 0 ∧ comp b c = 0 ∧ comp a c ≠ 0 := ⟨0, -3 / 5, 6 / 5, by decide +kernel⟩

end Genex.Props
