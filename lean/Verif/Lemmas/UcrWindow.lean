import Verif.Lemmas.UcrStat

/-! One window of the scan. -/

set_option linter.unusedSectionVars false

namespace Genex.Ucr

open Dbl Spec

variable {K : Type} [Field K] [LinearOrder K] [IsStrictOrderedRing K]

theorem nan_add' (x : Dbl K) : (nan : Dbl K) + x = nan := by cases x <;> rfl
theorem nan_sub' (x : Dbl K) : (nan : Dbl K) - x = nan := by cases x <;> rfl
theorem sub_nan' (x : Dbl K) : x - (nan : Dbl K) = nan := by cases x <;> rfl
theorem nan_mul' (x : Dbl K) : (nan : Dbl K) * x = nan := by cases x <;> rfl
theorem sq_nan (x : Dbl K) : sq (nan : Dbl K) x = nan := by unfold sq; rw [nan_sub', nan_mul']
theorem sq_nan_right (x : Dbl K) : sq x (nan : Dbl K) = nan := by unfold sq; rw [sub_nan', nan_mul']
theorem not_le_nan (x : Dbl K) : ¬ x ≤ (nan : Dbl K) := by
  rw [le_def]; rintro (h | ⟨rfl, h⟩)
  · simp at h
  · exact h rfl

theorem zAt_ok {t : Arr K} {i : Int} {x μ σ : K} (h : rd t i = .ok (fin x)) (hσ : σ ≠ 0) :
    zAt t (fin μ) (fin σ) i = .ok (fin ((x - μ) / σ)) := by
  unfold zAt
  rw [h]
  simp only [bind, Except.bind, fin_sub_fin, fin_div_fin hσ]

theorem zAt_flat {t : Arr K} {i : Int} {μ : K} (h : rd t i = .ok (fin μ)) : zAt t (fin μ) (fin 0) i = .ok nan := by
  unfold zAt
  rw [h]
  simp only [bind, Except.bind, fin_sub_fin, sub_self]
  have : (fin (0 : K) : Dbl K) / fin 0 = nan := by
    change Dbl.div (fin (0 : K)) (fin 0) = nan
    simp [Dbl.div]
  rw [this]

/-- A flat window has no bound. -/
theorem lbKim_flat {t : Arr K} {b : List K} {m : ℕ} {j : Int} {μ : K} {bsf : Dbl K} (hm : 3 ≤ m) (hb : b.length = m)
    (ht : ∀ k : ℕ, k < m → rd t (k + j) = .ok (fin μ)) : lbKim t (lift b) j m (fin μ) (fin 0) bsf = .ok nan := by
  have hz : ∀ k : ℕ, k < m → zAt t (fin μ) (fin 0) (k + j) = .ok nan := fun k hk => zAt_flat (ht k hk)
  have z0 := hz 0 (by omega)
  have z1 := hz 1 (by omega)
  have z2 := hz 2 (by omega)
  have y0 := hz (m - 1) (by omega)
  have y1 := hz (m - 2) (by omega)
  have y2 := hz (m - 3) (by omega)
  have q0 := rd_lift b (i := 0) (by omega)
  have q1 := rd_lift b (i := 1) (by omega)
  have q2 := rd_lift b (i := 2) (by omega)
  have p0 := rd_lift b (i := m - 1) (by omega)
  have p1 := rd_lift b (i := m - 2) (by omega)
  have p2 := rd_lift b (i := m - 3) (by omega)
  have e0 : ((0 : ℕ) : Int) + j = j := by simp
  have e1 : ((1 : ℕ) : Int) + j = j + 1 := by push_cast; ring
  have e2 : ((2 : ℕ) : Int) + j = j + 2 := by push_cast; ring
  have c1 : ((m - 1 : ℕ) : Int) = m - 1 := by omega
  have c2 : ((m - 2 : ℕ) : Int) = m - 2 := by omega
  have c3 : ((m - 3 : ℕ) : Int) = m - 3 := by omega
  rw [e0] at z0
  rw [e1] at z1
  rw [e2] at z2
  rw [c1] at y0 p0
  rw [c2] at y1 p1
  rw [c3] at y2 p2
  simp only [Nat.cast_zero, Nat.cast_one, Nat.cast_ofNat] at q0 q1 q2
  unfold lbKim
  simp only [z0, y0, q0, p0, z1, q1, y1, p1, z2, q2, y2, p2, bind, Except.bind, sq_nan, nan_add', not_le_nan, if_false]

/-- The query that `prepare` leaves: `b` is the standardised query. -/
structure Prepared (b : List K) (m r : ℕ) (Q : Query K) : Prop where
  q : Q.q = lift b
  len : b.length = m
  perm : Q.order.Perm (List.range m)
  qo : ∀ (n o : ℕ), Q.order[n]? = some o → Q.qo[n]? = some (some (fin (b.getD o 0)))
  env : ∃ lo up : ℕ → K, (∀ (n o : ℕ), Q.order[n]? = some o → Q.uo[n]? = some (some (fin (up o))) ∧ Q.lo[n]? = some (some (fin (lo o)))) ∧
    ∀ k j, k < m → j < m → k ≤ j + r → j ≤ k + r → lo k ≤ b.getD j 0 ∧ b.getD j 0 ≤ up k

/-- The envelopes of a chunk. -/
def Enveloped (c : List K) (r : ℕ) (lbuf ubuf : Arr K) : Prop :=
  ∃ lo up : ℕ → K, (∀ k < c.length, ubuf[k]? = some (some (fin (up k))) ∧ lbuf[k]? = some (some (fin (lo k)))) ∧
    ∀ k j, k < c.length → j < c.length → k ≤ j + r → j ≤ k + r → lo k ≤ c.getD j 0 ∧ c.getD j 0 ≤ up k

/-- The number of windows that were given up without their distance. -/
def St.pruned (s : St K) : ℕ := s.kim + s.keogh + s.keogh2

/-- What a window leaves as it is. -/
structure Kept (s s' : St K) (m : ℕ) : Prop where
  t : s'.t = s.t
  ex : s'.ex = s.ex
  ex2 : s'.ex2 = s.ex2
  cb1 : s'.cb1.length = m
  cb2 : s'.cb2.length = m
  pruned : s'.pruned ≤ s.pruned + 1

theorem perm_nodup {l : List ℕ} {m : ℕ} (h : l.Perm (List.range m)) : l.Nodup := h.nodup_iff.2 List.nodup_range

theorem perm_lt {l : List ℕ} {m : ℕ} (h : l.Perm (List.range m)) {n o : ℕ} (e : l[n]? = some o) : o < m :=
  List.mem_range.1 (h.mem_iff.1 (List.mem_of_getElem? e))

theorem perm_sum {l : List ℕ} {m : ℕ} (h : l.Perm (List.range m)) (e : ℕ → K) : (l.map e).sum = ((List.range m).map e).sum :=
  (h.map e).sum_eq

theorem keogh_array {e : ℕ → K} {is : List ℕ} {m : ℕ} (h : is.Perm (List.range m)) {lb bsf v : K} {cb cb' : Arr K}
    (hc : cb.length = m) (ho : KeoghOut e is lb bsf cb v cb') (hv : v < bsf) : cb' = lift ((List.range m).map e) := by
  apply List.ext_getElem?
  intro k
  by_cases hk : k < m
  · rw [ho.full hv k (h.mem_iff.2 (List.mem_range.2 hk))]
    simp [lift, hk]
  · rw [List.getElem?_eq_none (by rw [ho.len]; omega), List.getElem?_eq_none (by simp [lift]; omega)]

variable [HasSqrt K] [LawfulSqrt K]

theorem mean_ok {w : List K} {m : ℕ} (hw : w.length = m) (hm : 1 ≤ m) : (fin w.sum : Dbl K) / ofNat m = fin (mean w) := by
  have : (m : K) ≠ 0 := by
    have : (0 : K) < m := by exact_mod_cast hm
    exact this.ne'
  unfold ofNat mean
  rw [fin_div_fin this, hw]

theorem std_ok {w : List K} {m : ℕ} (hw : w.length = m) (hm : 1 ≤ m) :
    stdOf m (fin w.sum) (fin (w.map fun x => x ^ 2).sum) = fin (HasSqrt.sqrt (variance w)) := by
  have h0 : (m : K) ≠ 0 := by
    have : (0 : K) < m := by exact_mod_cast hm
    exact this.ne'
  have hv := variance_eq (w := w) (by omega)
  have hn := variance_nonneg w
  unfold stdOf ofNat
  rw [fin_div_fin h0, fin_div_fin h0, fin_mul_fin, fin_sub_fin, ← hw, ← hv, sqrt_fin hn]

theorem incr_ok {n : ℕ} (h : n + 1 < 2 ^ 31) : incr n = .ok (n + 1) := by
  unfold incr; rw [if_pos h]

/-- A window that is flat is counted as pruned. -/
theorem consider_flat {Q : Query K} {b w : List K} {epoch m r it i : ℕ} {lbuf ubuf : Arr K} {s : St K} (hQ : Prepared b m r Q) (hm : 3 ≤ m)
    (hw : w.length = m) (hf : Flat w) (h1 : s.ex = fin w.sum) (h2 : s.ex2 = fin (w.map fun x => x ^ 2).sum)
    (ht : ∀ k : ℕ, k < m → rd s.t (k + (((i + 1) % m : ℕ) : Int)) = .ok (fin (w.getD k 0))) (hp : s.pruned + 1 < 2 ^ 31) :
    consider Q epoch m r it lbuf ubuf i s = .ok { s with kim := s.kim + 1 } := by
  unfold consider
  have hv : variance w = 0 := (variance_zero (by omega)).2 hf
  have hz : HasSqrt.sqrt (variance w) = (0 : K) := (sqrt_eq_zero_iff (variance_nonneg w)).2 hv
  have ht' : ∀ k : ℕ, k < m → rd s.t (k + (((i + 1) % m : ℕ) : Int)) = .ok (fin (mean w)) := by
    intro k hk
    rw [ht k hk]
    have : w.getD k 0 ∈ w := by
      have hk' : k < w.length := by omega
      simp [List.getD, hk']
    rw [flat_mean hf _ this]
  have hl := lbKim_flat (bsf := s.bsf) hm hQ.len ht'
  have hp' : s.kim + 1 < 2 ^ 31 := by unfold St.pruned at hp; omega
  simp only [h1, h2, mean_ok hw (by omega), std_ok hw (show 1 ≤ m by omega), hz, hQ.q, hl, bind, Except.bind, nan_lt, if_false, incr_ok hp']

theorem mapM_range_ok (f : ℕ → Res (Dbl K)) (g : ℕ → Dbl K) (m : ℕ) (h : ∀ k < m, f k = .ok (g k)) :
    (List.range m).mapM f = .ok ((List.range m).map g) := by
  have : ∀ l : List ℕ, (∀ k ∈ l, f k = .ok (g k)) → l.mapM f = .ok (l.map g) := by
    intro l
    induction l with
    | nil => intro _; rfl
    | cons k l ih =>
      intro hl
      rw [List.mapM_cons, hl k (by simp), ih (fun k hk => hl k (by simp [hk]))]
      rfl
  exact this _ (fun k hk => h k (List.mem_range.1 hk))

/-- A window that is not flat: the best is replaced exactly when the distance is less. -/
theorem consider_ok {Q : Query K} {b w c : List K} {epoch m r it i : ℕ} {lbuf ubuf : Arr K} {s : St K} (hQ : Prepared b m r Q)
    (hE : Enveloped c r lbuf ubuf) (hm : 6 ≤ m) (hi : m ≤ i + 1) (hic : i < c.length) (hw : w.length = m)
    (hwc : ∀ k < m, w.getD k 0 = c.getD (i + 1 - m + k) 0) (hf : ¬ Flat w)
    (h1 : s.ex = fin w.sum) (h2 : s.ex2 = fin (w.map fun x => x ^ 2).sum)
    (ht : ∀ k : ℕ, k < m → rd s.t (k + (((i + 1) % m : ℕ) : Int)) = .ok (fin (w.getD k 0))) (hp : s.pruned + 1 < 2 ^ 31)
    (hc1 : s.cb1.length = m) (hc2 : s.cb2.length = m) {bsf : K} (hb : s.bsf = fin bsf) (hbig : bsf ≤ 10 ^ 20)
    (ho : it * (epoch + 1 - m) < 2 ^ 31) (hme : m ≤ epoch) {D : K} (hD : Apart r (standardised w) b D) :
    ∃ s', consider Q epoch m r it lbuf ubuf i s = .ok s' ∧ Kept s s' m ∧
      (D < bsf → s'.bsf = fin D ∧ s'.loc = ((it * (epoch + 1 - m) + (i + 1 - m) : ℕ) : Int)) ∧
      (¬ D < bsf → s'.bsf = s.bsf ∧ s'.loc = s.loc) := by
  have hσ := std_pos (w := w) (by omega) hf
  have hla : (standardised w).length = m := by rw [standardised_length, hw]
  have hz : ∀ k : ℕ, k < m → zAt s.t (fin (mean w)) (fin (HasSqrt.sqrt (variance w))) (k + (((i + 1) % m : ℕ) : Int)) =
      .ok (fin ((standardised w).getD k 0)) := by
    intro k hk
    rw [zAt_ok (ht k hk) hσ.ne']
    congr 2
    simp [standardised, List.getD, hw, hk]
  have hget : ∀ k, k < m → (standardised w).getD k 0 = (c.getD (i + 1 - m + k) 0 - mean w) / HasSqrt.sqrt (variance w) := by
    intro k hk
    rw [← hwc k hk]
    simp [standardised, List.getD, hw, hk]
  have hD' : IsLeast (bandedCosts m m r (sqCost (standardised w) b)) D := by
    unfold Apart at hD; rwa [hla, hQ.len] at hD
  obtain ⟨⟨p, hp1, hp2, hp3⟩, -⟩ := hD'
  have hp1 := alignment_iff.1 hp1
  have hpc : s.kim + 1 < 2 ^ 31 ∧ s.keogh + 1 < 2 ^ 31 ∧ s.keogh2 + 1 < 2 ^ 31 := by unfold St.pruned at hp; omega
  -- the bound of Kim
  obtain ⟨v0, e0, l0⟩ := lbKim_ok (bsf := bsf) (show 3 ≤ m by omega) hQ.len hz
  have l0 := l0.trans (kimSum_le (standardised w) b hm hp1)
  unfold consider
  simp only [h1, h2, mean_ok hw (show 1 ≤ m by omega), std_ok hw (show 1 ≤ m by omega), hb, hQ.q, e0, bind, Except.bind, fin_lt_fin]
  by_cases hk : v0 < bsf
  swap
  · rw [if_neg hk]
    simp only [incr_ok hpc.1]
    refine ⟨_, rfl, ⟨rfl, h1.symm ▸ rfl, h2.symm ▸ rfl, hc1, hc2, by simp [St.pruned]; omega⟩, fun h => absurd h (by linarith), fun _ => ⟨hb.symm ▸ rfl, rfl⟩⟩
  rw [if_pos hk]
  -- the bound of Keogh with the envelope of the query
  obtain ⟨lo, up, hu, hin⟩ := hQ.env
  obtain ⟨v1, cb1, e1, o1⟩ := keoghQ_ok (t := s.t) (uo := Q.uo) (lo := Q.lo) (j := (((i + 1) % m : ℕ) : Int)) (mean := fin (mean w))
    (std := fin (HasSqrt.sqrt (variance w))) (bsf := bsf) (up := up) (low := lo) (z := fun k => (standardised w).getD k 0) Q.order
    (i := 0) (lb := 0) (cb := s.cb1) (perm_nodup hQ.perm) (by
      intro n o hno
      have := perm_lt hQ.perm hno
      rw [Nat.zero_add]
      exact ⟨by omega, (hu n o hno).1, (hu n o hno).2, hz o this⟩)
  have b1 : Below (standardised w) b r true (fun k => excess (lo k) (up k) ((standardised w).getD k 0)) m := by
    intro i' j' hi' hj' h3 h4
    have := hin i' j' hi' hj' h3 h4
    have := excess_le (x := (standardised w).getD i' 0) this.1 this.2
    unfold cell along
    simp only [if_true]
    calc _ ≤ (b.getD j' 0 - (standardised w).getD i' 0) ^ 2 := this
      _ = _ := by ring
  have l1 := o1.le
  rw [zero_add, perm_sum hQ.perm] at l1
  have l1 := l1.trans (b1.sum_le (by omega) hp1 hp2)
  have e1' : lbKeoghQ Q.order s.t Q.uo Q.lo s.cb1 (((i + 1) % m : ℕ) : Int) (fin (mean w)) (fin (HasSqrt.sqrt (variance w))) (fin bsf) =
      .ok (fin v1, cb1) := e1
  simp only [e1', fin_lt_fin]
  by_cases hk1 : v1 < bsf
  swap
  · rw [if_neg hk1]
    simp only [incr_ok hpc.2.1]
    refine ⟨_, rfl, ⟨rfl, h1.symm ▸ rfl, h2.symm ▸ rfl, by rw [o1.len, hc1], hc2, by simp [St.pruned]; omega⟩, fun h => absurd h (by linarith),
      fun _ => ⟨hb.symm ▸ rfl, rfl⟩⟩
  rw [if_pos hk1]
  have etz := mapM_range_ok (fun k => zAt s.t (fin (mean w)) (fin (HasSqrt.sqrt (variance w))) (k + (((i + 1) % m : ℕ) : Int)))
    (fun k => fin ((standardised w).getD k 0)) m hz
  have htz : (List.range m).map (fun k => some ((fin ((standardised w).getD k 0) : Dbl K))) = lift (standardised w) := by
    apply List.ext_getElem?
    intro k
    by_cases hk : k < m
    · simp [lift, hk, hla, List.getD]
    · rw [List.getElem?_eq_none (by simp; omega), List.getElem?_eq_none (by simp [hla]; omega)]
  simp only [etz, List.map_map, Function.comp_def, htz]
  -- the bound of Keogh with the envelope of the data
  obtain ⟨lo', up', hu', hin'⟩ := hE
  have hI : ((i : Int) - (m - 1)) = ((i + 1 - m : ℕ) : Int) := by omega
  obtain ⟨v2, cb2, e2, o2⟩ := keoghD_ok (qo := Q.qo) (l := lbuf) (u := ubuf) (I := ((i + 1 - m : ℕ) : Int)) (mean := fin (mean w))
    (std := fin (HasSqrt.sqrt (variance w))) (bsf := bsf) (up := fun k => (up' (i + 1 - m + k) - mean w) / HasSqrt.sqrt (variance w))
    (low := fun k => (lo' (i + 1 - m + k) - mean w) / HasSqrt.sqrt (variance w)) (z := fun k => b.getD k 0) Q.order
    (i := 0) (lb := 0) (cb := s.cb2) (perm_nodup hQ.perm) (by
      intro n o hno
      have hom := perm_lt hQ.perm hno
      have h5 := hu' (i + 1 - m + o) (by omega)
      have e5 : ((i + 1 - m : ℕ) : Int) + (o : Int) = ((i + 1 - m + o : ℕ) : Int) := by push_cast; ring
      rw [Nat.zero_add, e5]
      exact ⟨by omega, zAt_ok (rd_some h5.1) hσ.ne', zAt_ok (rd_some h5.2) hσ.ne', hQ.qo n o hno⟩)
  have b2 : Below (standardised w) b r false (fun k => excess ((lo' (i + 1 - m + k) - mean w) / HasSqrt.sqrt (variance w))
      ((up' (i + 1 - m + k) - mean w) / HasSqrt.sqrt (variance w)) (b.getD k 0)) m := by
    intro i' j' hi' hj' h3 h4
    have h6 := hin' (i + 1 - m + j') (i + 1 - m + i') (by omega) (by omega) (by omega) (by omega)
    have h7 : (lo' (i + 1 - m + j') - mean w) / HasSqrt.sqrt (variance w) ≤ (standardised w).getD i' 0 := by
      rw [hget i' hi']
      exact div_le_div_of_nonneg_right (by linarith [h6.1]) hσ.le
    have h8 : (standardised w).getD i' 0 ≤ (up' (i + 1 - m + j') - mean w) / HasSqrt.sqrt (variance w) := by
      rw [hget i' hi']
      exact div_le_div_of_nonneg_right (by linarith [h6.2]) hσ.le
    exact excess_le (x := b.getD j' 0) h7 h8
  have l2 := o2.le
  rw [zero_add, perm_sum hQ.perm] at l2
  have l2 := l2.trans (b2.sum_le (by omega) hp1 hp2)
  have e2' : lbKeoghD Q.order Q.qo s.cb2 lbuf ubuf ((i : Int) - (m - 1)) (fin (mean w)) (fin (HasSqrt.sqrt (variance w))) (fin bsf) =
      .ok (fin v2, cb2) := by rw [hI]; exact e2
  simp only [e2', fin_lt_fin]
  by_cases hk2 : v2 < bsf
  swap
  · rw [if_neg hk2]
    simp only [incr_ok hpc.2.2]
    refine ⟨_, rfl, ⟨rfl, h1.symm ▸ rfl, h2.symm ▸ rfl, by rw [o1.len, hc1], by rw [o2.len, hc2], by simp [St.pruned]; omega⟩,
      fun h => absurd h (by linarith), fun _ => ⟨hb.symm ▸ rfl, rfl⟩⟩
  rw [if_pos hk2]
  -- the distance
  have c1 := keogh_array hQ.perm hc1 o1 hk1
  have c2 := keogh_array hQ.perm hc2 o2 hk2
  have hcb : ∃ cb : List K, cb.length = m ∧ Rest (standardised w) b m r cb ∧
      cumulate (if v2 < v1 then cb1 else cb2) = .ok (lift cb) := by
    split_ifs
    · rw [c1, cumulate_ok]
      exact ⟨_, by rw [suffix_length]; simp, b1.rest (fun k _ => suffix_eq m k), rfl⟩
    · rw [c2, cumulate_ok]
      exact ⟨_, by rw [suffix_length]; simp, b2.rest (fun k _ => suffix_eq m k), rfl⟩
  obtain ⟨cb, hl, hr, ecb⟩ := hcb
  obtain ⟨v, ev, hv⟩ := dtw_ok hla hQ.len hl (show 1 ≤ m by omega) hbig hr
  have hv := hv D (by unfold Apart at hD; rwa [hla, hQ.len] at hD)
  simp only [ecb, ev, fin_lt_fin]
  have hoff : offset epoch m it = .ok ((it * (epoch + 1 - m) : ℕ) : Int) := by
    have e9 : ((it : Int) * ((epoch : Int) - m + 1)) = ((it * (epoch + 1 - m) : ℕ) : Int) := by
      push_cast
      congr 1
      omega
    unfold offset
    simp only [e9]
    rw [if_pos (by exact_mod_cast ho)]
  by_cases hvb : v < bsf
  · rw [if_pos hvb]
    simp only [hoff]
    refine ⟨_, rfl, ⟨rfl, h1.symm ▸ rfl, h2.symm ▸ rfl, by rw [o1.len, hc1], by rw [o2.len, hc2], by simp [St.pruned]⟩,
      fun _ => ⟨by simp only; rw [hv (.inl hvb)], by simp only; push_cast; omega⟩, fun h => absurd (hv (.inl hvb) ▸ hvb) h⟩
  · rw [if_neg hvb]
    refine ⟨_, rfl, ⟨rfl, h1.symm ▸ rfl, h2.symm ▸ rfl, by rw [o1.len, hc1], by rw [o2.len, hc2], by simp [St.pruned]⟩,
      fun h => absurd (hv (.inr h) ▸ h) hvb, fun _ => ⟨hb.symm ▸ rfl, rfl⟩⟩

end Genex.Ucr
