import Verif.Lemmas.UcrRoundedWindow
import Verif.Lemmas.UcrFiles

/-! The scan in rounded arithmetic. -/

set_option linter.unusedSectionVars false

namespace Genex.Ucr

open Dbl Spec

variable {K : Type} [Field K] [LinearOrder K] [IsStrictOrderedRing K] {fl : K → K} {u θ : K}
variable [HasSqrt K] [LawfulSqrt K]

/-! ## A window -/

theorem considerR_off (h : Rounding fl) {Q : Query K} {b w : List K} {epoch m r it i : ℕ} {lbuf ubuf : Arr K} {s : St K} (hQ : Prepared b m r Q) (hm : 3 ≤ m)
    {S S2 : K} (h1 : s.ex = fin S) (h2 : s.ex2 = fin S2) (hd : ¬ 0 < devOf fl m S S2)
    (ht : ∀ k : ℕ, k < m → rd s.t (k + (((i + 1) % m : ℕ) : Int)) = .ok (fin (w.getD k 0))) (hp : s.pruned + 1 < 2 ^ 31)
    {bsf : K} (hb : s.bsf = fin bsf) :
    considerR (rnd fl) Q epoch m r it lbuf ubuf i s = .ok { s with kim := s.kim + 1 } := by
  unfold considerR
  have hz := stdR_off h (show 1 ≤ m by omega) hd
  obtain ⟨v, e, hv⟩ := lbKimR_off (fl := fl) (bsf := s.bsf) (b := b) (mean := fin (meanOf fl m S)) (std := stdOfR (rnd fl) m (fin S) (fin S2)) hm hQ.len
    (fun k hk => zAtR_off (ht k hk) hz)
  have hp' : s.kim + 1 < 2 ^ 31 := by unfold St.pruned at hp; omega
  have hv' : ¬ v < s.bsf := by rw [hb]; exact hv.not_lt bsf
  simp only [h1, h2, meanR_ok (show 1 ≤ m by omega), hQ.q, e, bind, Except.bind, hv', if_false, incr_ok hp']

theorem scaledBy_length (μ σ : K) (w : List K) : (scaledBy fl μ σ w).length = w.length := by simp [scaledBy]

theorem scaledBy_getD {μ σ : K} {w : List K} {k : ℕ} (hk : k < w.length) : (scaledBy fl μ σ w).getD k 0 = fl (fl (w.getD k 0 - μ) / σ) := by
  simp [scaledBy, List.getD, hk]

theorem apartBy_nonneg (h : Rounding fl) {r : ℕ} {a b : List K} {D : K} (hD : ApartBy fl r a b D) : 0 ≤ D := by
  obtain ⟨p, -, -, rfl⟩ := hD.1
  exact sqCostBy_nonneg h _ _ _

/-- A window with a deviation: the best is replaced by the cost of the window, or left because the cost is not less but for rounding. -/
theorem considerR_ok (h : FloatOps fl u θ) (hbig : fl (10 ^ 20) = 10 ^ 20) {Q : Query K} {b w c : List K} {epoch m r it i : ℕ} {lbuf ubuf : Arr K} {s : St K}
    (hQ : Prepared b m r Q)
    (hE : Enveloped c r lbuf ubuf) (hm : 6 ≤ m) (hi : m ≤ i + 1) (hic : i < c.length) (hw : w.length = m)
    (hwc : ∀ k < m, w.getD k 0 = c.getD (i + 1 - m + k) 0) {S S2 μ σ : K} (hμ : μ = meanOf fl m S) (hσ' : σ = devOf fl m S S2) (hσ : 0 < σ)
    (h1 : s.ex = fin S) (h2 : s.ex2 = fin S2)
    (ht : ∀ k : ℕ, k < m → rd s.t (k + (((i + 1) % m : ℕ) : Int)) = .ok (fin (w.getD k 0))) (hp : s.pruned + 1 < 2 ^ 31)
    (hc1 : s.cb1.length = m) (hc2 : s.cb2.length = m) {bsf : K} (hb : s.bsf = fin bsf) (hbsf : bsf ≤ 10 ^ 20)
    (ho : it * (epoch + 1 - m) < 2 ^ 31) (hme : m ≤ epoch) :
    ∃ s', considerR (rnd fl) Q epoch m r it lbuf ubuf i s = .ok s' ∧ Kept s s' m ∧
      ((∃ D, ApartBy fl r (scaledBy fl μ σ w) b D ∧ D < bsf ∧ s'.bsf = fin D ∧ s'.loc = ((it * (epoch + 1 - m) + (i + 1 - m) : ℕ) : Int)) ∨
        ((∀ p, PathTo (m - 1, m - 1) p → InBand r p → bsf ≤ (1 + u) ^ (3 * m) * cells (cellBy fl (scaledBy fl μ σ w) b) p) ∧
          s'.bsf = s.bsf ∧ s'.loc = s.loc)) := by
  have hu := h.u_nonneg
  have hr := h.toRounding
  have hla : (scaledBy fl μ σ w).length = m := by rw [scaledBy_length, hw]
  have hmn : rnd fl ((fin S : Dbl K) / ofNat m) = fin μ := by rw [meanR_ok (by omega), hμ]
  have hsd : stdOfR (rnd fl) m (fin S) (fin S2) = fin σ := by rw [stdR_pos (by omega) (hσ' ▸ hσ), hσ']
  have hz : ∀ k : ℕ, k < m → zAtR (rnd fl) s.t (fin μ) (fin σ) (k + (((i + 1) % m : ℕ) : Int)) = .ok (fin ((scaledBy fl μ σ w).getD k 0)) := by
    intro k hk
    rw [zAtR_ok (ht k hk) hσ.ne', scaledBy_getD (by omega)]
  have hget : ∀ k, k < m → (scaledBy fl μ σ w).getD k 0 = fl (fl (c.getD (i + 1 - m + k) 0 - μ) / σ) := by
    intro k hk
    rw [← hwc k hk, scaledBy_getD (by omega)]
  have hpc : s.kim + 1 < 2 ^ 31 ∧ s.keogh + 1 < 2 ^ 31 ∧ s.keogh2 + 1 < 2 ^ 31 := by unfold St.pruned at hp; omega
  have hcn := cellBy_nonneg hr (scaledBy fl μ σ w) b
  -- the bound of Kim
  obtain ⟨v0, e0, l0⟩ := lbKimR_ok (bsf := bsf) h (show 3 ≤ m by omega) hQ.len hz
  unfold considerR
  simp only [h1, h2, hmn, hsd, hb, hQ.q, e0, bind, Except.bind, fin_lt_fin]
  by_cases hk : v0 < bsf
  swap
  · rw [if_neg hk]
    simp only [incr_ok hpc.1]
    refine ⟨_, rfl, ⟨rfl, h1.symm ▸ rfl, h2.symm ▸ rfl, hc1, hc2, by simp [St.pruned]; omega⟩, .inr ⟨fun p hp1 _ => ?_, hb.symm ▸ rfl, rfl⟩⟩
    have h3 := kimAll_le hcn hm hp1
    calc bsf ≤ v0 := _root_.not_lt.1 hk
      _ ≤ _ := l0
      _ ≤ (1 + u) ^ 5 * cells (cellBy fl (scaledBy fl μ σ w) b) p := mul_le_mul_of_nonneg_left h3 (pow_nonneg (by linarith) _)
      _ ≤ _ := mul_le_mul_of_nonneg_right (pow_add_mono hu (by omega)) (cells_nonneg hcn p)
  rw [if_pos hk]
  -- the bound of Keogh with the envelope of the query
  obtain ⟨lo, up, huo, hin⟩ := hQ.env
  obtain ⟨v1, cb1, e1, o1⟩ := keoghQR_ok h (t := s.t) (uo := Q.uo) (lo := Q.lo) (j := (((i + 1) % m : ℕ) : Int)) (mean := fin μ)
    (std := fin σ) (bsf := bsf) (up := up) (low := lo) (z := fun k => (scaledBy fl μ σ w).getD k 0) Q.order
    (i := 0) (lb := 0) (cb := s.cb1) (perm_nodup hQ.perm) (by
      intro n o hno
      have := perm_lt hQ.perm hno
      rw [Nat.zero_add]
      exact ⟨by omega, (huo n o hno).1, (huo n o hno).2, hz o this⟩)
  have hlen : Q.order.length = m := by have := hQ.perm.length_eq; simpa using this
  have b1 : Under (cellBy fl (scaledBy fl μ σ w) b) r true (fun k => excessBy fl (lo k) (up k) ((scaledBy fl μ σ w).getD k 0)) m := by
    intro i' j' hi' hj' h3 h4
    have := hin i' j' hi' hj' h3 h4
    exact excessBy_le hr this.1 this.2
  have keo : ∀ {rows : Bool} {e : ℕ → K} {cb cb' : Arr K} {v : K}, Under (cellBy fl (scaledBy fl μ σ w) b) r rows e m →
      KeoghOutB fl u e Q.order 0 bsf cb v cb' → ¬ v < bsf → ∀ p, PathTo (m - 1, m - 1) p → InBand r p →
      bsf ≤ (1 + u) ^ (3 * m) * cells (cellBy fl (scaledBy fl μ σ w) b) p := by
    intro rows e cb cb' v hU hK hv p hp1 hp2
    have h3 := (hK.le 0 0 (Upto.zero h le_rfl)).le
    rw [zero_add, zero_add, perm_sum hQ.perm, hlen] at h3
    calc bsf ≤ v := _root_.not_lt.1 hv
      _ ≤ _ := h3
      _ ≤ (1 + u) ^ m * cells (cellBy fl (scaledBy fl μ σ w) b) p :=
        mul_le_mul_of_nonneg_left (hU.sum_le hcn (by omega) hp1 hp2) (pow_nonneg (by linarith) _)
      _ ≤ _ := mul_le_mul_of_nonneg_right (pow_add_mono hu (by omega)) (cells_nonneg hcn p)
  have e1' : lbKeoghQR (rnd fl) Q.order s.t Q.uo Q.lo s.cb1 (((i + 1) % m : ℕ) : Int) (fin μ) (fin σ) (fin bsf) = .ok (fin v1, cb1) := e1
  simp only [e1', fin_lt_fin]
  by_cases hk1 : v1 < bsf
  swap
  · rw [if_neg hk1]
    simp only [incr_ok hpc.2.1]
    exact ⟨_, rfl, ⟨rfl, h1.symm ▸ rfl, h2.symm ▸ rfl, by rw [o1.len, hc1], hc2, by simp [St.pruned]; omega⟩,
      .inr ⟨keo b1 o1 hk1, hb.symm ▸ rfl, rfl⟩⟩
  rw [if_pos hk1]
  have etz := mapM_range_ok (fun k => zAtR (rnd fl) s.t (fin μ) (fin σ) (k + (((i + 1) % m : ℕ) : Int)))
    (fun k => fin ((scaledBy fl μ σ w).getD k 0)) m hz
  have htz : (List.range m).map (fun k => some ((fin ((scaledBy fl μ σ w).getD k 0) : Dbl K))) = lift (scaledBy fl μ σ w) := by
    apply List.ext_getElem?
    intro k
    by_cases hk : k < m
    · simp [lift, hk, hla, List.getD]
    · rw [List.getElem?_eq_none (by simp; omega), List.getElem?_eq_none (by simp [hla]; omega)]
  simp only [etz, List.map_map, Function.comp_def, htz]
  -- the bound of Keogh with the envelope of the data
  obtain ⟨lo', up', hu', hin'⟩ := hE
  have hI : ((i : Int) - (m - 1)) = ((i + 1 - m : ℕ) : Int) := by omega
  obtain ⟨v2, cb2, e2, o2⟩ := keoghDR_ok h (qo := Q.qo) (l := lbuf) (ub := ubuf) (I := ((i + 1 - m : ℕ) : Int)) (mean := fin μ)
    (std := fin σ) (bsf := bsf) (up := fun k => fl (fl (up' (i + 1 - m + k) - μ) / σ))
    (low := fun k => fl (fl (lo' (i + 1 - m + k) - μ) / σ)) (z := fun k => b.getD k 0) Q.order
    (i := 0) (lb := 0) (cb := s.cb2) (perm_nodup hQ.perm) (by
      intro n o hno
      have hom := perm_lt hQ.perm hno
      have h5 := hu' (i + 1 - m + o) (by omega)
      have e5 : ((i + 1 - m : ℕ) : Int) + (o : Int) = ((i + 1 - m + o : ℕ) : Int) := by push_cast; ring
      rw [Nat.zero_add, e5]
      exact ⟨by omega, zAtR_ok (rd_some h5.1) hσ.ne', zAtR_ok (rd_some h5.2) hσ.ne', hQ.qo n o hno⟩)
  have mono : ∀ {x y : K}, x ≤ y → fl (fl (x - μ) / σ) ≤ fl (fl (y - μ) / σ) := fun hxy =>
    hr.mono _ _ (div_le_div_of_nonneg_right (hr.mono _ _ (by linarith)) hσ.le)
  have b2 : Under (cellBy fl (scaledBy fl μ σ w) b) r false (fun k => excessBy fl (fl (fl (lo' (i + 1 - m + k) - μ) / σ))
      (fl (fl (up' (i + 1 - m + k) - μ) / σ)) (b.getD k 0)) m := by
    intro i' j' hi' hj' h3 h4
    have h6 := hin' (i + 1 - m + j') (i + 1 - m + i') (by omega) (by omega) (by omega) (by omega)
    have h7 := excessBy_le hr (x := b.getD j' 0) (mono h6.1) (mono h6.2)
    rw [← hget i' hi', sqBy_comm hr] at h7
    exact h7
  have e2' : lbKeoghDR (rnd fl) Q.order Q.qo s.cb2 lbuf ubuf ((i : Int) - (m - 1)) (fin μ) (fin σ) (fin bsf) = .ok (fin v2, cb2) := by
    rw [hI]; exact e2
  simp only [e2', fin_lt_fin]
  by_cases hk2 : v2 < bsf
  swap
  · rw [if_neg hk2]
    simp only [incr_ok hpc.2.2]
    exact ⟨_, rfl, ⟨rfl, h1.symm ▸ rfl, h2.symm ▸ rfl, by rw [o1.len, hc1], by rw [o2.len, hc2], by simp [St.pruned]; omega⟩,
      .inr ⟨keo b2 o2 hk2, hb.symm ▸ rfl, rfl⟩⟩
  rw [if_pos hk2]
  -- the distance
  have c1 := keogh_arrayB hQ.perm hc1 o1 hk1
  have c2 := keogh_arrayB hQ.perm hc2 o2 hk2
  have hcb : ∃ cb : List K, cb.length = m ∧ RestB fl u (scaledBy fl μ σ w) b m r cb ∧
      cumulateR (rnd fl) (if v2 < v1 then cb1 else cb2) = .ok (lift cb) := by
    split_ifs
    · rw [c1, cumulateR_ok]
      exact ⟨_, by rw [suffixBy_length]; simp, b1.restB h (fun k => ⟨excessBy_float hr _ _ _, excessBy_nonneg hr _ _ _⟩), rfl⟩
    · rw [c2, cumulateR_ok]
      exact ⟨_, by rw [suffixBy_length]; simp, b2.restB h (fun k => ⟨excessBy_float hr _ _ _, excessBy_nonneg hr _ _ _⟩), rfl⟩
  obtain ⟨cb, hl, hrest, ecb⟩ := hcb
  obtain ⟨v, ev, hv⟩ := dtwR_ok h hbig hla hQ.len hl (show 1 ≤ m by omega) hbsf hrest
  simp only [ecb, ev, fin_lt_fin]
  by_cases hvb : v < bsf
  · rw [if_pos hvb]
    simp only [offset_ok hme ho]
    refine ⟨_, rfl, ⟨rfl, h1.symm ▸ rfl, h2.symm ▸ rfl, by rw [o1.len, hc1], by rw [o2.len, hc2], by simp [St.pruned]⟩,
      .inl ⟨v, ?_, hvb, rfl, by simp only; push_cast; omega⟩⟩
    unfold ApartBy
    rw [hla, hQ.len]
    exact hv.found hvb
  · rw [if_neg hvb]
    exact ⟨_, rfl, ⟨rfl, h1.symm ▸ rfl, h2.symm ▸ rfl, by rw [o1.len, hc1], by rw [o2.len, hc2], by simp [St.pruned]⟩,
      .inr ⟨hv.given hvb, hb.symm ▸ rfl, rfl⟩⟩

/-! ## The best so far -/

/-- The best of the windows before `N`. -/
structure BestB (fl : K → K) (u : K) (data b : List K) (n r N : ℕ) (bsf : K) (loc : Int) : Prop where
  which : (bsf = 10 ^ 20 ∧ loc = 0) ∨ ∃ l : ℕ, loc = l ∧ l < N ∧ 0 < partDev fl b.length n data l ∧ bsf < 10 ^ 20 ∧
    ApartBy fl r (partBy fl b.length n data l) b bsf
  near : ∀ i < N, 0 < partDev fl b.length n data i → ∀ D', ApartBy fl r (partBy fl b.length n data i) b D' →
    (1 - u) ^ (2 * b.length) * bsf ≤ (1 + u) ^ (3 * b.length) * D'

section
variable {data b : List K} {n r N : ℕ} {bsf : K} {loc : Int}

theorem BestB.le_big (h : BestB fl u data b n r N bsf loc) : bsf ≤ 10 ^ 20 := by
  rcases h.which with ⟨rfl, -⟩ | ⟨_, -, -, -, h, -⟩
  · exact le_rfl
  · exact h.le

theorem BestB.which_succ (h : BestB fl u data b n r N bsf loc) : (bsf = 10 ^ 20 ∧ loc = 0) ∨ ∃ l : ℕ, loc = l ∧ l < N + 1 ∧
    0 < partDev fl b.length n data l ∧ bsf < 10 ^ 20 ∧ ApartBy fl r (partBy fl b.length n data l) b bsf := by
  rcases h.which with h | ⟨l, h1, h2, h3⟩
  · exact .inl h
  · exact .inr ⟨l, h1, by omega, h3⟩

theorem BestB.off (h : BestB fl u data b n r N bsf loc) (hf : ¬ 0 < partDev fl b.length n data N) : BestB fl u data b n r (N + 1) bsf loc := by
  refine ⟨h.which_succ, fun i hi hr => ?_⟩
  by_cases e : i = N
  · subst e; exact absurd hr hf
  · exact h.near i (by omega) hr

theorem BestB.worse (h : BestB fl u data b n r N bsf loc)
    (hD : ∀ D', ApartBy fl r (partBy fl b.length n data N) b D' → (1 - u) ^ (2 * b.length) * bsf ≤ (1 + u) ^ (3 * b.length) * D') :
    BestB fl u data b n r (N + 1) bsf loc := by
  refine ⟨h.which_succ, fun i hi hr => ?_⟩
  by_cases e : i = N
  · subst e; exact hD
  · exact h.near i (by omega) hr

theorem BestB.better (hfl : FloatOps fl u θ) (hu1 : u ≤ 1) (h : BestB fl u data b n r N bsf loc) (hf : 0 < partDev fl b.length n data N) {D : K}
    (hD : ApartBy fl r (partBy fl b.length n data N) b D) (hlt : D < bsf) : BestB fl u data b n r (N + 1) D N := by
  have hu := hfl.u_nonneg
  refine ⟨.inr ⟨N, rfl, by omega, hf, hlt.trans_le h.le_big, hD⟩, fun i hi hr D' hD' => ?_⟩
  have hA : (0 : K) ≤ (1 - u) ^ (2 * b.length) := pow_nonneg (by linarith) _
  by_cases e : i = N
  · subst e
    rw [hD'.unique hD]
    have h0 := apartBy_nonneg hfl.toRounding hD
    have h1 : (1 - u) ^ (2 * b.length) ≤ 1 := pow_le_one₀ (by linarith) (by linarith)
    exact mul_le_mul_of_nonneg_right (h1.trans (one_le_pow_add hu _)) h0
  · exact (mul_le_mul_of_nonneg_left hlt.le hA).trans (h.near i (by omega) hr D' hD')
end

/-- The variables before the point `i` of the chunk that starts at `off`. -/
structure PointInvB (fl : K → K) (u : K) (data b : List K) (n r off i : ℕ) (s : St K) : Prop where
  ring : Ring (fun x => data.getD (off + x) 0) b.length i s.t
  ex : s.ex = fin (keptSum fl b.length (fun k => data.getD (off + k) 0) i)
  ex2 : s.ex2 = fin (keptSum fl b.length (fun k => fl (data.getD (off + k) 0 * data.getD (off + k) 0)) i)
  cb1 : s.cb1.length = b.length
  cb2 : s.cb2.length = b.length
  best : ∃ bsf, s.bsf = fin bsf ∧ BestB fl u data b n r (off + (i + 1 - b.length)) bsf s.loc
  pruned : s.pruned ≤ off + (i + 1 - b.length)

theorem sumFrom_eq (x : ℕ → K) {m n it i : ℕ} (hm : 1 ≤ m) (hi : m ≤ i + 1) (hn : i + 1 < n + m) :
    sumFrom fl m n x (it * n + (i + 1 - m)) = fl (keptSum fl m (fun k => x (it * n + k)) i + x (it * n + i)) := by
  have hlt : i + 1 - m < n := by omega
  have h1 : (it * n + (i + 1 - m)) / n = it := by
    rw [Nat.add_comm, Nat.add_mul_div_right _ _ (by omega), Nat.div_eq_of_lt hlt, Nat.zero_add]
  have h2 : (it * n + (i + 1 - m)) % n = i + 1 - m := by
    rw [Nat.add_comm, Nat.add_mul_mod_self_right, Nat.mod_eq_of_lt hlt]
  unfold sumFrom
  rw [h1, h2, show i + 1 - m + (m - 1) = i by omega, show it * n + (i + 1 - m) + (m - 1) = it * n + i by omega]

theorem keptSum_succ (x : ℕ → K) (m i : ℕ) : keptSum fl m x (i + 1) =
    if m ≤ i + 1 then fl (fl (keptSum fl m x i + x i) - x (i + 1 - m)) else fl (keptSum fl m x i + x i) := rfl

section
variable (h : FloatOps fl u θ) (hu1 : u ≤ 1) (hbig : fl (10 ^ 20) = 10 ^ 20)
include h hu1 hbig

theorem pointR_ok {data b : List K} {epoch m r it off ep i : ℕ} {Q : Query K} {buf lbuf ubuf : Arr K} {s : St K}
    (hq : b.length = m) (hm : 6 ≤ m) (hme : m ≤ epoch) (hN : data.length < 2 ^ 31)
    (hoff : off = it * (epoch + 1 - m)) (hep : off + ep ≤ data.length) (hi : i < ep) (hee : ep ≤ epoch) (hQ : Prepared b m r Q)
    (hE : Enveloped (part data ep off) r lbuf ubuf) (hb : rd buf i = .ok (fin (data.getD (off + i) 0)))
    (hinv : PointInvB fl u data b (epoch + 1 - m) r off i s) :
    ∃ s', pointR (rnd fl) Q epoch m r it buf lbuf ubuf s i = .ok s' ∧ PointInvB fl u data b (epoch + 1 - m) r off (i + 1) s' := by
  subst hq
  obtain ⟨t', t'', et, et', hring⟩ := hinv.ring.step (by omega)
  unfold pointR
  have hm0 : b.length ≠ 0 := by omega
  simp only [hb, bind, Except.bind, hm0, if_false, et, et', hinv.ex, hinv.ex2, fin_mul_fin, fin_add_fin, rnd]
  obtain ⟨bsf, hbs, hbest⟩ := hinv.best
  by_cases hw : b.length - 1 ≤ i
  swap
  · rw [if_neg hw]
    have e1 : i + 1 + 1 - b.length = i + 1 - b.length := by omega
    refine ⟨_, rfl, hring, ?_, ?_, hinv.cb1, hinv.cb2, ⟨bsf, hbs, by rw [e1]; exact hbest⟩, by rw [e1]; exact hinv.pruned⟩
    · rw [keptSum_succ, if_neg (by omega)]
    · rw [keptSum_succ, if_neg (by omega)]
  rw [if_pos hw]
  have e1 : i + 1 + 1 - b.length = i + 1 - b.length + 1 := by omega
  have hpl : off + (i + 1 - b.length) + b.length ≤ data.length := by omega
  have hwl := part_length hpl
  generalize hSd : fl (keptSum fl b.length (fun k => data.getD (off + k) 0) i + data.getD (off + i) 0) = S
  generalize hS2d : fl (keptSum fl b.length (fun k => fl (data.getD (off + k) 0 * data.getD (off + k) 0)) i + fl (data.getD (off + i) 0 * data.getD (off + i) 0)) = S2
  have hS : sumFrom fl b.length (epoch + 1 - b.length) (fun k => data.getD k 0) (off + (i + 1 - b.length)) = S := by
    rw [hoff, sumFrom_eq _ (by omega) (by omega) (by omega), ← hoff, ← hSd]
  have hS2 : sumFrom fl b.length (epoch + 1 - b.length) (fun k => fl (data.getD k 0 * data.getD k 0)) (off + (i + 1 - b.length)) = S2 := by
    rw [hoff, sumFrom_eq _ (by omega) (by omega) (by omega), ← hoff, ← hS2d]
  have hμ : partMean fl b.length (epoch + 1 - b.length) data (off + (i + 1 - b.length)) = meanOf fl b.length S := by unfold partMean; rw [hS]
  have hσ : partDev fl b.length (epoch + 1 - b.length) data (off + (i + 1 - b.length)) = devOf fl b.length S S2 := by unfold partDev; rw [hS, hS2]
  -- the window
  have hcons : ∃ s', considerR (rnd fl) Q epoch b.length r it lbuf ubuf i { s with ex := fin S, ex2 := fin S2, t := t'' } = .ok s' ∧
      s'.t = t'' ∧ s'.ex = fin S ∧ s'.ex2 = fin S2 ∧
      s'.cb1.length = b.length ∧ s'.cb2.length = b.length ∧ s'.pruned ≤ s.pruned + 1 ∧
      ∃ bsf, s'.bsf = fin bsf ∧ BestB fl u data b (epoch + 1 - b.length) r (off + (i + 1 - b.length) + 1) bsf s'.loc := by
    have hpr : s.pruned + 1 < 2 ^ 31 := by have := hinv.pruned; omega
    have ht : ∀ k : ℕ, k < b.length → rd t'' (k + (((i + 1) % b.length : ℕ) : Int)) =
        .ok (fin ((part data b.length (off + (i + 1 - b.length))).getD k 0)) := by
      intro k hk
      rw [hring.window (by omega) (by omega) k hk, part_getD _ _ _ _ hk, Nat.add_assoc]
    by_cases hf : 0 < devOf fl b.length S S2
    · obtain ⟨s', e, hk, hor⟩ := considerR_ok h hbig (epoch := epoch) (it := it) (i := i) (s := { s with ex := fin S, ex2 := fin S2, t := t'' }) hQ hE hm (by omega)
        (by rw [part_length (by omega)]; exact hi) hwl
        (by
          intro k hk
          rw [part_getD _ _ _ _ hk, part_getD _ _ _ _ (by omega), Nat.add_assoc]) hμ hσ (hσ ▸ hf) rfl rfl ht hpr hinv.cb1 hinv.cb2 hbs hbest.le_big (by omega) hme
      refine ⟨s', e, hk.t, hk.ex, hk.ex2, hk.cb1, hk.cb2, hk.pruned, ?_⟩
      rcases hor with ⟨D, hD, hlt, hb', hl'⟩ | ⟨hle, hb', hl'⟩
      · rw [← hoff] at hl'
        exact ⟨D, hb', by rw [hl']; exact hbest.better h hu1 (hσ ▸ hf) hD hlt⟩
      · refine ⟨bsf, by rw [hb']; exact hbs, ?_⟩
        rw [hl']
        refine hbest.worse fun D' hD' => ?_
        obtain ⟨p, hp1, hp2, hp3⟩ := hD'.1
        rw [← hp3]
        have hpl' : (partBy fl b.length (epoch + 1 - b.length) data (off + (i + 1 - b.length))).length = b.length := by
          unfold partBy; rw [scaledBy_length, hwl]
        rw [hpl'] at hp1
        have hp1 := alignment_iff.1 hp1
        exact cells_to_cost h hu1 (by omega) hp1 (hle p hp1 hp2)
    · have := considerR_off h.toRounding (epoch := epoch) (it := it) (lbuf := lbuf) (ubuf := ubuf) (i := i) (s := { s with ex := fin S, ex2 := fin S2, t := t'' })
        hQ (by omega) rfl rfl hf ht hpr hbs
      exact ⟨_, this, rfl, rfl, rfl, hinv.cb1, hinv.cb2, by simp [St.pruned]; omega, bsf, hbs, hbest.off (hσ ▸ hf)⟩
  obtain ⟨s', e, h1, h2, h3, h4, h5, h6, bsf', h7, h8⟩ := hcons
  rw [e]
  have hx := hring.window (by omega) (show b.length ≤ i + 1 by omega) 0 (by omega)
  simp only [Nat.cast_zero, zero_add, Nat.add_zero] at hx
  simp only [h1, hx, h2, h3, fin_mul_fin, rnd, fin_sub_fin]
  refine ⟨_, rfl, hring, ?_, ?_, h4, h5, ⟨bsf', h7, by rw [e1, ← Nat.add_assoc]; exact h8⟩, ?_⟩
  · rw [keptSum_succ, if_pos (by omega), hSd]
  · rw [keptSum_succ, if_pos (by omega), hS2d]
  · have := hinv.pruned
    rw [e1]
    simp only [St.pruned] at h6 this ⊢
    omega

theorem pointsR_ok {data b : List K} {epoch m r it off ep : ℕ} {Q : Query K} {buf lbuf ubuf : Arr K} {s : St K}
    (hq : b.length = m) (hm : 6 ≤ m) (hme : m ≤ epoch) (hN : data.length < 2 ^ 31)
    (hoff : off = it * (epoch + 1 - m)) (hep : off + ep ≤ data.length) (hee : ep ≤ epoch) (hQ : Prepared b m r Q)
    (hE : Enveloped (part data ep off) r lbuf ubuf) (hb : ∀ i : ℕ, i < ep → rd buf (i : Int) = .ok (fin (data.getD (off + i) 0)))
    (hinv : PointInvB fl u data b (epoch + 1 - m) r off 0 s) :
    ∃ s', (List.range ep).foldlM (pointR (rnd fl) Q epoch m r it buf lbuf ubuf) s = .ok s' ∧ PointInvB fl u data b (epoch + 1 - m) r off ep s' := by
  have key : ∀ n, n ≤ ep → ∃ s', (List.range n).foldlM (pointR (rnd fl) Q epoch m r it buf lbuf ubuf) s = .ok s' ∧
      PointInvB fl u data b (epoch + 1 - m) r off n s' := by
    intro n
    induction n with
    | zero => intro _; exact ⟨s, rfl, hinv⟩
    | succ n ih =>
      intro hn
      obtain ⟨s', e, hs⟩ := ih (by omega)
      obtain ⟨s'', e', hs'⟩ := pointR_ok h hu1 hbig hq hm hme hN hoff hep (by omega) hee hQ hE (hb n (by omega)) hs
      refine ⟨s'', ?_, hs'⟩
      rw [List.range_succ, List.foldlM_append, e]
      simp only [List.foldlM_cons, List.foldlM_nil, bind, Except.bind, e', pure, Except.pure]
  exact key ep le_rfl

end

/-! ## Chunks -/

/-- The buffer between two chunks: what is left to read, and what was read. -/
structure BufInv (data : List K) (m epoch it : ℕ) (f : Input K) (buf : Arr K) : Prop where
  good : f.bad = false
  len : buf.length = epoch
  first : it = 0 → f.nums = data
  later : 0 < it → f.nums = data.drop (it * (epoch + 1 - m) + (m - 1)) ∧ it * (epoch + 1 - m) + (m - 1) ≤ data.length ∧
    ∀ k < epoch, buf[k]? = some (some (fin (data.getD ((it - 1) * (epoch + 1 - m) + k) 0)))

omit [LawfulSqrt K] in
theorem BufInv.start {data : List K} {m epoch it : ℕ} {f : Input K} {d : Option (Dbl K)} {buf : Arr K} (hm : 1 ≤ m) (hme : m ≤ epoch)
    (h : BufInv data m epoch it f buf) :
    ∃ d' buf', start epoch m it f d buf = .ok (⟨data.drop (it * (epoch + 1 - m) + (m - 1)), false⟩, d', buf') ∧
      buf'.length = epoch ∧ (it = 0 ∨ it * (epoch + 1 - m) + (m - 1) ≤ data.length) ∧
      ∀ k < m - 1, it * (epoch + 1 - m) + k < data.length → buf'[k]? = some (some (fin (data.getD (it * (epoch + 1 - m) + k) 0))) := by
  rcases Nat.eq_zero_or_pos it with rfl | hit
  · obtain ⟨d', buf', e, h1, -, h3⟩ := readFirst_ok (m - 1) 0 f d buf h.good (by rw [h.len]; omega)
    rw [h.first rfl] at e h3
    refine ⟨d', buf', by simpa [Ucr.start] using e, by rw [h1, h.len], .inl rfl, fun k hk hk' => ?_⟩
    simpa using h3 k hk (by simpa using hk')
  · obtain ⟨l1, l2, l3⟩ := h.later hit
    obtain ⟨buf', e, h1, h2⟩ := shift_ok _ hm hme h.len l3
    have hmul : it * (epoch + 1 - m) = (it - 1) * (epoch + 1 - m) + (epoch + 1 - m) := by
      obtain ⟨j, rfl⟩ : ∃ j, it = j + 1 := ⟨it - 1, by omega⟩
      rw [Nat.add_sub_cancel, Nat.add_mul, Nat.one_mul]
    refine ⟨d, buf', ?_, h1, .inr l2, fun k hk _ => ?_⟩
    · obtain ⟨nums, bad⟩ := f
      have hg := h.good
      simp only at hg l1
      subst hg l1
      rw [Ucr.start, if_neg (by omega), e]
      rfl
    · rw [h2 k hk, hmul, Nat.add_assoc]

/-- What the scan reports. -/
def ReportsB (fl : K → K) (u : K) (data b : List K) (n r N : ℕ) (rep : Report K) : Prop :=
  rep.kim + rep.keogh + rep.keogh2 ≤ N ∧ ∃ bsf, rep.distance = fin (fl (HasSqrt.sqrt bsf)) ∧ BestB fl u data b n r N bsf rep.location

theorem reportR_ok (h : Rounding fl) {data b : List K} {epoch m r it ep n N : ℕ} {s : St K} (hme : m ≤ epoch)
    (ho : it * (epoch + 1 - m) < 2 ^ 31) {bsf : K} (hb : s.bsf = fin bsf)
    (hB : BestB fl u data b n r N bsf s.loc) (hp : s.pruned ≤ N) :
    ∃ rep, reportR (rnd fl) epoch m it ep s = .ok rep ∧ rep.scanned = ((it * (epoch + 1 - m) + ep : ℕ) : Int) ∧ ReportsB fl u data b n r N rep := by
  unfold reportR
  simp only [offset_ok hme ho, bind, Except.bind]
  have h0 : 0 ≤ bsf := by
    rcases hB.which with ⟨rfl, -⟩ | ⟨l, -, -, -, -, hD⟩
    · positivity
    · exact apartBy_nonneg h hD
  refine ⟨_, rfl, by simp, hp, bsf, ?_, hB⟩
  simp only [hb, Dbl.sqrt, _root_.not_lt.2 h0, if_false, rnd]

/-- What the rest of the variables satisfies between two chunks. -/
structure RunInv (fl : K → K) (u : K) (data b : List K) (n r N : ℕ) (s : St K) : Prop where
  t : s.t.length = 2 * b.length
  cb1 : s.cb1.length = b.length
  cb2 : s.cb2.length = b.length
  best : ∃ bsf, s.bsf = fin bsf ∧ BestB fl u data b n r N bsf s.loc
  pruned : s.pruned ≤ N

omit [LawfulSqrt K] in
/-- The loop over the chunks, for any operations `ρ` and anything that the points of a chunk keep. -/
theorem chunksR_gen {ρ : Dbl K → Dbl K} {data : List K} {epoch m r : ℕ} {Q : Query K} {Inv : ℕ → St K → Prop} {Post : ℕ → Report K → Prop}
    (hm : 1 ≤ m) (hme : m ≤ epoch) (hepoch : epoch ≤ 1000000) (hN : data.length < 2 ^ 31) (hr : r < m)
    (hpts : ∀ (it off ep : ℕ) (buf lbuf ubuf : Arr K) (s : St K), off = it * (epoch + 1 - m) → off + ep ≤ data.length → m ≤ ep → ep ≤ epoch →
      Enveloped (part data ep off) r lbuf ubuf → (∀ i : ℕ, i < ep → rd buf (i : Int) = .ok (fin (data.getD (off + i) 0))) → Inv off s →
      ∃ s', (List.range ep).foldlM (pointR ρ Q epoch m r it buf lbuf ubuf) { s with ex := 0, ex2 := 0 } = .ok s' ∧ Inv (off + (ep + 1 - m)) s')
    (hrep : ∀ (it ep N : ℕ) (s : St K), it * (epoch + 1 - m) < 2 ^ 31 → Inv N s → ∃ rep, reportR ρ epoch m it ep s = .ok rep ∧
      rep.scanned = ((it * (epoch + 1 - m) + ep : ℕ) : Int) ∧ Post N rep) (fuel : ℕ) :
    ∀ (it : ℕ) (f : Input K) (d : Option (Dbl K)) (buf : Arr K) (s : St K), 1 ≤ fuel →
      data.length < it * (epoch + 1 - m) + (m - 1) + fuel * (epoch + 1 - m) →
      BufInv data m epoch it f buf → Inv (it * (epoch + 1 - m)) s →
      ∃ rep, chunksR ρ Q epoch m r fuel it f d buf s = .ok rep ∧ rep.scanned = (max data.length (m - 1) : ℕ) ∧ Post (data.length + 1 - m) rep := by
  induction fuel with
  | zero => intro it f d buf s h; omega
  | succ fuel ih =>
    intro it f d buf s _ hfuel hB hR
    rw [chunksR]
    obtain ⟨d1, buf1, e1, l1, hpos, b1⟩ := hB.start (d := d) (by omega) hme
    obtain ⟨d2, buf2, e2, l2, o2, b2⟩ := readRest_ok (epoch - (m - 1)) (m - 1)
      ⟨data.drop (it * (epoch + 1 - m) + (m - 1)), false⟩ d1 buf1 rfl (by omega)
    simp only [e1, e2, bind, Except.bind]
    simp only [List.length_drop] at b2 ⊢
    have ho : it * (epoch + 1 - m) < 2 ^ 31 := by
      rcases hpos with rfl | hpos
      · simp
      · omega
    have hoff0 : it = 0 → it * (epoch + 1 - m) = 0 := by rintro rfl; simp
    have hsucc : (it + 1) * (epoch + 1 - m) = it * (epoch + 1 - m) + (epoch + 1 - m) := by
      rw [Nat.add_mul, Nat.one_mul]
    have hfs : (fuel + 1) * (epoch + 1 - m) = fuel * (epoch + 1 - m) + (epoch + 1 - m) := by
      rw [Nat.add_mul, Nat.one_mul]
    rw [hfs] at hfuel
    generalize hoff : it * (epoch + 1 - m) = off at *
    generalize hep : m - 1 + min (epoch - (m - 1)) (data.length - (off + (m - 1))) = ep at *
    by_cases hend : ep ≤ m - 1
    · rw [if_pos hend]
      have hn : data.length + 1 - m = off := by
        rcases hpos with h0 | h0
        · have := hoff0 h0; omega
        · omega
      obtain ⟨rep, e, hs, hR⟩ := hrep it ep _ s (by rw [hoff]; exact ho) hR
      refine ⟨rep, e, ?_, by rw [hn]; exact hR⟩
      rw [hs, hoff]
      congr 1
      rcases hpos with h0 | h0
      · have := hoff0 h0; omega
      · omega
    rw [if_neg hend]
    have hepN : off + ep ≤ data.length := by omega
    have hcell : ∀ k < ep, buf2[k]? = some (some (fin (data.getD (off + k) 0))) := by
      intro k hk
      by_cases hk' : k < m - 1
      · rw [o2 k hk', b1 k hk' (by omega)]
      · have := b2 (k - (m - 1)) (by omega) (by omega)
        rw [show m - 1 + (k - (m - 1)) = k by omega] at this
        rw [this]
        have : off + (m - 1) + (k - (m - 1)) = off + k := by omega
        simp [List.getD, this]
    have hpl : (part data ep off).length = ep := part_length hepN
    have htake : buf2.take ep = lift (part data ep off) := by
      apply List.ext_getElem?
      intro k
      by_cases hk : k < ep
      · have : off + k < data.length := by omega
        rw [List.getElem?_take_of_lt hk, hcell k hk]
        simp [lift, part, hk, List.getD, this]
      · rw [List.getElem?_eq_none (by simp; omega), List.getElem?_eq_none (by simp [hpl]; omega)]
    obtain ⟨lo, up, el, l, ub, hlu, henv⟩ := lemire_lists (part data ep off) (r := r) (by rw [hpl]; omega)
    rw [htake, readAll_lift]
    simp only [el]
    have hdots : 1000000 / (epoch + 1 - m) ≠ 0 := by
      have : 1 ≤ 1000000 / (epoch + 1 - m) := (Nat.le_div_iff_mul_le (by omega)).2 (by omega)
      omega
    rw [if_neg hdots]
    have hE := enveloped_range hlu henv
    rw [hpl] at hE
    obtain ⟨s', e', hs'⟩ := hpts it off ep buf2 _ _ s hoff.symm hepN (by omega) (by omega) hE (fun i hi => rd_some (hcell i hi)) hR
    simp only [Int.toNat_natCast, e']
    by_cases hlast : ep < epoch
    · rw [if_pos hlast]
      have hn : off + (ep + 1 - m) = data.length + 1 - m := by omega
      rw [hn] at hs'
      obtain ⟨rep, e, hs, hR⟩ := hrep it ep _ s' (by rw [hoff]; exact ho) hs'
      refine ⟨rep, e, ?_, hR⟩
      rw [hs, hoff]
      congr 1
      omega
    · rw [if_neg hlast]
      have hee : ep = epoch := by omega
      subst hee
      rw [show off + (ep + 1 - m) = (it + 1) * (ep + 1 - m) by omega] at hs'
      have hf1 : 1 ≤ fuel := by
        rcases Nat.eq_zero_or_pos fuel with rfl | h0
        · omega
        · exact h0
      refine ih (it + 1) _ d2 buf2 s' hf1 (by rw [hsucc]; omega) { good := rfl, len := by rw [l2, l1], first := by omega, later := fun _ => ?_ } hs'
      refine ⟨?_, by omega, fun k hk => ?_⟩
      · rw [List.drop_drop, hsucc, show off + (m - 1) + (ep - (m - 1)) = off + (ep + 1 - m) + (m - 1) by omega]
      · rw [Nat.add_sub_cancel, hoff]
        exact hcell k hk

theorem chunksR_ok (h : FloatOps fl u θ) (hu1 : u ≤ 1) (hbig : fl (10 ^ 20) = 10 ^ 20) {data b : List K} {epoch m r : ℕ} {Q : Query K} (hbm : b.length = m)
    (hm : 6 ≤ m) (hme : m ≤ epoch) (hepoch : epoch ≤ 1000000) (hN : data.length < 2 ^ 31) (hr : r < m)
    (hQ : Prepared b m r Q) (fuel : ℕ) :
    ∀ (it : ℕ) (f : Input K) (d : Option (Dbl K)) (buf : Arr K) (s : St K), 1 ≤ fuel →
      data.length < it * (epoch + 1 - m) + (m - 1) + fuel * (epoch + 1 - m) →
      BufInv data m epoch it f buf → RunInv fl u data b (epoch + 1 - m) r (it * (epoch + 1 - m)) s →
      ∃ rep, chunksR (rnd fl) Q epoch m r fuel it f d buf s = .ok rep ∧ rep.scanned = (max data.length (m - 1) : ℕ) ∧
        ReportsB fl u data b (epoch + 1 - m) r (data.length + 1 - m) rep := by
  subst hbm
  refine chunksR_gen (Inv := RunInv fl u data b (epoch + 1 - b.length) r) (Post := ReportsB fl u data b (epoch + 1 - b.length) r) (by omega) hme hepoch hN hr ?_ ?_ fuel
  · intro it off ep buf lbuf ubuf s hoff hep hmep hee hE hb hR
    obtain ⟨bsf, hbs, hbest⟩ := hR.best
    obtain ⟨s', e, hs⟩ := pointsR_ok h hu1 hbig (it := it) rfl hm hme hN hoff hep hee hQ hE (buf := buf) (s := { s with ex := 0, ex2 := 0 }) hb
      { ring := ⟨hR.t, fun x hx => by omega⟩
        ex := rfl
        ex2 := rfl
        cb1 := hR.cb1, cb2 := hR.cb2
        best := ⟨bsf, hbs, by rw [show off + (0 + 1 - b.length) = off by omega]; exact hbest⟩
        pruned := by simpa [St.pruned] using _root_.le_trans hR.pruned (by omega) }
    exact ⟨s', e, hs.ring.1, hs.cb1, hs.cb2, hs.best, hs.pruned⟩
  · intro it ep N s ho hR
    obtain ⟨bsf, hbs, hbest⟩ := hR.best
    exact reportR_ok h.toRounding hme ho hbs hbest hR.pruned

/-! ## The query -/

theorem readQueryR_ok (m : ℕ) (rem : ℕ) : ∀ (f : Input K) (q : Arr K) (ex ex2 : K) (d : Option (Dbl K)), rem ≤ m → q.length = m → rem ≤ f.nums.length →
    ∃ s, readQueryR (rnd fl) m rem f ⟨q, fin ex, fin ex2, d⟩ = .ok s ∧ s.q = q.take (m - rem) ++ lift (f.nums.take rem) ∧
      s.ex = fin ((f.nums.take rem).foldl (fun s x => fl (s + x)) ex) ∧
      s.ex2 = fin (((f.nums.take rem).map fun x => fl (x * x)).foldl (fun s x => fl (s + x)) ex2) := by
  induction rem with
  | zero =>
    intro f q ex ex2 d _ hq _
    obtain ⟨nums, bad⟩ := f
    cases nums with
    | cons x xs => exact ⟨_, rfl, by simp [lift, hq.le], by simp, by simp⟩
    | nil =>
      cases bad
      · exact ⟨_, rfl, by simp [lift, hq.le], by simp, by simp⟩
      · exact ⟨_, rfl, by simp [lift, hq.le], by simp, by simp⟩
  | succ rem ih =>
    intro f q ex ex2 d hrm hq hl
    obtain ⟨nums, bad⟩ := f
    cases nums with
    | nil => simp at hl
    | cons x xs =>
      simp only [List.length_cons] at hl
      obtain ⟨s, e, h1, h2, h3⟩ := ih ⟨xs, bad⟩ (q.set (m - (rem + 1)) (some (fin x))) (fl (ex + x)) (fl (ex2 + fl (x * x))) (some (fin x)) (by omega)
        (by simp [hq]) (by simpa using hl)
      refine ⟨s, ?_, ?_, ?_, ?_⟩
      · show (do
          let q ← wr q ((m - (rem + 1) : ℕ) : Int) (fin x)
          readQueryR (rnd fl) m rem ⟨xs, bad⟩ ⟨q, rnd fl (fin ex + fin x), rnd fl (fin ex2 + rnd fl (fin x * fin x)), some (fin x)⟩) = _
        simp only [wr_ok (c := q) (k := m - (rem + 1)) (fin x) (by omega), bind, Except.bind, fin_mul_fin, fin_add_fin, rnd]
        exact e
      · rw [h1, show m - rem = m - (rem + 1) + 1 by omega, List.take_add_one, List.take_set_of_le (by omega), List.getElem?_set_self (by omega)]
        simp [lift]
      · rw [h2]; simp
      · rw [h3]; simp

theorem prepareR_ok (h : Rounding fl) (S : Sorter K) {m r : ℕ} {qf : Input K} (hm : 1 ≤ m) (hr : r < m) (hl : m ≤ qf.nums.length)
    (hd : 0 < queryDev fl (qf.nums.take m))
    (hcmp : ∀ x ∈ queryBy fl (qf.nums.take m), ∀ y ∈ queryBy fl (qf.nums.take m), |fl (|y| - |x|)| < 2 ^ 31) :
    ∃ Q d, prepareR (rnd fl) S m r qf = .ok (Q, d) ∧ Prepared (queryBy fl (qf.nums.take m)) m r Q := by
  obtain ⟨s, e, h1, h2, h3⟩ := readQueryR_ok (fl := fl) m m qf (alloc m) 0 0 none le_rfl (by simp [alloc]) hl
  have hlen : (qf.nums.take m).length = m := by simp; omega
  generalize hw : qf.nums.take m = w at *
  have h1' : s.q = lift w := by rw [h1]; simp
  have hql : (queryBy fl w).length = m := by unfold queryBy; rw [scaledBy_length, hlen]
  have hmn : rnd fl (s.ex / ofNat m) = fin (meanOf fl w.length (totalBy fl w)) := by
    rw [h2, meanR_ok hm, hlen]; rfl
  have hsd : stdOfR (rnd fl) m s.ex s.ex2 = fin (queryDev fl w) := by
    rw [h2, h3]
    unfold queryDev at hd ⊢
    rw [hlen] at hd ⊢
    exact stdR_pos hm hd
  have hz : (w.map fin).map (fun x => rnd fl (rnd fl (x - fin (meanOf fl w.length (totalBy fl w))) / fin (queryDev fl w))) = (queryBy fl w).map fin := by
    simp only [queryBy, scaledBy, List.map_map]
    apply List.map_congr_left
    intro x _
    simp [fin_sub_fin, fin_div_fin hd.ne', rnd]
  obtain ⟨lo, up, el, l, ub, hlu, henv⟩ := lemire_lists (queryBy fl w) (r := r) (by rw [hql]; omega)
  have habs : ∀ x : K, Dbl.abs (fin x) = fin |x| := by
    intro x
    simp only [Dbl.abs]
    split_ifs with hx
    · rw [abs_of_neg hx]
    · rw [abs_of_nonneg (_root_.not_lt.1 hx)]
  have hcan : ((queryBy fl w).map fin).all (fun a => ((queryBy fl w).map fin).all fun b => canCompareR (rnd fl) a b) = true := by
    simp only [List.all_map, List.all_eq_true, Function.comp]
    intro x hx y hy
    have := hcmp x hx y hy
    rw [abs_lt] at this
    simp only [canCompareR, habs, fin_sub_fin, rnd, decide_eq_true_eq]
    exact ⟨by linarith [this.1], this.2⟩
  unfold prepareR
  have e0 : (0 : Dbl K) = fin 0 := rfl
  simp only [e0, e, bind, Except.bind, h1', readAll_lift, hmn, hsd, hz, el, hcan, or_true, if_true]
  refine ⟨_, _, rfl, ?_⟩
  have hp := S.perm ((queryBy fl w).map fin)
  rw [List.length_map, hql] at hp
  have hmem : ∀ (n o : ℕ), (S.sort ((queryBy fl w).map fin))[n]? = some o → o < (queryBy fl w).length := by
    intro n o h
    have := hp.mem_iff.1 (List.mem_of_getElem? h)
    rw [hql]
    simpa using this
  refine ⟨by simp [lift], hql, hp, fun n o h => ?_, l, ub, fun n o h => ?_, ?_⟩
  · have := hmem n o h
    simp [h, List.getD, this]
  · obtain ⟨a, b⟩ := hlu o (hmem n o h)
    simp [h, a, b]
  · rw [hql] at henv
    exact henv

/-! ## There is a least cost -/

theorem exists_leastBy (h : Rounding fl) (a b : List K) (r i j : ℕ) (hij : i ≤ j + r ∧ j ≤ i + r) :
    ∃ p, PathTo (i, j) p ∧ InBand r p ∧ ∀ q, PathTo (i, j) q → InBand r q → sqCostBy fl a b p ≤ sqCostBy fl a b q := by
  induction hn : i + j using Nat.strong_induction_on generalizing i j with
  | _ n ih =>
    by_cases h0 : i = 0 ∧ j = 0
    · obtain ⟨rfl, rfl⟩ := h0
      refine ⟨_, PathTo.single, by intro c hc; simp at hc; subst hc; simp, fun q hq _ => ?_⟩
      rw [sqCostBy_single h]
      exact cellBy_le_cost h a b hq
    · let S : Finset (ℕ × ℕ) := {(i - 1, j - 1), (i - 1, j), (i, j - 1)}
      let P : ℕ × ℕ → Prop := fun d => Step d (i, j) ∧ d.1 ≤ d.2 + r ∧ d.2 ≤ d.1 + r
      classical
      have hP : ∀ d, P d → ∃ p, PathTo d p ∧ InBand r p ∧ ∀ q, PathTo d q → InBand r q → sqCostBy fl a b p ≤ sqCostBy fl a b q := by
        rintro ⟨d1, d2⟩ ⟨hs, hb⟩
        refine ih (d1 + d2) ?_ d1 d2 hb rfl
        rcases hs with e | e | e <;> simp only [Prod.mk.injEq] at e <;> omega
      have hmem : ∀ d, P d → d ∈ S := by
        rintro ⟨d1, d2⟩ ⟨hs, -⟩
        simp only [S, Finset.mem_insert, Finset.mem_singleton]
        rcases hs with e | e | e <;> simp only [Prod.mk.injEq] at e <;> obtain ⟨rfl, rfl⟩ := e <;> simp
      choose! f hf1 hf2 hf3 using hP
      have hne : (S.filter P).Nonempty := by
        obtain ⟨p, hp, hin⟩ := exists_path r i j hij
        rcases hp.cases with ⟨e, -⟩ | ⟨q, d, rfl, hq, hs⟩
        · simp only [Prod.mk.injEq] at e; exact absurd e h0
        · have hd : P d := ⟨hs, (inBand_snoc.1 hin).1 d (List.mem_of_getLast? hq.last)⟩
          exact ⟨d, Finset.mem_filter.2 ⟨hmem d hd, hd⟩⟩
      obtain ⟨d, hd, hmin⟩ := Finset.exists_min_image (S.filter P) (fun d => sqCostBy fl a b (f d)) hne
      have hd := (Finset.mem_filter.1 hd).2
      refine ⟨f d ++ [(i, j)], (hf1 d hd).snoc hd.1, inBand_snoc.2 ⟨hf2 d hd, hij⟩, fun q hq hin => ?_⟩
      rcases hq.cases with ⟨e, -⟩ | ⟨q, d', rfl, hq', hs⟩
      · simp only [Prod.mk.injEq] at e; exact absurd e h0
      · have hin' := (inBand_snoc.1 hin).1
        have hd' : P d' := ⟨hs, hin' d' (List.mem_of_getLast? hq'.last)⟩
        have h1 := hmin d' (Finset.mem_filter.2 ⟨hmem d' hd', hd'⟩)
        have h2 := hf3 d' hd' q hq' hin'
        rw [sqCostBy_snoc, sqCostBy_snoc]
        exact h.mono _ _ (by simpa using h1.trans h2)

theorem exists_apartBy (h : Rounding fl) {a b : List K} {m : ℕ} (r : ℕ) (ha : a.length = m) (hb : b.length = m) : ∃ D, ApartBy fl r a b D := by
  obtain ⟨p, h1, h2, h3⟩ := exists_leastBy h a b r (m - 1) (m - 1) (by omega)
  refine ⟨_, ⟨p, ?_, h2, rfl⟩, ?_⟩
  · rw [ha, hb]; exact alignment_iff.2 h1
  · rintro w ⟨q, hq1, hq2, rfl⟩
    rw [ha, hb] at hq1
    exact h3 q (alignment_iff.1 hq1) hq2

end Genex.Ucr
