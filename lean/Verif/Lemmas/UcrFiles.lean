import Verif.Lemmas.UcrScan
import Verif.Lemmas.LowerBounds

/-! Reading the files, the chunks, the query. -/

set_option linter.unusedSectionVars false

namespace Genex.Ucr

open Dbl Spec

variable {K : Type} [Field K] [LinearOrder K] [IsStrictOrderedRing K]

/-! ## Reading -/

theorem readFirst_ok (rem k : ℕ) (f : Input K) (d : Option (Dbl K)) (buf : Arr K) (hb : f.bad = false) (hl : k + rem ≤ buf.length) :
    ∃ d' buf', readFirst rem k f d buf = .ok (⟨f.nums.drop rem, false⟩, d', buf') ∧ buf'.length = buf.length ∧
      (∀ x < k, buf'[x]? = buf[x]?) ∧ ∀ n, n < rem → n < f.nums.length → buf'[k + n]? = some (some (fin (f.nums.getD n 0))) := by
  induction rem generalizing k f d buf with
  | zero =>
    obtain ⟨nums, bad⟩ := f
    simp only at hb
    subst hb
    exact ⟨d, buf, by simp [readFirst], rfl, fun _ _ => rfl, fun n hn => by omega⟩
  | succ rem ih =>
    obtain ⟨nums, bad⟩ := f
    simp only at hb
    subst hb
    cases nums with
    | nil =>
      obtain ⟨d', buf', e, h1, h2, h3⟩ := ih (k + 1) ⟨[], false⟩ d buf rfl (by omega)
      refine ⟨d', buf', by simpa [readFirst, Input.scan] using e, h1, fun x hx => h2 x (by omega), fun n _ hn => by simp at hn⟩
    | cons x xs =>
      obtain ⟨d', buf', e, h1, h2, h3⟩ := ih (k + 1) ⟨xs, false⟩ (some (fin x)) (buf.set k (some (fin x))) rfl (by simp; omega)
      refine ⟨d', buf', ?_, by rw [h1]; simp, fun y hy => ?_, fun n hn hl' => ?_⟩
      · simp only [readFirst, Input.scan, wr_ok (c := buf) (k := k) (fin x) (by omega), bind, Except.bind]
        simpa using e
      · rw [h2 y (by omega), List.getElem?_set_ne (by omega)]
      · cases n with
        | zero => rw [Nat.add_zero, h2 k (by omega), List.getElem?_set_self (by omega)]; simp
        | succ n =>
          rw [show k + (n + 1) = k + 1 + n by omega, h3 n (by omega) (by simpa using hl')]
          simp

theorem readRest_ok (rem ep : ℕ) (f : Input K) (d : Option (Dbl K)) (buf : Arr K) (hb : f.bad = false) (hl : ep + rem ≤ buf.length) :
    ∃ d' buf', readRest rem ep f d buf = .ok (ep + min rem f.nums.length, ⟨f.nums.drop rem, false⟩, d', buf') ∧ buf'.length = buf.length ∧
      (∀ x < ep, buf'[x]? = buf[x]?) ∧ ∀ n, n < rem → n < f.nums.length → buf'[ep + n]? = some (some (fin (f.nums.getD n 0))) := by
  induction rem generalizing ep f d buf with
  | zero =>
    obtain ⟨nums, bad⟩ := f
    simp only at hb
    subst hb
    exact ⟨d, buf, by simp [readRest], rfl, fun _ _ => rfl, fun n hn => by omega⟩
  | succ rem ih =>
    obtain ⟨nums, bad⟩ := f
    simp only at hb
    subst hb
    cases nums with
    | nil => exact ⟨d, buf, by simp [readRest, Input.scan], rfl, fun x hx => rfl, fun n _ hn => by simp at hn⟩
    | cons x xs =>
      obtain ⟨d', buf', e, h1, h2, h3⟩ := ih (ep + 1) ⟨xs, false⟩ (some (fin x)) (buf.set ep (some (fin x))) rfl (by simp; omega)
      refine ⟨d', buf', ?_, by rw [h1]; simp, fun y hy => ?_, fun n hn hl' => ?_⟩
      · simp only [readRest, Input.scan, wr_ok (c := buf) (k := ep) (fin x) (by omega), bind, Except.bind]
        rw [show min (rem + 1) (x :: xs).length = min rem xs.length + 1 by simp, show ep + (min rem xs.length + 1) = ep + 1 + min rem xs.length by omega]
        simpa using e
      · rw [h2 y (by omega), List.getElem?_set_ne (by omega)]
      · cases n with
        | zero => rw [Nat.add_zero, h2 ep (by omega), List.getElem?_set_self (by omega)]; simp
        | succ n =>
          rw [show ep + (n + 1) = ep + 1 + n by omega, h3 n (by omega) (by simpa using hl')]
          simp

theorem shift_ok {epoch m : ℕ} {buf : Arr K} (g : ℕ → K) (hm : 1 ≤ m) (hme : m ≤ epoch) (hl : buf.length = epoch)
    (hb : ∀ k < epoch, buf[k]? = some (some (fin (g k)))) :
    ∃ buf', shift epoch m buf = .ok buf' ∧ buf'.length = epoch ∧ ∀ k < m - 1, buf'[k]? = some (some (fin (g (epoch + 1 - m + k)))) := by
  have key : ∀ n, n ≤ m - 1 → ∃ buf', (List.range n).foldlM (fun buf (k : ℕ) => do
      let x ← rd buf ((epoch : Int) - m + 1 + k)
      wr buf k x) buf = (.ok buf' : Res (Arr K)) ∧ buf'.length = epoch ∧ (∀ k < n, buf'[k]? = some (some (fin (g (epoch + 1 - m + k))))) ∧
      ∀ k, n ≤ k → buf'[k]? = buf[k]? := by
    intro n
    induction n with
    | zero => intro _; exact ⟨buf, rfl, hl, fun _ h => by omega, fun _ _ => rfl⟩
    | succ n ih =>
      intro hn
      obtain ⟨buf', e, h1, h2, h3⟩ := ih (by omega)
      rw [List.range_succ, List.foldlM_append, e]
      have hc : (epoch : Int) - m + 1 + n = ((epoch + 1 - m + n : ℕ) : Int) := by omega
      have hr : rd buf' ((epoch : Int) - m + 1 + n) = .ok (fin (g (epoch + 1 - m + n))) := by
        rw [hc]
        exact rd_some (by rw [h3 _ (by omega)]; exact hb _ (by omega))
      refine ⟨_, by simp only [List.foldlM_cons, List.foldlM_nil, bind, Except.bind, hr, wr_ok (c := buf') (k := n) _ (by omega)]; rfl,
        by simp [h1], fun k hk => ?_, fun k hk => by rw [List.getElem?_set_ne (by omega)]; exact h3 k (by omega)⟩
      by_cases hkn : k = n
      · subst hkn; rw [List.getElem?_set_self (by omega)]
      · rw [List.getElem?_set_ne (by omega)]; exact h2 k (by omega)
  obtain ⟨buf', e, h1, h2, -⟩ := key (m - 1) le_rfl
  exact ⟨buf', e, h1, h2⟩

theorem readAll_lift (l : List K) : readAll (lift l) = .ok (l.map fin) := by
  induction l with
  | nil => rfl
  | cons x l ih =>
    unfold readAll lift at *
    simp only [List.map_cons, List.mapM_cons, ih, bind, Except.bind, pure, Except.pure]

/-- The envelopes of a list of numbers. -/
theorem lemire_lists (c : List K) {r : ℕ} (h : r < c.length) :
    ∃ lo up : OutArr K, lemire false (c.map fin) (r : Int) = .ok (lo, up) ∧ ∃ l u : ℕ → K,
      (∀ k < c.length, lo k = some (fin (l k)) ∧ up k = some (fin (u k))) ∧
      ∀ k j, k < c.length → j < c.length → k ≤ j + r → j ≤ k + r → l k ≤ c.getD j 0 ∧ c.getD j 0 ≤ u k := by
  obtain ⟨lo, up, e, hh⟩ := envelope_fin false c r h
  refine ⟨lo, up, e, fun k => match lo k with | some (fin x) => x | _ => 0, fun k => match up k with | some (fin x) => x | _ => 0,
    fun k hk => ?_, fun k j hk hj h1 h2 => ?_⟩
  · obtain ⟨x, y, e1, e2, -, -⟩ := hh k hk
    simp [e1, e2]
  · obtain ⟨x, y, e1, e2, h3, h4⟩ := hh k hk
    have hw : c.getD j 0 ∈ window c r k := ⟨j, by simp [List.getD, hj], h1, h2⟩
    simp only [e1, e2]
    exact ⟨h3.2 hw, h4.2 hw⟩

/-! ## Chunks -/

variable [HasSqrt K] [LawfulSqrt K]

theorem points_ok {data query : List K} {epoch m r it off ep : ℕ} {Q : Query K} {buf lbuf ubuf : Arr K} {s : St K}
    (hq : query.length = m) (hnf : ¬ Flat query) (hm : 6 ≤ m) (hme : m ≤ epoch) (hbig : (4 * m : K) < 10 ^ 20) (hN : data.length < 2 ^ 31)
    (hoff : off = it * (epoch + 1 - m)) (hep : off + ep ≤ data.length) (hQ : Prepared (standardised query) m r Q)
    (hE : Enveloped (part data ep off) r lbuf ubuf) (hb : ∀ i : ℕ, i < ep → rd buf (i : Int) = .ok (fin (data.getD (off + i) 0)))
    (h : PointInv data query r off 0 s) :
    ∃ s', (List.range ep).foldlM (point Q epoch m r it buf lbuf ubuf) s = .ok s' ∧ PointInv data query r off ep s' := by
  have key : ∀ n, n ≤ ep → ∃ s', (List.range n).foldlM (point Q epoch m r it buf lbuf ubuf) s = .ok s' ∧ PointInv data query r off n s' := by
    intro n
    induction n with
    | zero => intro _; exact ⟨s, rfl, h⟩
    | succ n ih =>
      intro hn
      obtain ⟨s', e, hs⟩ := ih (by omega)
      obtain ⟨s'', e', hs'⟩ := point_ok hq hnf hm hme hbig hN hoff hep (by omega) hQ hE (hb n (by omega)) hs
      refine ⟨s'', ?_, hs'⟩
      rw [List.range_succ, List.foldlM_append, e]
      simp only [List.foldlM_cons, List.foldlM_nil, bind, Except.bind, e', pure, Except.pure]
  exact key ep le_rfl

/-- What holds between two chunks. -/
structure ChunkInv (data query : List K) (epoch r it : ℕ) (f : Input K) (buf : Arr K) (s : St K) : Prop where
  good : f.bad = false
  len : buf.length = epoch
  first : it = 0 → f.nums = data
  later : 0 < it → f.nums = data.drop (it * (epoch + 1 - query.length) + (query.length - 1)) ∧
    it * (epoch + 1 - query.length) + (query.length - 1) ≤ data.length ∧
    ∀ k < epoch, buf[k]? = some (some (fin (data.getD ((it - 1) * (epoch + 1 - query.length) + k) 0)))
  t : s.t.length = 2 * query.length
  cb1 : s.cb1.length = query.length
  cb2 : s.cb2.length = query.length
  best : ∃ bsf, s.bsf = fin bsf ∧ Best data query r (it * (epoch + 1 - query.length)) bsf s.loc
  pruned : s.pruned ≤ it * (epoch + 1 - query.length)

theorem start_ok {data query : List K} {epoch r it : ℕ} {f : Input K} {d : Option (Dbl K)} {buf : Arr K} {s : St K}
    (hm : 1 ≤ query.length) (hme : query.length ≤ epoch) (h : ChunkInv data query epoch r it f buf s) :
    ∃ d' buf', start epoch query.length it f d buf = .ok (⟨data.drop (it * (epoch + 1 - query.length) + (query.length - 1)), false⟩, d', buf') ∧
      buf'.length = epoch ∧ (it = 0 ∨ it * (epoch + 1 - query.length) + (query.length - 1) ≤ data.length) ∧
      ∀ k < query.length - 1, it * (epoch + 1 - query.length) + k < data.length →
        buf'[k]? = some (some (fin (data.getD (it * (epoch + 1 - query.length) + k) 0))) := by
  rcases Nat.eq_zero_or_pos it with rfl | hit
  · obtain ⟨d', buf', e, h1, -, h3⟩ := readFirst_ok (query.length - 1) 0 f d buf h.good (by rw [h.len]; omega)
    rw [h.first rfl] at e h3
    refine ⟨d', buf', by simpa [start] using e, by rw [h1, h.len], .inl rfl, fun k hk hk' => ?_⟩
    simpa using h3 k hk (by simpa using hk')
  · obtain ⟨l1, l2, l3⟩ := h.later hit
    obtain ⟨buf', e, h1, h2⟩ := shift_ok _ hm hme h.len l3
    have hmul : it * (epoch + 1 - query.length) = (it - 1) * (epoch + 1 - query.length) + (epoch + 1 - query.length) := by
      obtain ⟨j, rfl⟩ : ∃ j, it = j + 1 := ⟨it - 1, by omega⟩
      rw [Nat.add_sub_cancel, Nat.add_mul, Nat.one_mul]
    refine ⟨d, buf', ?_, h1, .inr l2, fun k hk _ => ?_⟩
    · obtain ⟨nums, bad⟩ := f
      have hg := h.good
      simp only at hg l1
      subst hg l1
      rw [start, if_neg (by omega), e]
      rfl
    · rw [h2 k hk, hmul, Nat.add_assoc]

theorem offset_ok {epoch m it : ℕ} (hme : m ≤ epoch) (h : it * (epoch + 1 - m) < 2 ^ 31) : offset epoch m it = .ok ((it * (epoch + 1 - m) : ℕ) : Int) := by
  have e : (it : Int) * ((epoch : Int) - m + 1) = ((it * (epoch + 1 - m) : ℕ) : Int) := by
    push_cast [Nat.cast_sub (show m ≤ epoch + 1 by omega)]
    ring
  unfold offset
  simp only [e]
  rw [if_pos (by exact_mod_cast h)]

/-- What the scan reports. -/
def Reports (data query : List K) (r n : ℕ) (rep : Report K) : Prop :=
  rep.kim + rep.keogh + rep.keogh2 ≤ n ∧
  ((rep.location = 0 ∧ rep.distance = fin (10 ^ 10) ∧ ∀ i < n, Flat (part data query.length i)) ∨
    ∃ (l : ℕ) (D : K), rep.location = l ∧ rep.distance = fin (HasSqrt.sqrt D) ∧ Nearest data query r n l D)

theorem sqrt_big : HasSqrt.sqrt ((10 : K) ^ 20) = 10 ^ 10 := by
  have h0 : (0 : K) ≤ 10 ^ 20 := by positivity
  have h := LawfulSqrt.mul_self h0
  have h1 := LawfulSqrt.sqrt_nonneg h0
  have : (HasSqrt.sqrt ((10 : K) ^ 20)) ^ 2 = ((10 : K) ^ 10) ^ 2 := by rw [pow_two, h]; norm_num
  exact (pow_left_inj₀ h1 (by positivity) (by norm_num)).1 this

theorem report_ok {data query : List K} {epoch m r it ep n : ℕ} {s : St K} (hme : m ≤ epoch)
    (ho : it * (epoch + 1 - m) < 2 ^ 31) {bsf : K} (hb : s.bsf = fin bsf)
    (h : Best data query r n bsf s.loc) (hp : s.pruned ≤ n) :
    ∃ rep, report epoch m it ep s = .ok rep ∧ rep.scanned = ((it * (epoch + 1 - m) + ep : ℕ) : Int) ∧ Reports data query r n rep := by
  unfold report
  simp only [offset_ok hme ho, bind, Except.bind]
  have hsq : ∀ x : K, 0 ≤ x → Dbl.sqrt (fin x) = fin (HasSqrt.sqrt x) := by
    intro x hx
    simp [Dbl.sqrt, _root_.not_lt.2 hx]
  refine ⟨_, rfl, by simp, hp, ?_⟩
  rcases h with ⟨rfl, h2, h3⟩ | ⟨l, h1, h2⟩
  · refine .inl ⟨h2, ?_, h3⟩
    simp only [hb]
    rw [hsq _ (by positivity), sqrt_big]
  · refine .inr ⟨l, bsf, h1, ?_, h2⟩
    simp only [hb]
    apply hsq
    obtain ⟨p, -, -, rfl⟩ := h2.dist.1
    exact List.sum_nonneg (by intro y hy; obtain ⟨z, -, rfl⟩ := List.mem_map.1 hy; positivity)

omit [HasSqrt K] [LawfulSqrt K] in
theorem enveloped_range {c : List K} {r : ℕ} {lo up : OutArr K} {l u : ℕ → K}
    (h1 : ∀ k < c.length, lo k = some (fin (l k)) ∧ up k = some (fin (u k)))
    (h2 : ∀ k j, k < c.length → j < c.length → k ≤ j + r → j ≤ k + r → l k ≤ c.getD j 0 ∧ c.getD j 0 ≤ u k) :
    Enveloped c r ((List.range c.length).map lo) ((List.range c.length).map up) := by
  refine ⟨l, u, fun k hk => ?_, h2⟩
  obtain ⟨a, b⟩ := h1 k hk
  simp [hk, a, b]

theorem chunks_ok {data query : List K} {epoch r : ℕ} {Q : Query K} (hnf : ¬ Flat query) (hm : 6 ≤ query.length) (hme : query.length ≤ epoch)
    (hepoch : epoch ≤ 1000000) (hbig : (4 * query.length : K) < 10 ^ 20) (hN : data.length < 2 ^ 31) (hr : r < query.length)
    (hQ : Prepared (standardised query) query.length r Q) (fuel : ℕ) :
    ∀ (it : ℕ) (f : Input K) (d : Option (Dbl K)) (buf : Arr K) (s : St K), 1 ≤ fuel →
      data.length < it * (epoch + 1 - query.length) + (query.length - 1) + fuel * (epoch + 1 - query.length) →
      ChunkInv data query epoch r it f buf s →
      ∃ rep, chunks Q epoch query.length r fuel it f d buf s = .ok rep ∧ rep.scanned = (max data.length (query.length - 1) : ℕ) ∧
        Reports data query r (data.length + 1 - query.length) rep := by
  induction fuel with
  | zero => intro it f d buf s h; omega
  | succ fuel ih =>
    intro it f d buf s _ hfuel h
    rw [chunks]
    obtain ⟨d1, buf1, e1, l1, hpos, b1⟩ := start_ok (d := d) (by omega) hme h
    obtain ⟨d2, buf2, e2, l2, o2, b2⟩ := readRest_ok (epoch - (query.length - 1)) (query.length - 1)
      ⟨data.drop (it * (epoch + 1 - query.length) + (query.length - 1)), false⟩ d1 buf1 rfl (by omega)
    simp only [e1, e2, bind, Except.bind]
    simp only [List.length_drop] at b2 ⊢
    have ho : it * (epoch + 1 - query.length) < 2 ^ 31 := by
      rcases hpos with rfl | hpos
      · simp
      · omega
    obtain ⟨bsf, hbs, hbest⟩ := h.best
    have hprd := h.pruned
    have hoff0 : it = 0 → it * (epoch + 1 - query.length) = 0 := by rintro rfl; simp
    have hsucc : (it + 1) * (epoch + 1 - query.length) = it * (epoch + 1 - query.length) + (epoch + 1 - query.length) := by
      rw [Nat.add_mul, Nat.one_mul]
    have hfs : (fuel + 1) * (epoch + 1 - query.length) = fuel * (epoch + 1 - query.length) + (epoch + 1 - query.length) := by
      rw [Nat.add_mul, Nat.one_mul]
    rw [hfs] at hfuel
    generalize hoff : it * (epoch + 1 - query.length) = off at *
    generalize hep : query.length - 1 + min (epoch - (query.length - 1)) (data.length - (off + (query.length - 1))) = ep at *
    by_cases hend : ep ≤ query.length - 1
    · rw [if_pos hend]
      have hn : data.length + 1 - query.length = off := by
        rcases hpos with h0 | h0
        · have := hoff0 h0; omega
        · omega
      obtain ⟨rep, e, hs, hR⟩ := report_ok (ep := ep) hme (it := it) (by rw [hoff]; exact ho) hbs hbest hprd
      refine ⟨rep, e, ?_, by rw [hn]; exact hR⟩
      rw [hs, hoff]
      congr 1
      rcases hpos with h0 | h0
      · have := hoff0 h0; omega
      · omega
    rw [if_neg hend]
    have hepN : off + ep ≤ data.length := by omega
    have hcell : ∀ k < ep, buf2[k]? = some (some (fin (data.getD (off + k) 0))) := by
      intro k hk
      by_cases hk' : k < query.length - 1
      · rw [o2 k hk', b1 k hk' (by omega)]
      · have := b2 (k - (query.length - 1)) (by omega) (by omega)
        rw [show query.length - 1 + (k - (query.length - 1)) = k by omega] at this
        rw [this]
        have : off + (query.length - 1) + (k - (query.length - 1)) = off + k := by omega
        simp [List.getD, this]
    have hpl : (part data ep off).length = ep := part_length hepN
    have htake : buf2.take ep = lift (part data ep off) := by
      apply List.ext_getElem?
      intro k
      by_cases hk : k < ep
      · have : off + k < data.length := by omega
        rw [List.getElem?_take_of_lt hk, hcell k hk]
        simp [lift, part, hk, List.getD, this]
      · rw [List.getElem?_eq_none (by simp; omega), List.getElem?_eq_none (by simp [hpl]; omega)]
    obtain ⟨lo, up, el, l, u, hlu, henv⟩ := lemire_lists (part data ep off) (r := r) (by rw [hpl]; omega)
    rw [htake, readAll_lift]
    simp only [el]
    have hdots : 1000000 / (epoch + 1 - query.length) ≠ 0 := by
      have : 1 ≤ 1000000 / (epoch + 1 - query.length) := (Nat.le_div_iff_mul_le (by omega)).2 (by omega)
      omega
    rw [if_neg hdots]
    have hE := enveloped_range hlu henv
    rw [hpl] at hE
    obtain ⟨s', e', hs'⟩ := points_ok (it := it) rfl hnf hm hme hbig hN hoff.symm hepN hQ hE (buf := buf2) (s := { s with ex := 0, ex2 := 0 })
      (fun i hi => rd_some (hcell i hi))
      { ring := ⟨h.t, fun x hx => by omega⟩
        ex := by simp; rfl
        ex2 := by simp; rfl
        cb1 := h.cb1, cb2 := h.cb2
        best := ⟨bsf, hbs, by rw [show off + (0 + 1 - query.length) = off by omega]; exact hbest⟩
        pruned := by simpa [St.pruned] using _root_.le_trans hprd (by omega) }
    simp only [Int.toNat_natCast, e']
    obtain ⟨bsf', hbs', hbest'⟩ := hs'.best
    have hpr' := hs'.pruned
    by_cases hlast : ep < epoch
    · rw [if_pos hlast]
      have hn : off + (ep + 1 - query.length) = data.length + 1 - query.length := by omega
      rw [hn] at hbest' hpr'
      obtain ⟨rep, e, hs, hR⟩ := report_ok (ep := ep) hme (it := it) (by rw [hoff]; exact ho) hbs' hbest' hpr'
      refine ⟨rep, e, ?_, hR⟩
      rw [hs, hoff]
      congr 1
      omega
    · rw [if_neg hlast]
      have hee : ep = epoch := by omega
      subst hee
      rw [show off + (ep + 1 - query.length) = (it + 1) * (ep + 1 - query.length) by omega] at hbest' hpr'
      have hf1 : 1 ≤ fuel := by
        rcases Nat.eq_zero_or_pos fuel with rfl | h0
        · omega
        · exact h0
      refine ih (it + 1) _ d2 buf2 s' hf1 (by rw [hsucc]; omega) { good := rfl, len := by rw [l2, l1], first := by omega, later := fun _ => ?_, t := hs'.ring.1, cb1 := hs'.cb1, cb2 := hs'.cb2, best := ⟨bsf', hbs', hbest'⟩, pruned := hpr' }
      refine ⟨?_, by omega, fun k hk => ?_⟩
      · rw [List.drop_drop, hsucc, show off + (query.length - 1) + (ep - (query.length - 1)) = off + (ep + 1 - query.length) + (query.length - 1) by omega]
      · rw [Nat.add_sub_cancel, hoff]
        exact hcell k hk

/-! ## The query -/

theorem readQuery_ok (m : ℕ) (rem : ℕ) : ∀ (f : Input K) (q : Arr K) (ex ex2 : K) (d : Option (Dbl K)), rem ≤ m → q.length = m → rem ≤ f.nums.length →
    ∃ s, readQuery m rem f ⟨q, fin ex, fin ex2, d⟩ = .ok s ∧ s.q = q.take (m - rem) ++ lift (f.nums.take rem) ∧
      s.ex = fin (ex + (f.nums.take rem).sum) ∧ s.ex2 = fin (ex2 + ((f.nums.take rem).map fun x => x ^ 2).sum) := by
  induction rem with
  | zero =>
    intro f q ex ex2 d _ hq _
    obtain ⟨nums, bad⟩ := f
    cases nums with
    | cons x xs => exact ⟨_, rfl, by simp [lift, hq.le], by simp, by simp⟩
    | nil =>
      cases bad
      · exact ⟨_, rfl, by simp [lift, hq.le], by simp, by simp⟩
      · exact ⟨_, rfl, by simp [lift, hq.le], by simp, by simp⟩
  | succ rem ih =>
    intro f q ex ex2 d hrm hq hl
    obtain ⟨nums, bad⟩ := f
    cases nums with
    | nil => simp at hl
    | cons x xs =>
      simp only [List.length_cons] at hl
      obtain ⟨s, e, h1, h2, h3⟩ := ih ⟨xs, bad⟩ (q.set (m - (rem + 1)) (some (fin x))) (ex + x) (ex2 + x * x) (some (fin x)) (by omega)
        (by simp [hq]) (by simpa using hl)
      refine ⟨s, ?_, ?_, ?_, ?_⟩
      · show (do
          let q ← wr q ((m - (rem + 1) : ℕ) : Int) (fin x)
          readQuery m rem ⟨xs, bad⟩ ⟨q, fin ex + fin x, fin ex2 + fin x * fin x, some (fin x)⟩) = _
        simp only [wr_ok (c := q) (k := m - (rem + 1)) (fin x) (by omega), bind, Except.bind, fin_mul_fin, fin_add_fin]
        exact e
      · rw [h1, show m - rem = m - (rem + 1) + 1 by omega, List.take_add_one, List.take_set_of_le (by omega), List.getElem?_set_self (by omega)]
        simp [lift]
      · rw [h2]; simp; ring
      · rw [h3]; simp [pow_two]; ring

theorem prepare_ok (S : Sorter K) {m r : ℕ} {qf : Input K} (hm : 1 ≤ m) (hr : r < m) (hm2 : m < 2 ^ 62) (hl : m ≤ qf.nums.length) (hnf : ¬ Flat (qf.nums.take m)) :
    ∃ Q d, prepare S m r qf = .ok (Q, d) ∧ Prepared (standardised (qf.nums.take m)) m r Q := by
  obtain ⟨s, e, h1, h2, h3⟩ := readQuery_ok m m qf (alloc m) 0 0 none le_rfl (by simp [alloc]) hl
  have hlen : (qf.nums.take m).length = m := by simp; omega
  generalize hw : qf.nums.take m = w at *
  have h1' : s.q = lift w := by rw [h1]; simp
  rw [zero_add] at h2 h3
  have hσ := std_pos (w := w) (by omega) hnf
  have hz : (w.map fin).map (fun x => (x - fin (mean w)) / fin (HasSqrt.sqrt (variance w))) = (standardised w).map fin := by
    simp only [standardised, List.map_map]
    apply List.map_congr_left
    intro x _
    simp [fin_sub_fin, fin_div_fin hσ.ne']
  obtain ⟨lo, up, el, l, u, hlu, henv⟩ := lemire_lists (standardised w) (r := r) (by rw [standardised_length]; omega)
  have hcan : ((standardised w).map fin).all (fun a => ((standardised w).map fin).all fun b => canCompare a b) = true := by
    have hb : ∀ x ∈ standardised w, |x| < 2 ^ 31 := by
      intro x hx
      have := standardised_le (by omega) hnf x hx
      have h62 : (w.length : K) < (2 ^ 31) ^ 2 := by
        have : ((w.length : ℕ) : K) < ((2 ^ 62 : ℕ) : K) := by exact_mod_cast (by omega)
        have e : ((2 ^ 62 : ℕ) : K) = (2 ^ 31) ^ 2 := by norm_num
        rw [← e]; exact this
      exact abs_lt_of_sq_lt_sq (by linarith) (by positivity)
    simp only [List.all_map, List.all_eq_true, Function.comp]
    intro x hx y hy
    have hx' := hb x hx
    have hy' := hb y hy
    rw [abs_lt] at hx' hy'
    simp only [canCompare, Dbl.abs, fin_sub_fin, decide_eq_true_eq]
    split_ifs <;> constructor <;> linarith [hx'.1, hx'.2, hy'.1, hy'.2]
  unfold prepare
  have e0 : (0 : Dbl K) = fin 0 := rfl
  simp only [e0, e, bind, Except.bind, h1', readAll_lift, h2, h3, mean_ok hlen hm, std_ok hlen hm, hz, el, hcan, or_true, if_true]
  refine ⟨_, _, rfl, ?_⟩
  have hp := S.perm ((standardised w).map fin)
  rw [List.length_map, standardised_length, hlen] at hp
  have hmem : ∀ (n o : ℕ), (S.sort ((standardised w).map fin))[n]? = some o → o < (standardised w).length := by
    intro n o h
    have := hp.mem_iff.1 (List.mem_of_getElem? h)
    rw [standardised_length, hlen]
    simpa using this
  refine ⟨by simp [lift], by rw [standardised_length, hlen], hp, fun n o h => ?_, l, u, fun n o h => ?_, ?_⟩
  · have := hmem n o h
    simp [h, List.getD, this]
  · obtain ⟨a, b⟩ := hlu o (hmem n o h)
    simp [h, a, b]
  · rw [standardised_length, hlen] at henv
    exact henv

end Genex.Ucr

/-! ## Inputs that are not good -/

namespace Genex.Ucr

open Dbl Spec

variable {K : Type} [Field K] [LinearOrder K] [IsStrictOrderedRing K]

theorem readFirst_bad (rem k : ℕ) (f : Input K) (d : Option (Dbl K)) (buf : Arr K) (hb : f.bad = true) {f' : Input K} {d' : Option (Dbl K)} {buf' : Arr K}
    (h : readFirst rem k f d buf = .ok (f', d', buf')) : f'.bad = true := by
  induction rem generalizing k f d buf with
  | zero => simp only [readFirst] at h; cases h; exact hb
  | succ rem ih =>
    obtain ⟨nums, bad⟩ := f
    simp only at hb
    subst hb
    cases nums with
    | nil =>
      simp only [readFirst, Input.scan, if_true, bind, Except.bind] at h
      split at h
      · cases h
      · split at h
        · cases h
        · exact ih _ _ _ _ rfl h
    | cons x xs =>
      simp only [readFirst, Input.scan, bind, Except.bind] at h
      split at h
      · cases h
      · exact ih _ _ _ _ rfl h

theorem readRest_bad (rem ep : ℕ) (f : Input K) (d : Option (Dbl K)) (buf : Arr K) (hb : f.bad = true) {ep' : ℕ} {f' : Input K} {d' : Option (Dbl K)}
    {buf' : Arr K} (h : readRest rem ep f d buf = .ok (ep', f', d', buf')) : ep' = ep + rem ∧ f'.bad = true := by
  induction rem generalizing ep f d buf with
  | zero => simp only [readRest] at h; cases h; exact ⟨rfl, hb⟩
  | succ rem ih =>
    obtain ⟨nums, bad⟩ := f
    simp only at hb
    subst hb
    cases nums with
    | nil =>
      simp only [readRest, Input.scan, if_true, bind, Except.bind] at h
      split at h
      · cases h
      · split at h
        · cases h
        · obtain ⟨h1, h2⟩ := ih _ _ _ _ rfl h
          exact ⟨by omega, h2⟩
    | cons x xs =>
      simp only [readRest, Input.scan, bind, Except.bind] at h
      split at h
      · cases h
      · obtain ⟨h1, h2⟩ := ih _ _ _ _ rfl h
        exact ⟨by omega, h2⟩

theorem start_bad {epoch m it : ℕ} {f : Input K} {d : Option (Dbl K)} {buf : Arr K} (hb : f.bad = true) {f' : Input K} {d' : Option (Dbl K)} {buf' : Arr K}
    (h : start epoch m it f d buf = .ok (f', d', buf')) : f'.bad = true := by
  unfold start at h
  split at h
  · exact readFirst_bad _ _ _ _ _ hb h
  · cases hs : shift epoch m buf with
    | error e => rw [hs] at h; cases h
    | ok b => rw [hs] at h; cases h; exact hb

theorem chunks_bad [HasSqrt K] {Q : Query K} {epoch m : ℕ} {r : Int} (hm : 1 ≤ m) (hme : m ≤ epoch) (fuel : ℕ) : ∀ (it : ℕ) (f : Input K) (d : Option (Dbl K)) (buf : Arr K)
    (s : St K), f.bad = true → ∀ rep, chunks Q epoch m r fuel it f d buf s ≠ .ok rep := by
  induction fuel with
  | zero => intro it f d buf s _ rep h; simp [chunks] at h
  | succ fuel ih =>
    intro it f d buf s hf rep h
    rw [chunks] at h
    simp only [bind, Except.bind] at h
    split at h
    · cases h
    next x hx =>
    obtain ⟨f1, d1, buf1⟩ := x
    have hb1 := start_bad hf hx
    split at h
    · cases h
    next y hy =>
    obtain ⟨ep, f2, d2, buf2⟩ := y
    obtain ⟨hep, hb2⟩ := readRest_bad _ _ _ _ _ hb1 hy
    simp only at h
    rw [if_neg (by omega)] at h
    split at h
    · cases h
    split at h
    · cases h
    split at h
    · cases h
    split at h
    · cases h
    rw [if_neg (by omega)] at h
    exact ih _ _ _ _ _ hb2 rep h

theorem readQuery_short (m : ℕ) (rem : ℕ) : ∀ (f : Input K) (s : Read K), rem ≤ m → s.q.length = m → f.nums.length < rem → f.bad = false →
    s.q[m - 1]? = some none → ∃ s', readQuery m rem f s = .ok s' ∧ s'.q[m - 1]? = some none := by
  induction rem with
  | zero => intro f s _ _ h; omega
  | succ rem ih =>
    intro f s hrm hq hl hb hn
    obtain ⟨nums, bad⟩ := f
    simp only at hb
    subst hb
    cases nums with
    | nil => exact ⟨s, rfl, hn⟩
    | cons x xs =>
      simp only [List.length_cons] at hl
      obtain ⟨s', e, h⟩ := ih ⟨xs, false⟩ ⟨s.q.set (m - (rem + 1)) (some (fin x)), s.ex + fin x, s.ex2 + fin x * fin x, some (fin x)⟩ (by omega)
        (by simp [hq]) (by simp only; omega) rfl (by
          simp only
          rw [List.getElem?_set_ne (by omega)]; exact hn)
      refine ⟨s', ?_, h⟩
      show (do
          let q ← wr s.q ((m - (rem + 1) : ℕ) : Int) (fin x)
          readQuery m rem ⟨xs, false⟩ ⟨q, s.ex + fin x, s.ex2 + fin x * fin x, some (fin x)⟩) = _
      simp only [wr_ok (c := s.q) (k := m - (rem + 1)) (fin x) (by omega), bind, Except.bind]
      exact e

theorem readAll_none {a : Arr K} {k : ℕ} (h : a[k]? = some none) : readAll a = .error (.ub "uninitialised") := by
  induction a generalizing k with
  | nil => simp at h
  | cons c a ih =>
    unfold readAll at *
    cases c with
    | none => simp [List.mapM_cons, bind, Except.bind]
    | some x =>
      cases k with
      | zero => simp at h
      | succ k =>
        have := ih (k := k) (by simpa using h)
        simp only [List.mapM_cons, this, bind, Except.bind]

theorem prepare_short [HasSqrt K] (S : Sorter K) {m : ℕ} {r : Int} {qf : Input K} (hl : qf.nums.length < m) (hb : qf.bad = false) :
    prepare S m r qf = .error (.ub "uninitialised") := by
  obtain ⟨s, e, h⟩ := readQuery_short m m qf ⟨alloc m, 0, 0, none⟩ le_rfl (by simp [alloc]) hl hb (by
    have : m - 1 < m := by omega
    simp [alloc, this])
  unfold prepare
  simp only [e, bind, Except.bind, readAll_none h]

theorem prepare_flat [HasSqrt K] [LawfulSqrt K] (S : Sorter K) {m r : ℕ} {qf : Input K} (hm : 2 ≤ m) (hr : r < m) (hl : m ≤ qf.nums.length)
    (hf : Flat (qf.nums.take m)) : prepare S m r qf = .error (.ub "conversion to int") := by
  obtain ⟨s, e, h1, h2, h3⟩ := readQuery_ok m m qf (alloc m) 0 0 none le_rfl (by simp [alloc]) hl
  have hlen : (qf.nums.take m).length = m := by simp; omega
  generalize hw : qf.nums.take m = w at *
  have h1' : s.q = lift w := by rw [h1]; simp
  rw [zero_add] at h2 h3
  have hv : variance w = 0 := (variance_zero (by omega)).2 hf
  have hz0 : HasSqrt.sqrt (variance w) = (0 : K) := (sqrt_eq_zero_iff (variance_nonneg w)).2 hv
  have hz : (w.map fin).map (fun x => (x - fin (mean w)) / fin 0) = List.replicate m (nan : Dbl K) := by
    rw [List.eq_replicate_iff]
    refine ⟨by simp [hlen], fun b hb => ?_⟩
    simp only [List.map_map, List.mem_map, Function.comp] at hb
    obtain ⟨x, hx, rfl⟩ := hb
    rw [flat_mean hf x hx, fin_sub_fin, sub_self]
    change Dbl.div (fin (0 : K)) (fin 0) = nan
    simp [Dbl.div]
  obtain ⟨lo, up, el, -, -⟩ := lemire_done false (List.replicate m (nan : Dbl K)) r (by simpa using hr)
  unfold prepare
  have e0 : (0 : Dbl K) = fin 0 := rfl
  obtain ⟨k, rfl⟩ : ∃ k, m = k + 1 := ⟨m - 1, by omega⟩
  simp only [e0, e, bind, Except.bind, h1', readAll_lift, h2, h3, mean_ok hlen (show 1 ≤ k + 1 by omega), std_ok hlen (show 1 ≤ k + 1 by omega), hz0, hz, el]
  rw [if_neg]
  rintro (h | h)
  · simp at h; omega
  · simp [canCompare, Dbl.abs, List.replicate_succ] at h
    simp [nan_sub'] at h

end Genex.Ucr
