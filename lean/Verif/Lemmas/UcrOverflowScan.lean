import Verif.Lemmas.UcrOverflow

/-! The scan with overflow is the scan without, if the sums have room. -/

set_option linter.unusedSectionVars false

namespace Genex.Ucr

open Dbl Spec

variable {K : Type} [Field K] [LinearOrder K] [IsStrictOrderedRing K] {fl : K → K} {X c u θ M V : K} {N : ℕ}

/-- The sums over `N` points up to `M`, and what is computed of them, are below the limit. -/
structure Room (fl : K → K) (X M : K) (N : ℕ) : Prop where
  nonneg : 0 ≤ M
  sum : 4 * N * M ≤ X
  sum2 : 4 * N * fl (M * M) ≤ X
  var : fl (4 * N * fl (M * M)) + fl (fl (4 * N * M) * fl (4 * N * M)) ≤ X
  calm : M + fl (4 * N * M) ≤ X

/-- A number of the arithmetic, up to `M`. -/
def Pt (fl : K → K) (M : K) (x : Dbl K) : Prop := ∃ v, x = fin v ∧ |v| ≤ M ∧ fl v = v

theorem fl_abs_le (h : Rounding fl) {x B : K} (hx : |x| ≤ B) : |fl x| ≤ fl B := by
  rw [h.abs]
  exact h.mono _ _ hx

theorem fl_le_fixed (h : Rounding fl) (hX : fl X = X) {x : K} (hx : |x| ≤ X) : |fl x| ≤ X := by
  have := fl_abs_le h hx
  rwa [hX] at this

/-! ## Sums -/

theorem sum_add (h : FloatOps fl u θ) (hu : 4 * N * u ≤ 1) {e x : K} (he : fl e = e) (hx : fl x = x) {i : ℕ} (hi : i < N) (hV : 0 ≤ V) (heV : |e| ≤ 4 * i * V) (hxV : |x| ≤ V) :
    |fl (e + x)| ≤ 4 * i * V + 2 * V := by
  have h1 := h.add e x he hx
  have h2 : |e + x| ≤ 4 * i * V + V := (abs_add_le e x).trans (add_le_add heV hxV)
  have hiN : (i : K) + 1 ≤ N := by exact_mod_cast hi
  have h3 : u * |e + x| ≤ V := by
    have h4 : |e + x| ≤ 4 * N * V := by nlinarith
    calc u * |e + x| ≤ u * (4 * N * V) := mul_le_mul_of_nonneg_left h4 h.u_nonneg
      _ = 4 * N * u * V := by ring
      _ ≤ 1 * V := mul_le_mul_of_nonneg_right hu hV
      _ = V := one_mul V
  have h5 := abs_le.1 h1
  have h6 := abs_le.1 h2
  rw [abs_le]
  constructor <;> linarith

theorem sum_sub (h : FloatOps fl u θ) (hu : 4 * N * u ≤ 1) {e x : K} (he : fl e = e) (hx : fl x = x) {i : ℕ} (hi : i < N) (hV : 0 ≤ V) (heV : |e| ≤ 4 * i * V + 2 * V) (hxV : |x| ≤ V) :
    |fl (e - x)| ≤ 4 * (i + 1 : ℕ) * V := by
  have h1 := h.add e (-x) he (by rw [h.neg, hx])
  rw [← sub_eq_add_neg] at h1
  have h2 : |e - x| ≤ 4 * i * V + 3 * V := (abs_sub e x).trans (by linarith)
  have hiN : (i : K) + 1 ≤ N := by exact_mod_cast hi
  have h3 : u * |e - x| ≤ V := by
    have h4 : |e - x| ≤ 4 * N * V := by nlinarith
    calc u * |e - x| ≤ u * (4 * N * V) := mul_le_mul_of_nonneg_left h4 h.u_nonneg
      _ = 4 * N * u * V := by ring
      _ ≤ 1 * V := mul_le_mul_of_nonneg_right hu hV
      _ = V := one_mul V
  have h5 := abs_le.1 h1
  have h6 := abs_le.1 h2
  push_cast
  rw [abs_le]
  constructor <;> linarith

theorem part_le {i : ℕ} (hi : i < N) (hV : 0 ≤ V) : 4 * (i : K) * V + 2 * V ≤ 4 * N * V := by
  have hiN : (i : K) + 1 ≤ N := by exact_mod_cast hi
  nlinarith

theorem all_le {i : ℕ} (hi : i ≤ N) (hV : 0 ≤ V) : 4 * (i : K) * V ≤ 4 * N * V := by
  have hiN : (i : K) ≤ N := by exact_mod_cast hi
  nlinarith

/-- A sum: a number of the arithmetic up to `B`. -/
def Sum (fl : K → K) (B : K) (x : Dbl K) : Prop := ∃ e, x = fin e ∧ fl e = e ∧ |e| ≤ B

theorem Sum.le {B B' : K} {x : Dbl K} (h : Sum fl B x) (hB : B ≤ B') : Sum fl B' x := by
  obtain ⟨e, h1, h2, h3⟩ := h
  exact ⟨e, h1, h2, h3.trans hB⟩

theorem Sum.add (h : FloatOps fl u θ) (hu : 4 * N * u ≤ 1) {i : ℕ} (hi : i < N) (hV : 0 ≤ V) (hX : 4 * N * V ≤ X) {e : Dbl K} {x : K} (he : Sum fl (4 * i * V) e)
    (hx : fl x = x) (hxV : |x| ≤ V) : rndMax fl X (e + fin x) = rnd fl (e + fin x) ∧ Sum fl (4 * i * V + 2 * V) (rnd fl (e + fin x)) := by
  obtain ⟨e, rfl, h1, h2⟩ := he
  have := sum_add h hu h1 hx hi hV h2 hxV
  rw [fin_add_fin, rnd_fin]
  exact ⟨rndMax_eq (this.trans ((part_le hi hV).trans hX)), _, rfl, h.idem _, this⟩

theorem Sum.sub (h : FloatOps fl u θ) (hu : 4 * N * u ≤ 1) {i : ℕ} (hi : i < N) (hV : 0 ≤ V) (hX : 4 * N * V ≤ X) {e : Dbl K} {x : K} (he : Sum fl (4 * i * V + 2 * V) e)
    (hx : fl x = x) (hxV : |x| ≤ V) : rndMax fl X (e - fin x) = rnd fl (e - fin x) ∧ Sum fl (4 * (i + 1 : ℕ) * V) (rnd fl (e - fin x)) := by
  obtain ⟨e, rfl, h1, h2⟩ := he
  have := sum_sub h hu h1 hx hi hV h2 hxV
  rw [fin_sub_fin, rnd_fin]
  exact ⟨rndMax_eq (this.trans ((all_le (by omega) hV).trans hX)), _, rfl, h.idem _, this⟩

theorem sq_pt (h : Rounding fl) (hR : Room fl X M N) (hN : 1 ≤ N) {v : K} (hv : |v| ≤ M) :
    rndMax fl X (fin v * fin v) = fin (fl (v * v)) ∧ |fl (v * v)| ≤ fl (M * M) := by
  have h1 : |v * v| ≤ M * M := by
    rw [abs_mul]; exact mul_self_le_mul_self (abs_nonneg v) hv
  have h2 := fl_abs_le h h1
  have h0 : 0 ≤ fl (M * M) := h.nonneg (mul_self_nonneg M)
  have hN1 : (1 : K) ≤ N := by exact_mod_cast hN
  refine ⟨rndMax_eq (h2.trans (_root_.le_trans ?_ hR.sum2)), h2⟩
  nlinarith

/-! ## Mean and deviation -/

theorem div_le_of {m : ℕ} (hm : 1 ≤ m) {e B : K} (he : |e| ≤ B) : |e / m| ≤ B := by
  have h1 : (1 : K) ≤ m := by exact_mod_cast hm
  rw [abs_div, abs_of_nonneg (show (0 : K) ≤ m by linarith)]
  exact (div_le_self (abs_nonneg e) h1).trans he

theorem mean_sim (h : Rounding fl) (hX : fl X = X) {B : K} {e : Dbl K} (he : Sum fl B e) (hB : B ≤ X) {m : ℕ} (hm : 1 ≤ m) :
    rndMax fl X (e / ofNat m) = rnd fl (e / ofNat m) ∧ ∃ μ, rnd fl (e / ofNat m) = fin μ ∧ |μ| ≤ fl B := by
  obtain ⟨e, rfl, h1, h2⟩ := he
  have hne : (m : K) ≠ 0 := by
    have : (0 : K) < m := by exact_mod_cast hm
    exact this.ne'
  have h3 := div_le_of hm h2
  unfold ofNat
  rw [fin_div_fin hne, rnd_fin]
  exact ⟨rndMax_eq (fl_le_fixed h hX (h3.trans hB)), _, rfl, fl_abs_le h h3⟩

variable [HasSqrt K] [LawfulSqrt K]

theorem sqrt_le_max (h1 : 1 ≤ X) {w : K} (h0 : 0 ≤ w) (hw : w ≤ X) : |HasSqrt.sqrt w| ≤ X := by
  have hs := LawfulSqrt.sqrt_nonneg h0
  rw [abs_of_nonneg hs]
  refine (mul_self_le_mul_self_iff hs (by linarith)).2 ?_
  rw [LawfulSqrt.mul_self h0]
  nlinarith

theorem std_sim (h : Rounding fl) (hX : fl X = X) (hX1 : 1 ≤ X) (hR : Room fl X M N) {e e2 : Dbl K} (he : Sum fl (4 * N * M) e) (he2 : Sum fl (4 * N * fl (M * M)) e2) {m : ℕ} (hm : 1 ≤ m) :
    stdOfR (rndMax fl X) m e e2 = stdOfR (rnd fl) m e e2 := by
  obtain ⟨a1, μ, a2, a3⟩ := mean_sim h hX he hR.sum hm
  obtain ⟨b1, ν, b2, b3⟩ := mean_sim h hX he2 hR.sum2 hm
  have h0 : 0 ≤ fl (4 * N * fl (M * M)) := by
    have := h.nonneg (mul_self_nonneg M)
    exact h.nonneg (by positivity)
  have h1 : |μ * μ| ≤ fl (4 * N * M) * fl (4 * N * M) := by
    rw [abs_mul]; exact mul_self_le_mul_self (abs_nonneg μ) a3
  have h2 := fl_abs_le h h1
  have h3 : |ν - fl (μ * μ)| ≤ X := (abs_sub _ _).trans ((add_le_add b3 h2).trans hR.var)
  have h4 := fl_le_fixed h hX h3
  unfold stdOfR
  rw [a1, b1, a2, b2, fin_mul_fin, rndMax_eq (h2.trans (by linarith [hR.var])), rnd_fin, fin_sub_fin, rndMax_eq h4, rnd_fin]
  by_cases hs : fl (ν - fl (μ * μ)) < 0
  · simp only [Dbl.sqrt, if_pos hs]; rfl
  · rw [sqrt_fin (_root_.not_lt.1 hs), rndMax_eq (fl_le_fixed h hX (sqrt_le_max hX1 (_root_.not_lt.1 hs) (abs_le.1 h4).2)), rnd_fin]

omit [HasSqrt K] [LawfulSqrt K] in
theorem calm_pt (h : Rounding fl) (hX : fl X = X) (hR : Room fl X M N) {μ : K} (hμ : |μ| ≤ fl (4 * N * M)) {x : Dbl K} (hx : Pt fl M x) : Calm fl X (fin μ) x := by
  obtain ⟨v, rfl, h1, -⟩ := hx
  unfold Calm
  rw [fin_sub_fin, rnd_fin]
  exact rndMax_eq (fl_le_fixed h hX ((abs_sub _ _).trans ((add_le_add h1 hμ).trans hR.calm)))

/-! ## A window -/

/-- The query. -/
structure QueryUpTo (c : K) (Q : Query K) : Prop where
  q : Cells (UpTo c) Q.q
  qo : Cells (UpTo c) Q.qo
  uo : Cells (UpTo c) Q.uo
  lo : Cells (UpTo c) Q.lo

/-- The states, but for the sums and the window. -/
structure StC (fl : K → K) (X : K) (s s' : St K) : Prop where
  t : s.t = s'.t
  ex : s.ex = s'.ex
  ex2 : s.ex2 = s'.ex2
  cb1 : ArrR (R0 fl X) s.cb1 s'.cb1
  cb2 : ArrR (R0 fl X) s.cb2 s'.cb2
  bsf : s.bsf = s'.bsf
  best : ∃ b, s'.bsf = fin b ∧ 0 ≤ b ∧ b ≤ 10 ^ 20
  loc : s.loc = s'.loc
  kim : s.kim = s'.kim
  keogh : s.keogh = s'.keogh
  keogh2 : s.keogh2 = s'.keogh2

theorem considerR_sim (h : Lim fl X c) (hb : fl (10 ^ 20) = 10 ^ 20) {Q : Query K} (hQ : QueryUpTo c Q) (epoch m r it i : ℕ) {lbuf ubuf : Arr K} {s s' : St K} (hs : StC fl X s s')
    (hmean : rndMax fl X (s'.ex / ofNat m) = rnd fl (s'.ex / ofNat m)) (hstd : stdOfR (rndMax fl X) m s'.ex s'.ex2 = stdOfR (rnd fl) m s'.ex s'.ex2)
    (ht : Cells (Calm fl X (rnd fl (s'.ex / ofNat m))) s'.t) (hl : Cells (Calm fl X (rnd fl (s'.ex / ofNat m))) lbuf) (hu : Cells (Calm fl X (rnd fl (s'.ex / ofNat m))) ubuf) :
    SimR (fun x y => StC fl X x y ∧ y.t = s'.t ∧ y.ex = s'.ex ∧ y.ex2 = s'.ex2) (considerR (rndMax fl X) Q epoch m r it lbuf ubuf i s)
      (considerR (rnd fl) Q epoch m r it lbuf ubuf i s') := by
  have hr := h.toRounding
  have hX : 0 ≤ X := by linarith [h.one_le]
  obtain ⟨b, hbs, hb0, hb1⟩ := hs.best
  have hbX : |b| ≤ X := by rw [abs_of_nonneg hb0]; exact hb1.trans h.big
  unfold considerR
  rw [hs.t, hs.ex, hs.ex2, hs.bsf, hmean, hstd, hbs]
  refine (lbKimR_sim h ht hQ.q hbX _ _).bind fun lb lb' hlb => ?_
  refine SimR.ite (hlb.1.lt_right hX hbX) (fun _ _ => ?_) fun _ _ => ?_
  swap
  · rw [hs.kim]
    refine (SimR.refl _).bind ?_
    rintro n _ rfl
    exact ⟨⟨rfl, rfl, rfl, hs.cb1, hs.cb2, rfl, ⟨b, rfl, hb0, hb1⟩, hs.loc, rfl, hs.keogh, hs.keogh2⟩, rfl, rfl, rfl⟩
  refine (keoghQR_sim h ht hQ.uo hQ.lo hbX _ _ _ (r0_zero h) hs.cb1).bind ?_
  rintro ⟨lb1, cb1⟩ ⟨lb1', cb1'⟩ ⟨hlb1, hcb1⟩
  dsimp only at hlb1 hcb1 ⊢
  refine SimR.ite (hlb1.1.lt_right hX hbX) (fun _ hlt1 => ?_) fun _ _ => ?_
  swap
  · rw [hs.keogh]
    refine (SimR.refl _).bind ?_
    rintro n _ rfl
    exact ⟨⟨rfl, rfl, rfl, hcb1, hs.cb2, rfl, ⟨b, rfl, hb0, hb1⟩, hs.loc, hs.kim, rfl, hs.keogh2⟩, rfl, rfl, rfl⟩
  refine (SimR.mapM (fun k => zAtR_sim hr ht _) _).bind fun tz tz' htz => ?_
  refine (keoghDR_sim h hQ.qo hu hl hbX _ _ _ (r0_zero h) hs.cb2).bind ?_
  rintro ⟨lb2, cb2⟩ ⟨lb2', cb2'⟩ ⟨hlb2, hcb2⟩
  dsimp only at hlb2 hcb2 ⊢
  refine SimR.ite (hlb2.1.lt_right hX hbX) (fun _ hlt2 => ?_) fun _ _ => ?_
  swap
  · rw [hs.keogh2]
    refine (SimR.refl _).bind ?_
    rintro n _ rfl
    exact ⟨⟨rfl, rfl, rfl, hcb1, hcb2, rfl, ⟨b, rfl, hb0, hb1⟩, hs.loc, hs.kim, hs.keogh, rfl⟩, rfl, rfl, rfl⟩
  obtain ⟨v1, e1, e1', -, -⟩ := hlb1.eq hX hbX hlt1
  obtain ⟨v2, e2, e2', -, -⟩ := hlb2.eq hX hbX hlt2
  subst e1 e1' e2 e2'
  have hsel : ArrR (R0 fl X) (if fin v2 < fin v1 then cb1 else cb2) (if fin v2 < fin v1 then cb1' else cb2') := by
    split_ifs
    · exact hcb1
    · exact hcb2
  refine (cumulateR_sim h hsel).bind fun cb cb' hcb => ?_
  refine (dtwR_sim h hb (arrR_map htz) hQ.q hcb hbX m r).bind fun d d' hd => ?_
  refine SimR.ite (hd.1.lt_right hX hbX) (fun _ hlt => ?_) fun _ _ => ?_
  · obtain ⟨v, e3, e3', h0, h1⟩ := hd.eq hX hbX hlt
    subst e3 e3'
    refine (SimR.refl _).bind ?_
    rintro o _ rfl
    exact ⟨⟨rfl, rfl, rfl, hcb1, hcb2, rfl, ⟨v, rfl, h0, by linarith⟩, rfl, hs.kim, hs.keogh, hs.keogh2⟩, rfl, rfl, rfl⟩
  · exact ⟨⟨rfl, rfl, rfl, hcb1, hcb2, rfl, ⟨b, rfl, hb0, hb1⟩, hs.loc, hs.kim, hs.keogh, hs.keogh2⟩, rfl, rfl, rfl⟩

/-- The states before the point `i` of a chunk. -/
structure StP (fl : K → K) (X M : K) (i : ℕ) (s s' : St K) : Prop where
  c : StC fl X s s'
  pts : Cells (Pt fl M) s'.t
  sum : Sum fl (4 * i * M) s'.ex
  sum2 : Sum fl (4 * i * fl (M * M)) s'.ex2

theorem pointR_sim (hf : FloatOps fl u θ) (hu : 4 * N * u ≤ 1) (hR : Room fl X M N) (h : Lim fl X c) (hb : fl (10 ^ 20) = 10 ^ 20) {Q : Query K} (hQ : QueryUpTo c Q)
    (epoch m r it : ℕ) {buf lbuf ubuf : Arr K} (hbuf : Cells (Pt fl M) buf) (hl : Cells (Pt fl M) lbuf) (hub : Cells (Pt fl M) ubuf) {i : ℕ} (hi : i < N) {s s' : St K}
    (hs : StP fl X M i s s') :
    SimR (StP fl X M (i + 1)) (pointR (rndMax fl X) Q epoch m r it buf lbuf ubuf s i) (pointR (rnd fl) Q epoch m r it buf lbuf ubuf s' i) := by
  have hr := h.toRounding
  have hX1 := h.one_le
  have hM2 : 0 ≤ fl (M * M) := hr.nonneg (mul_self_nonneg M)
  unfold pointR
  refine (rd_same hbuf _).bind ?_
  rintro d _ ⟨rfl, hd⟩
  refine SimR.ite Iff.rfl (fun _ _ => rfl) fun hm _ => ?_
  rw [hs.c.t]
  refine (wr_same hs.pts _ hd).bind ?_
  rintro t _ ⟨rfl, ht⟩
  refine (wr_same ht _ hd).bind ?_
  rintro t' _ ⟨rfl, ht'⟩
  obtain ⟨v, rfl, hv, hfv⟩ := hd
  obtain ⟨q1, q2⟩ := sq_pt hr hR (by omega) hv
  obtain ⟨a1, a2⟩ := Sum.add hf hu hi hR.nonneg hR.sum hs.sum hfv hv
  obtain ⟨b1, b2⟩ := Sum.add hf hu hi hM2 hR.sum2 hs.sum2 (hr.idem (v * v)) q2
  have q1' : rnd fl (fin v * fin v) = fin (fl (v * v)) := rfl
  have c1 : rndMax fl X (s.ex + fin v) = rnd fl (s'.ex + fin v) := by rw [hs.c.ex, a1]
  have c2 : rndMax fl X (s.ex2 + rndMax fl X (fin v * fin v)) = rnd fl (s'.ex2 + rnd fl (fin v * fin v)) := by rw [hs.c.ex2, q1, q1', b1]
  dsimp only
  rw [c1, c2, q1']
  have hC : StC fl X { s with ex := rnd fl (s'.ex + fin v), ex2 := rnd fl (s'.ex2 + fin (fl (v * v))), t := t' }
      { s' with ex := rnd fl (s'.ex + fin v), ex2 := rnd fl (s'.ex2 + fin (fl (v * v))), t := t' } :=
    ⟨rfl, rfl, rfl, hs.c.cb1, hs.c.cb2, hs.c.bsf, hs.c.best, hs.c.loc, hs.c.kim, hs.c.keogh, hs.c.keogh2⟩
  refine SimR.ite Iff.rfl (fun _ _ => ?_) fun _ _ => ?_
  · have s1 := a2.le (part_le hi hR.nonneg)
    have s2 := b2.le (part_le hi hM2)
    obtain ⟨m1, μ, m2, m3⟩ := mean_sim hr h.fixed s1 hR.sum (m := m) (by omega)
    have m4 := std_sim hr h.fixed hX1 hR s1 s2 (m := m) (by omega)
    have calm : ∀ a : Arr K, Cells (Pt fl M) a → Cells (Calm fl X (rnd fl (rnd fl (s'.ex + fin v) / ofNat m))) a := by
      intro a ha x hx
      rw [m2]
      exact calm_pt hr h.fixed hR m3 (ha x hx)
    refine (considerR_sim h hb hQ epoch m r it i hC m1 m4 (calm _ ht') (calm _ hl) (calm _ hub)).bind ?_
    rintro y y' ⟨hy, y1, y2, y3⟩
    dsimp only at y1 y2 y3
    rw [hy.t, y1]
    refine (rd_same ht' _).bind ?_
    rintro x _ ⟨rfl, w, rfl, hw, hfw⟩
    obtain ⟨w1, w2⟩ := sq_pt hr hR (by omega) hw
    obtain ⟨d1, d2⟩ := Sum.sub hf hu hi hR.nonneg hR.sum a2 hfw hw
    obtain ⟨e1, e2⟩ := Sum.sub hf hu hi hM2 hR.sum2 b2 (hr.idem (w * w)) w2
    have w1' : rnd fl (fin w * fin w) = fin (fl (w * w)) := rfl
    rw [hy.ex, hy.ex2, y2, y3, w1, w1', d1, e1]
    exact ⟨⟨rfl, rfl, rfl, hy.cb1, hy.cb2, hy.bsf, hy.best, hy.loc, hy.kim, hy.keogh, hy.keogh2⟩, ht', d2, e2⟩
  · have k1 : 4 * (i : K) * M + 2 * M ≤ 4 * (i + 1 : ℕ) * M := by push_cast; linarith [hR.nonneg]
    have k2 : 4 * (i : K) * fl (M * M) + 2 * fl (M * M) ≤ 4 * (i + 1 : ℕ) * fl (M * M) := by push_cast; linarith
    exact ⟨hC, ht', a2.le k1, b2.le k2⟩

/-! ## Chunks -/

omit [HasSqrt K] [LawfulSqrt K] in
theorem readFirst_cells (rem : ℕ) : ∀ (k : ℕ) {f f' : Input K} {d d' : Option (Dbl K)} {buf buf' : Arr K}, f.bad = false → (∀ x ∈ f.nums, |x| ≤ M ∧ fl x = x) → Cells (Pt fl M) buf →
    readFirst rem k f d buf = .ok (f', d', buf') → f'.bad = false ∧ (∀ x ∈ f'.nums, |x| ≤ M ∧ fl x = x) ∧ Cells (Pt fl M) buf' := by
  induction rem with
  | zero =>
    intro k f f' d d' buf buf' hb hn hc e
    simp only [readFirst, Except.ok.injEq, Prod.mk.injEq] at e
    obtain ⟨rfl, -, rfl⟩ := e
    exact ⟨hb, hn, hc⟩
  | succ rem ih =>
    intro k f f' d d' buf buf' hb hn hc e
    obtain ⟨nums, bad⟩ := f
    dsimp only at hb hn
    subst hb
    cases nums with
    | nil =>
      simp only [readFirst, Input.scan, Bool.false_eq_true, if_false] at e
      exact ih _ (f := ⟨[], false⟩) rfl hn hc e
    | cons x xs =>
      simp only [readFirst, Input.scan, bind, Except.bind] at e
      split at e
      · simp at e
      · rename_i b hw
        exact ih _ (f := ⟨xs, false⟩) rfl (fun y hy => hn y (List.mem_cons_of_mem _ hy))
          (wr_cells hc ⟨x, rfl, (hn x (by simp)).1, (hn x (by simp)).2⟩ hw) e

omit [HasSqrt K] [LawfulSqrt K] in
theorem readRest_cells (rem : ℕ) : ∀ (ep : ℕ) {ep' : ℕ} {f f' : Input K} {d d' : Option (Dbl K)} {buf buf' : Arr K}, f.bad = false → (∀ x ∈ f.nums, |x| ≤ M ∧ fl x = x) → Cells (Pt fl M) buf →
    readRest rem ep f d buf = .ok (ep', f', d', buf') →
    f'.bad = false ∧ (∀ x ∈ f'.nums, |x| ≤ M ∧ fl x = x) ∧ Cells (Pt fl M) buf' ∧ ep' ≤ ep + rem ∧ buf'.length = buf.length ∧ (ep' = ep ∨ ep' ≤ buf'.length) := by
  induction rem with
  | zero =>
    intro ep ep' f f' d d' buf buf' hb hn hc e
    simp only [readRest, Except.ok.injEq, Prod.mk.injEq] at e
    obtain ⟨rfl, rfl, -, rfl⟩ := e
    exact ⟨hb, hn, hc, le_rfl, rfl, .inl rfl⟩
  | succ rem ih =>
    intro ep ep' f f' d d' buf buf' hb hn hc e
    obtain ⟨nums, bad⟩ := f
    dsimp only at hb hn
    subst hb
    cases nums with
    | nil =>
      simp only [readRest, Input.scan, Bool.false_eq_true, if_false, Except.ok.injEq, Prod.mk.injEq] at e
      obtain ⟨rfl, rfl, -, rfl⟩ := e
      exact ⟨rfl, hn, hc, by omega, rfl, .inl rfl⟩
    | cons x xs =>
      simp only [readRest, Input.scan, bind, Except.bind] at e
      split at e
      · simp at e
      · rename_i b hw
        obtain ⟨h1, h2, h3, h4, h5, h6⟩ := ih _ (f := ⟨xs, false⟩) rfl (fun y hy => hn y (List.mem_cons_of_mem _ hy))
          (wr_cells hc ⟨x, rfl, (hn x (by simp)).1, (hn x (by simp)).2⟩ hw) e
        have hl : ep < buf.length ∧ b.length = buf.length := by
          unfold wr at hw
          split_ifs at hw with hh
          injection hw with hw
          subst hw
          exact ⟨by have := hh.2; simpa using this, by simp⟩
        refine ⟨h1, h2, h3, by omega, by omega, ?_⟩
        rcases h6 with h6 | h6
        · right; omega
        · right; exact h6

omit [HasSqrt K] [LawfulSqrt K] in
theorem shift_cells (epoch m : ℕ) {buf buf' : Arr K} (hc : Cells (Pt fl M) buf) (e : shift epoch m buf = .ok buf') : Cells (Pt fl M) buf' := by
  have key : SimR (fun a b => a = b ∧ Cells (Pt fl M) b) (shift epoch m buf) (shift epoch m buf) := by
    unfold shift
    refine SimR.foldlM (R := fun a b => a = b ∧ Cells (Pt fl M) b) (f := fun (buf : Arr K) (k : ℕ) => do
      let x ← rd buf ((epoch : Int) - m + 1 + k)
      wr buf k x) (g := fun (buf : Arr K) (k : ℕ) => do
      let x ← rd buf ((epoch : Int) - m + 1 + k)
      wr buf k x) ?_ _ ⟨rfl, hc⟩
    rintro a _ k ⟨rfl, ha⟩
    refine (rd_same ha _).bind ?_
    rintro x _ ⟨rfl, hx⟩
    exact wr_same ha _ hx
  rw [e] at key
  exact key.2

omit [HasSqrt K] [LawfulSqrt K] in
theorem start_cells (epoch m it : ℕ) {f f' : Input K} {d d' : Option (Dbl K)} {buf buf' : Arr K} (hb : f.bad = false) (hn : ∀ x ∈ f.nums, |x| ≤ M ∧ fl x = x)
    (hc : Cells (Pt fl M) buf) (e : start epoch m it f d buf = .ok (f', d', buf')) :
    f'.bad = false ∧ (∀ x ∈ f'.nums, |x| ≤ M ∧ fl x = x) ∧ Cells (Pt fl M) buf' := by
  unfold start at e
  split_ifs at e
  · exact readFirst_cells _ _ hb hn hc e
  · cases hs : shift epoch m buf with
    | error x => rw [hs] at e; simp [Except.map] at e
    | ok b =>
      rw [hs] at e
      simp only [Except.map, Except.ok.injEq, Prod.mk.injEq] at e
      obtain ⟨rfl, -, rfl⟩ := e
      exact ⟨hb, hn, shift_cells epoch m hc hs⟩

omit [HasSqrt K] [LawfulSqrt K] [Field K] [LinearOrder K] [IsStrictOrderedRing K] in
theorem readAll_mem {a : Arr K} : ∀ {vals : List (Dbl K)}, readAll a = .ok vals → vals.length = a.length ∧ ∀ x ∈ vals, some x ∈ a := by
  induction a with
  | nil =>
    intro vals e
    simp only [readAll, List.mapM_nil, pure, Except.pure, Except.ok.injEq] at e
    subst e
    simp
  | cons y a ih =>
    intro vals e
    cases y with
    | none => simp [readAll, List.mapM_cons, bind, Except.bind] at e
    | some y =>
      unfold readAll at e ih
      rw [List.mapM_cons] at e
      simp only [bind, Except.bind, pure, Except.pure] at e
      split at e
      · simp at e
      · rename_i v hv
        injection e with e
        subst e
        obtain ⟨h1, h2⟩ := ih hv
        refine ⟨by simp [h1], fun x hx => ?_⟩
        rcases List.mem_cons.1 hx with rfl | hx
        · simp
        · exact List.mem_cons_of_mem _ (h2 x hx)

omit [HasSqrt K] [LawfulSqrt K] in
/-- The envelopes consist of values of the list. -/
theorem lemire_cells {P : Dbl K → Prop} (hP : ∀ x, P x → ∃ v, x = fin v) {vals : List (Dbl K)} (hv : ∀ x ∈ vals, P x) {r : ℕ} (hr : r < vals.length) {l ub : OutArr K}
    (e : lemire false vals (r : Int) = .ok (l, ub)) {k : ℕ} (hk : k < vals.length) :
    (∀ x, l k = some x → P x) ∧ ∀ x, ub k = some x → P x := by
  have hc : ∃ cs : List K, vals = cs.map fin := by
    clear hr e hk
    induction vals with
    | nil => exact ⟨[], rfl⟩
    | cons y ys ih =>
      obtain ⟨cs, rfl⟩ := ih (fun x hx => hv x (List.mem_cons_of_mem _ hx))
      obtain ⟨w, rfl⟩ := hP y (hv y (by simp))
      exact ⟨w :: cs, rfl⟩
  obtain ⟨cs, rfl⟩ := hc
  simp only [List.length_map] at hr hk
  obtain ⟨lo, up, e', hh⟩ := envelope_fin false cs r hr
  rw [e'] at e
  injection e with e
  injection e with e1 e2
  subst e1 e2
  obtain ⟨x, y, ex, ey, hx, hy⟩ := hh k hk
  obtain ⟨jx, hjx, -⟩ := hx.1
  obtain ⟨jy, hjy, -⟩ := hy.1
  refine ⟨fun z hz => ?_, fun z hz => ?_⟩
  · rw [ex] at hz
    injection hz with hz
    rw [← hz]
    exact hv _ (List.mem_map_of_mem (List.mem_of_getElem? hjx))
  · rw [ey] at hz
    injection hz with hz
    rw [← hz]
    exact hv _ (List.mem_map_of_mem (List.mem_of_getElem? hjy))

theorem reportR_sim (h : Lim fl X c) (epoch m it ep : ℕ) {s s' : St K} (hs : StC fl X s s') :
    SimR Eq (reportR (rndMax fl X) epoch m it ep s) (reportR (rnd fl) epoch m it ep s') := by
  unfold reportR
  refine (SimR.refl _).bind ?_
  rintro o _ rfl
  obtain ⟨b, hbs, hb0, hb1⟩ := hs.best
  show Report.mk _ _ _ _ _ _ = Report.mk _ _ _ _ _ _
  rw [hs.bsf, hbs, sqrt_fin hb0, rndMax_eq (fl_le_fixed h.toRounding h.fixed (sqrt_le_max h.one_le hb0 (hb1.trans h.big))), rnd_fin, hs.loc, hs.kim, hs.keogh, hs.keogh2]

theorem chunksR_sim (hf : FloatOps fl u θ) {epoch m r : ℕ} (hu : 4 * epoch * u ≤ 1) (hR : Room fl X M epoch) (h : Lim fl X c) (hb : fl (10 ^ 20) = 10 ^ 20) {Q : Query K}
    (hQ : QueryUpTo c Q) (hm : m ≤ epoch) (hr : r < m) (fuel : ℕ) : ∀ (it : ℕ) {f : Input K} {d : Option (Dbl K)} {buf : Arr K} {s s' : St K}, f.bad = false →
      (∀ x ∈ f.nums, |x| ≤ M ∧ fl x = x) → Cells (Pt fl M) buf → StC fl X s s' → Cells (Pt fl M) s'.t →
    SimR Eq (chunksR (rndMax fl X) Q epoch m r fuel it f d buf s) (chunksR (rnd fl) Q epoch m r fuel it f d buf s') := by
  induction fuel with
  | zero => intro it f d buf s s' _ _ _ _ _; rfl
  | succ fuel ih =>
    intro it f d buf s s' hbad hn hc hs hst
    unfold chunksR
    refine (SimR.same (P := fun x => x.1.bad = false ∧ (∀ y ∈ x.1.nums, |y| ≤ M ∧ fl y = y) ∧ Cells (Pt fl M) x.2.2) fun a e => ?_).bind ?_
    · obtain ⟨f', d', buf'⟩ := a
      exact start_cells epoch m it hbad hn hc e
    rintro ⟨f, d, buf⟩ _ ⟨rfl, hbad, hn, hc⟩
    dsimp only at hbad hn hc ⊢
    refine (SimR.same (P := fun x => x.2.1.bad = false ∧ (∀ y ∈ x.2.1.nums, |y| ≤ M ∧ fl y = y) ∧ Cells (Pt fl M) x.2.2.2 ∧ x.1 ≤ m - 1 + (epoch - (m - 1)) ∧
      (x.1 = m - 1 ∨ x.1 ≤ x.2.2.2.length)) fun a e => ?_).bind ?_
    · obtain ⟨ep, f', d', buf'⟩ := a
      obtain ⟨h1, h2, h3, h4, -, h5⟩ := readRest_cells _ _ hbad hn hc e
      exact ⟨h1, h2, h3, h4, h5⟩
    rintro ⟨ep, f, d, buf⟩ _ ⟨rfl, hbad, hn, hc, hep, hlen⟩
    dsimp only at hbad hn hc hep hlen ⊢
    refine SimR.ite Iff.rfl (fun _ _ => reportR_sim h epoch m it ep hs) fun hlt _ => ?_
    refine (SimR.same (P := fun vals => vals.length = ep ∧ ∀ x ∈ vals, Pt fl M x) fun vals e => ?_).bind ?_
    · obtain ⟨h1, h2⟩ := readAll_mem e
      refine ⟨by rw [h1, List.length_take]; omega, fun x hx => hc x (List.mem_of_mem_take (h2 x hx))⟩
    rintro vals _ ⟨rfl, hvl, hv⟩
    refine (SimR.same (P := fun x => ∀ k < ep, (∀ y, x.1 k = some y → Pt fl M y) ∧ ∀ y, x.2 k = some y → Pt fl M y) fun a e => ?_).bind ?_
    · obtain ⟨l, ub⟩ := a
      intro k hk
      exact lemire_cells (fun x hx => by obtain ⟨v, e, -⟩ := hx; exact ⟨v, e⟩) hv (by omega) e (by omega)
    rintro ⟨l, ub⟩ _ ⟨rfl, hlu⟩
    dsimp only at hlu ⊢
    refine SimR.ite Iff.rfl (fun _ _ => rfl) fun _ _ => ?_
    have cl : Cells (Pt fl M) ((List.range ep).map l) := by
      intro x hx
      obtain ⟨k, hk, e⟩ := List.mem_map.1 hx
      exact (hlu k (List.mem_range.1 hk)).1 x e
    have cu : Cells (Pt fl M) ((List.range ep).map ub) := by
      intro x hx
      obtain ⟨k, hk, e⟩ := List.mem_map.1 hx
      exact (hlu k (List.mem_range.1 hk)).2 x e
    have hz : fl 0 = 0 := h.toRounding.zero
    have h0 : StP fl X M 0 { s with ex := 0, ex2 := 0 } { s' with ex := 0, ex2 := 0 } :=
      ⟨⟨hs.t, rfl, rfl, hs.cb1, hs.cb2, hs.bsf, hs.best, hs.loc, hs.kim, hs.keogh, hs.keogh2⟩, hst, ⟨0, rfl, hz, by simp⟩, ⟨0, rfl, hz, by simp⟩⟩
    refine (SimR.foldlM_range (R := StP fl X M) ep (fun a b i hi hab => pointR_sim hf hu hR h hb hQ epoch m _ it hc cl cu (by omega) hab) h0).bind ?_
    intro s s' hss
    exact SimR.ite Iff.rfl (fun _ _ => reportR_sim h epoch m it ep hss.c) fun _ _ => ih _ hbad hn hc hss.c hss.pts

/-! ## The query -/

omit [Field K] [LinearOrder K] [IsStrictOrderedRing K] [HasSqrt K] [LawfulSqrt K] in
theorem SimR.ok_right {α β : Type} {R : α → β → Prop} {x : Res α} {b : β} (h : SimR R x (.ok b)) : ∃ a, x = .ok a ∧ R a b := by
  cases x
  · exact h.elim
  · exact ⟨_, rfl, h⟩

omit [HasSqrt K] [LawfulSqrt K] in
theorem readQueryR_sim (hf : FloatOps fl u θ) (hu : 4 * N * u ≤ 1) (hR : Room fl X M N) (m : ℕ) (rem : ℕ) : ∀ (i : ℕ) {f : Input K} {s : Read K}, i + rem ≤ N → rem ≤ f.nums.length →
    (∀ x ∈ f.nums.take rem, |x| ≤ M ∧ fl x = x) → Sum fl (4 * i * M) s.ex → Sum fl (4 * i * fl (M * M)) s.ex2 →
    SimR (fun a b => a = b ∧ Sum fl (4 * N * M) b.ex ∧ Sum fl (4 * N * fl (M * M)) b.ex2) (readQueryR (rndMax fl X) m rem f s) (readQueryR (rnd fl) m rem f s) := by
  have hM2 : 0 ≤ fl (M * M) := hf.toRounding.nonneg (mul_self_nonneg M)
  induction rem with
  | zero =>
    intro i f s hi _ _ h1 h2
    have h1 := h1.le (all_le (N := N) (by omega) hR.nonneg)
    have h2 := h2.le (all_le (N := N) (by omega) hM2)
    obtain ⟨nums, bad⟩ := f
    cases nums with
    | cons x xs => unfold readQueryR; exact ⟨rfl, h1, h2⟩
    | nil => cases bad <;> (unfold readQueryR; exact ⟨rfl, h1, h2⟩)
  | succ rem ih =>
    intro i f s hi hl hn h1 h2
    obtain ⟨nums, bad⟩ := f
    cases nums with
    | nil => simp at hl
    | cons x xs =>
      obtain ⟨hx, hfx⟩ := hn x (by simp)
      obtain ⟨q1, q2⟩ := sq_pt hf.toRounding hR (by omega) hx
      obtain ⟨a1, a2⟩ := Sum.add hf hu (by omega) hR.nonneg hR.sum h1 hfx hx
      obtain ⟨b1, b2⟩ := Sum.add hf hu (by omega) hM2 hR.sum2 h2 (hf.idem (x * x)) q2
      have q1' : rnd fl (fin x * fin x) = fin (fl (x * x)) := rfl
      have k1 : 4 * (i : K) * M + 2 * M ≤ 4 * (i + 1 : ℕ) * M := by push_cast; linarith [hR.nonneg]
      have k2 : 4 * (i : K) * fl (M * M) + 2 * fl (M * M) ≤ 4 * (i + 1 : ℕ) * fl (M * M) := by push_cast; linarith
      unfold readQueryR
      simp only [Input.scan]
      rw [q1, q1', a1, b1]
      refine (SimR.refl _).bind ?_
      rintro q _ rfl
      exact ih (i + 1) (f := ⟨xs, bad⟩) (s := ⟨q, _, _, _⟩) (by omega) (by simpa using hl)
        (fun y hy => hn y (by rw [List.take_succ_cons]; exact List.mem_cons_of_mem _ hy)) (a2.le k1) (b2.le k2)

omit [HasSqrt K] [LawfulSqrt K] in
theorem canCompareR_sim (h : Lim fl X c) {a b : K} (ha : |a| ≤ c) (hb : |b| ≤ c) : canCompareR (rndMax fl X) (fin a) (fin b) = canCompareR (rnd fl) (fin a) (fin b) := by
  unfold canCompareR
  rw [abs_fin, abs_fin, fin_sub_fin, rnd_fin, rndMax_eq (fl_le_fixed h.toRounding h.fixed (_root_.le_trans ?_ h.c_le))]
  rw [abs_le]
  constructor <;> linarith [abs_nonneg a, abs_nonneg b]

theorem prepareR_sim (hf : FloatOps fl u θ) (hu : 4 * N * u ≤ 1) (hR : Room fl X M N) (h : Lim fl X c) (S : Sorter K) {m r : ℕ} {qf : Input K} (hm : 1 ≤ m) (hmN : m ≤ N) (hr : r < m)
    (hl : m ≤ qf.nums.length) (hq : ∀ x ∈ qf.nums.take m, |x| ≤ M ∧ fl x = x) (hd : 0 < queryDev fl (qf.nums.take m)) (hc : ∀ x ∈ queryBy fl (qf.nums.take m), |x| ≤ c) :
    SimR (fun a b => a = b ∧ QueryUpTo c b.1) (prepareR (rndMax fl X) S m r qf) (prepareR (rnd fl) S m r qf) := by
  have hrd := h.toRounding
  obtain ⟨s, e, h1, h2, h3⟩ := readQueryR_ok (fl := fl) m m qf (alloc m) 0 0 none le_rfl (by simp [alloc]) hl
  have hsim := readQueryR_sim hf hu hR m m 0 (f := qf) (s := ⟨alloc m, 0, 0, none⟩) (by omega) hl hq ⟨0, rfl, hrd.zero, by simp⟩ ⟨0, rfl, hrd.zero, by simp⟩
  rw [show (⟨alloc m, 0, 0, none⟩ : Read K) = ⟨alloc m, fin 0, fin 0, none⟩ from rfl, e] at hsim
  obtain ⟨s', e', rfl, hs1, hs2⟩ := hsim.ok_right
  have hlen : (qf.nums.take m).length = m := by simp; omega
  generalize hw : qf.nums.take m = w at *
  have h1' : s'.q = lift w := by rw [h1]; simp
  have hql : (queryBy fl w).length = m := by unfold queryBy; rw [scaledBy_length, hlen]
  obtain ⟨m1, μ, m2, m3⟩ := mean_sim hrd h.fixed hs1 hR.sum hm
  have m4 := std_sim hrd h.fixed h.one_le hR hs1 hs2 hm
  have hmn : rnd fl (s'.ex / ofNat m) = fin (meanOf fl w.length (totalBy fl w)) := by
    rw [h2, meanR_ok hm, hlen]; rfl
  have hsd : stdOfR (rnd fl) m s'.ex s'.ex2 = fin (queryDev fl w) := by
    rw [h2, h3]
    unfold queryDev at hd ⊢
    rw [hlen] at hd ⊢
    exact stdR_pos hm hd
  have hμ : μ = meanOf fl w.length (totalBy fl w) := by rw [m2] at hmn; injection hmn
  have hz : (w.map fin).map (fun x => rnd fl (rnd fl (x - fin (meanOf fl w.length (totalBy fl w))) / fin (queryDev fl w))) = (queryBy fl w).map fin := by
    simp only [queryBy, scaledBy, List.map_map]
    apply List.map_congr_left
    intro x _
    simp [fin_sub_fin, fin_div_fin hd.ne', rnd]
  have hz' : (w.map fin).map (fun x => rndMax fl X (rndMax fl X (x - fin (meanOf fl w.length (totalBy fl w))) / fin (queryDev fl w))) = (queryBy fl w).map fin := by
    simp only [queryBy, scaledBy, List.map_map]
    apply List.map_congr_left
    intro x hx
    have c1 : Calm fl X (fin (meanOf fl w.length (totalBy fl w))) (fin x) := calm_pt hrd h.fixed hR (by rw [← hμ]; exact m3) ⟨x, rfl, (hq x hx).1, (hq x hx).2⟩
    unfold Calm at c1
    simp only [Function.comp]
    rw [c1, fin_sub_fin, rnd_fin, fin_div_fin hd.ne', rndMax_eq]
    exact (hc _ (List.mem_map.2 ⟨x, hx, rfl⟩)).trans h.c_le
  have hall : ((queryBy fl w).map fin).all (fun a => ((queryBy fl w).map fin).all fun b => canCompareR (rndMax fl X) a b) =
      ((queryBy fl w).map fin).all (fun a => ((queryBy fl w).map fin).all fun b => canCompareR (rnd fl) a b) := by
    rw [Bool.eq_iff_iff]
    simp only [List.all_map, List.all_eq_true, Function.comp]
    constructor
    · intro hh x hx y hy
      rw [← canCompareR_sim h (hc x hx) (hc y hy)]; exact hh x hx y hy
    · intro hh x hx y hy
      rw [canCompareR_sim h (hc x hx) (hc y hy)]; exact hh x hx y hy
  unfold prepareR
  have e0 : (0 : Dbl K) = fin 0 := rfl
  simp only [e0, e, e', bind, Except.bind, h1', readAll_lift, m1, m4, hmn, hsd, hz, hz', hall]
  obtain ⟨lo, up, el, hh⟩ := envelope_fin false (queryBy fl w) r (by rw [hql]; omega)
  rw [el]
  dsimp only
  refine SimR.ite Iff.rfl (fun _ _ => ⟨rfl, ?_⟩) fun _ _ => rfl
  have hp := S.perm ((queryBy fl w).map fin)
  rw [List.length_map, hql] at hp
  have hmem : ∀ o ∈ S.sort ((queryBy fl w).map fin), o < (queryBy fl w).length := by
    intro o ho
    have := hp.mem_iff.1 ho
    rw [hql]
    simpa using this
  refine ⟨fun x hx => ?_, fun x hx => ?_, fun x hx => ?_, fun x hx => ?_⟩
  · simp only [List.map_map, List.mem_map, Function.comp, Option.some.injEq] at hx
    obtain ⟨y, hy, rfl⟩ := hx
    exact ⟨y, rfl, hc y hy⟩
  · obtain ⟨o, ho, e⟩ := List.mem_map.1 hx
    have ho' := hmem o ho
    simp only [List.map_map, List.getElem?_map, List.getElem?_eq_getElem ho', Option.map_some, Function.comp, Option.join_some, Option.some.injEq] at e
    exact ⟨_, e.symm, hc _ (List.getElem_mem ho')⟩
  · obtain ⟨o, ho, e⟩ := List.mem_map.1 hx
    obtain ⟨a, b, ea, eb, ha, hb⟩ := hh o (hmem o ho)
    rw [eb] at e
    obtain ⟨j, hj, -⟩ := hb.1
    exact ⟨b, by injection e with e; exact e.symm, hc _ (List.mem_of_getElem? hj)⟩
  · obtain ⟨o, ho, e⟩ := List.mem_map.1 hx
    obtain ⟨a, b, ea, eb, ha, hb⟩ := hh o (hmem o ho)
    rw [ea] at e
    obtain ⟨j, hj, -⟩ := ha.1
    exact ⟨a, by injection e with e; exact e.symm, hc _ (List.mem_of_getElem? hj)⟩

/-! ## The search -/

/-- With room for the sums, and a query that is normalised to numbers up to `c`, the search is the same with overflow and without. -/
theorem searchR_sim (hf : FloatOps fl u θ) {epoch m r : ℕ} (hu : 4 * epoch * u ≤ 1) (hR : Room fl X M epoch) (h : Lim fl X c) (hb : fl (10 ^ 20) = 10 ^ 20) (S : Sorter K) {data query : Input K}
    (hbad : data.bad = false) (hn : ∀ x ∈ data.nums, |x| ≤ M ∧ fl x = x) (hme : m ≤ epoch) (hr : r < m) (hl : m ≤ query.nums.length)
    (hq : ∀ x ∈ query.nums.take m, |x| ≤ M ∧ fl x = x) (hd : 0 < queryDev fl (query.nums.take m)) (hc : ∀ x ∈ queryBy fl (query.nums.take m), |x| ≤ c) (fuel : ℕ) :
    searchR (rndMax fl X) S epoch fuel (some data) (some query) m r = searchR (rnd fl) S epoch fuel (some data) (some query) m r := by
  apply SimR.eq
  unfold searchR
  refine (prepareR_sim hf hu hR h S (by omega) hme hr hl hq hd hc).bind ?_
  rintro ⟨Q, d⟩ _ ⟨rfl, hQ⟩
  dsimp only at hQ ⊢
  refine chunksR_sim hf hu hR h hb hQ hme hr fuel 0 hbad hn (cells_alloc _ _) ?_ (cells_alloc _ _)
  exact ⟨rfl, rfl, rfl, arrR_replicate (r0_zero h) _, arrR_replicate (r0_zero h) _, rfl, ⟨10 ^ 20, rfl, by positivity, le_rfl⟩, rfl, rfl, rfl, rfl⟩

end Genex.Ucr
