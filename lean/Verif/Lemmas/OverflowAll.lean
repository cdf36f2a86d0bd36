import Verif.Spec.OverflowAll
import Verif.Lemmas.OverflowSet

/-! The cosine and Sorensen's distance of data in range do not overflow (lemmas for C108). -/

set_option linter.unusedSectionVars false

namespace Genex

open Dbl Spec

variable {K : Type} [Field K] [LinearOrder K] [IsStrictOrderedRing K] {rd : K → K}

theorem between_below {lo B : K} (h : -B ≤ lo) {x : Dbl K} (hx : Between lo B x) : Below B x := by
  obtain ⟨y, rfl, h1, h2⟩ := hx
  exact ⟨y, rfl, abs_le.2 ⟨h.trans h1, h2⟩⟩

/-- Sums of terms of either sign. -/
def OkDot (rd : K → K) (c : K) (k : ℕ) (s : Dbl K) : Prop := ∃ x, s = fin x ∧ |x| ≤ sumOf rd c k

theorem okDot_zero (c : K) : OkDot rd c 0 0 := ⟨0, rfl, by simp [sumOf]⟩

theorem okDot_succ (hr : Rounding rd) {c : K} (hc : 0 ≤ c) {k : ℕ} {s : Dbl K} (h : OkDot rd c k s) : OkDot rd c (k + 1) s := by
  obtain ⟨x, rfl, h1⟩ := h
  exact ⟨x, rfl, h1.trans (sumOf_le_succ hr hc k)⟩

theorem okDot_add (hr : Rounding rd) {c X : K} (hc : 0 ≤ c) {N k : ℕ} (hN : sumOf rd c N ≤ X) (hk : k < N) {x q : K}
    (hx : OkDot rd c k (fin x)) (hq : |q| ≤ c) :
    OkDot rd c (k + 1) (fin (rd (x + q))) ∧ rndMax rd X (fin (x + q)) = fin (rd (x + q)) := by
  obtain ⟨x', e, h1⟩ := hx
  cases e
  have h4 : |rd (x + q)| ≤ sumOf rd c (k + 1) := by
    rw [hr.abs]
    exact hr.mono _ _ ((abs_add_le x q).trans (by linarith))
  exact ⟨⟨_, rfl, h4⟩, rndMax_eq (h4.trans ((sumOf_mono hr hc (by omega)).trans hN))⟩

theorem prod_le (hr : Rounding rd) {B y z : K} (hy : |y| ≤ B) (hz : |z| ≤ B) : |rd (y * z)| ≤ rd (B * B) := by
  rw [hr.abs, abs_mul]
  exact hr.mono _ _ (mul_le_mul hy hz (abs_nonneg _) ((abs_nonneg _).trans hy))

theorem fin_div_zero_fixed (X t : K) : rndMax rd X (fin t / fin 0) = rnd rd (fin t / fin 0) := by
  have h : ∀ d : Dbl K, d = .inf ∨ d = .ninf ∨ d = .nan → rndMax rd X d = rnd rd d := by
    rintro d (rfl | rfl | rfl) <;> rfl
  refine h _ ?_
  show Dbl.div (fin t) (fin 0) = _ ∨ Dbl.div (fin t) (fin 0) = _ ∨ Dbl.div (fin t) (fin 0) = _
  simp only [Dbl.div]
  split_ifs <;> simp_all

section
variable (hr : Rounding rd) {X lo B : K} (hX : rd X = X) (hX1 : 1 ≤ X) {m n : ℕ}
include hr hX hX1

/-- Accumulators of the cosine. -/
def OkCos (rd : K → K) (c : K) (k : ℕ) (s : Dbl K × Dbl K × Dbl K) : Prop :=
  OkSum rd c k s.1 ∧ OkSum rd c k s.2.1 ∧ OkDot rd c k s.2.2

theorem cosine_norm [HasSqrt K] [LawfulSqrt K] {c ε : K} (hc : 0 ≤ c) (hS : sumOf rd c (m + n) ≤ X)
    (hS2 : rd (sumOf rd c (m + n) * sumOf rd c (m + n)) ≤ X) (h0 : 0 < ε) (hε : rd ε = ε) (hmin : ∀ x, 0 < rd x → ε * ε ≤ rd x)
    (hdiv : rd (sumOf rd c (m + n) / ε) ≤ X) {k : ℕ} (hk : k ≤ m + n) {t : Dbl K × Dbl K × Dbl K} (ht : OkCos rd c k t) :
    rndMax rd X (t.2.2 / rndMax rd X (Dbl.sqrt (rndMax rd X (t.1 * t.2.1)))) = rnd rd (t.2.2 / rnd rd (Dbl.sqrt (rnd rd (t.1 * t.2.1)))) := by
  obtain ⟨u, v, w⟩ := t
  obtain ⟨⟨u, rfl, u1, u2, -⟩, ⟨v, rfl, v1, v2, -⟩, ⟨w, rfl, w1⟩⟩ := ht
  have hkS := sumOf_mono hr hc hk
  have hp0 : 0 ≤ rd (u * v) := hr.nonneg (mul_nonneg u1 v1)
  have hpX : rd (u * v) ≤ X := by
    refine (hr.mono _ _ ?_).trans hS2
    exact mul_le_mul (u2.trans hkS) (v2.trans hkS) v1 (u1.trans (u2.trans hkS))
  simp only [fin_mul_fin, rnd_fin]
  rw [rndMax_eq (by rwa [abs_of_nonneg hp0]), sqrt_fin hp0, rnd_fin]
  have hs0 := LawfulSqrt.sqrt_nonneg hp0
  have hss := LawfulSqrt.mul_self hp0
  have hsX : HasSqrt.sqrt (rd (u * v)) ≤ X := by
    by_cases h1 : HasSqrt.sqrt (rd (u * v)) ≤ 1
    · exact h1.trans hX1
    · rw [_root_.not_le] at h1
      nlinarith
  rw [rndMax_of_le hr hX (by rwa [abs_of_nonneg hs0])]
  by_cases hz : rd (u * v) = 0
  · have : HasSqrt.sqrt (rd (u * v)) = 0 := by
      rw [hz] at hss ⊢
      exact mul_self_eq_zero.1 hss
    rw [this, hr.zero]
    exact fin_div_zero_fixed X w
  · have hmn := hmin _ (_root_.lt_of_le_of_ne hp0 (Ne.symm hz))
    have hge : ε ≤ HasSqrt.sqrt (rd (u * v)) := by
      by_contra hlt
      rw [_root_.not_le] at hlt
      nlinarith
    have hge' : ε ≤ rd (HasSqrt.sqrt (rd (u * v))) := by
      have := hr.mono _ _ hge
      rwa [hε] at this
    rw [fin_div_fin (by linarith), rnd_fin, rndMax_eq]
    rw [hr.abs, abs_div, abs_of_nonneg (a := rd (HasSqrt.sqrt (rd (u * v)))) (by linarith)]
    refine (hr.mono _ _ ?_).trans hdiv
    exact div_le_div₀ ((abs_nonneg w).trans (w1.trans hkS)) (w1.trans hkS) h0 hge'

theorem sim_cosine [HasSqrt K] [LawfulSqrt K] (hN : Room rd X lo B (m + n) .cosine) :
    LSim (cosineR rd) (cosineW (rndMax rd X)) id (OkCos rd (rd (B * B))) (Below B) m n := by
  obtain ⟨hS, hS2, ε, h0, hε, hmin, hdiv⟩ := hN
  have hc : 0 ≤ rd (B * B) := hr.nonneg (mul_self_nonneg B)
  refine ⟨rfl, rfl, fun s hs => (by cases hs), ⟨okSum_zero hr _, okSum_zero hr _, okDot_zero _⟩,
    fun k s hs => ⟨okSum_succ hr hc hs.1, okSum_succ hr hc hs.2.1, okDot_succ hr hc hs.2.2⟩, ?_, ?_, ?_, ?_⟩
  · rintro k ⟨u, v, w⟩ x y ⟨x, rfl, hx⟩ ⟨y, rfl, hy⟩ ⟨hu, hv, hw⟩ hk
    have hcX : rd (B * B) ≤ X := by
      have h1 : sumOf rd (rd (B * B)) 1 = rd (B * B) := by simp only [sumOf, zero_add, hr.idem]
      rw [← h1]
      exact (sumOf_mono hr hc (by omega)).trans hS
    dsimp only at hu hv hw
    obtain ⟨u', eu, -⟩ := id hu
    obtain ⟨v', ev, -⟩ := id hv
    obtain ⟨w', ew, -⟩ := id hw
    subst eu ev ew
    have hxx := prod_le hr hx hx
    have hyy := prod_le hr hy hy
    have hxy := prod_le hr hx hy
    have k1 := okSum_add hr hc hS hk hu (hr.nonneg (mul_self_nonneg x)) ((le_abs_self _).trans hxx)
    have k2 := okSum_add hr hc hS hk hv (hr.nonneg (mul_self_nonneg y)) ((le_abs_self _).trans hyy)
    have k3 := okDot_add hr hc hS hk hw hxy
    simp only [cosineR, cosineW, id, fin_mul_fin, rnd_fin, fin_add_fin, rndMax_eq (hxx.trans hcX), rndMax_eq (hyy.trans hcX),
      rndMax_eq (hxy.trans hcX)]
    exact ⟨⟨k1.1, k2.1, k3.1⟩, by rw [k1.2, k2.2, k3.2]⟩
  · exact fun k s hs hk => cosine_norm hr hX hX1 hc hS hS2 h0 hε hmin hdiv hk hs
  · exact fun k s hs hk => cosine_norm hr hX hX1 hc hS hS2 h0 hε hmin hdiv hk hs
  · intro k (s : Dbl K × Dbl K × Dbl K) d hs hk
    have := cosine_norm hr hX hX1 hc hS hS2 h0 hε hmin hdiv hk hs
    show decide (d < rndMax rd X (s.2.2 / rndMax rd X (Dbl.sqrt (rndMax rd X (s.1 * s.2.1))))) =
      decide (d < rnd rd (s.2.2 / rnd rd (Dbl.sqrt (rnd rd (s.1 * s.2.1)))))
    rw [this]

/-- Accumulators of Sorensen's distance. -/
def OkSor (rd : K → K) (c : K) (k : ℕ) (s : Dbl K × Dbl K) : Prop :=
  ∃ x y, s = (fin x, fin y) ∧ 0 ≤ x ∧ x ≤ y ∧ OkSum rd c k (fin y)

theorem sorensen_norm {c : K} {k : ℕ} {t : Dbl K × Dbl K} (ht : OkSor rd c k t) : rndMax rd X (t.1 / t.2) = rnd rd (t.1 / t.2) := by
  obtain ⟨x, y, rfl, h1, h2, -⟩ := ht
  by_cases hy : y = 0
  · subst hy
    exact fin_div_zero_fixed X x
  · have hy' : 0 < y := _root_.lt_of_le_of_ne (h1.trans h2) (Ne.symm hy)
    simp only [fin_div_fin hy, rnd_fin]
    refine rndMax_of_le hr hX ?_
    rw [abs_of_nonneg (div_nonneg h1 hy'.le)]
    exact ((div_le_one hy').2 h2).trans hX1

theorem sim_sorensen (hB : 0 ≤ B) (hN : Room rd X lo B (m + n) .sorensen) :
    LSim (sorensenR rd) (sorensenW (rndMax rd X)) id (OkSor rd (rd (2 * B))) (Between lo B) m n := by
  obtain ⟨hlo, hS⟩ := hN
  have hc : 0 ≤ rd (2 * B) := hr.nonneg (by linarith)
  refine ⟨rfl, rfl, fun s hs => (by cases hs), ⟨0, 0, rfl, le_rfl, le_rfl, okSum_zero hr _⟩, ?_, ?_, ?_, ?_, ?_⟩
  · rintro k s ⟨x, y, rfl, h1, h2, h3⟩
    exact ⟨x, y, rfl, h1, h2, okSum_succ hr hc h3⟩
  · rintro k s x y ⟨x, rfl, x0, hx⟩ ⟨y, rfl, y0, hy⟩ ⟨u, v, rfl, h1, h2, h3⟩ hk
    have hcX : rd (2 * B) ≤ X := by
      have e1 : sumOf rd (rd (2 * B)) 1 = rd (2 * B) := by simp only [sumOf, zero_add, hr.idem]
      rw [← e1]
      exact (sumOf_mono hr hc (by omega)).trans hS
    have hp0 : 0 ≤ rd (x + y) := hr.nonneg (by linarith)
    have hp : |rd (x + y)| ≤ rd (2 * B) := by
      rw [abs_of_nonneg hp0]
      exact hr.mono _ _ (by linarith)
    have hd : |rd (x - y)| ≤ |rd (x + y)| := by
      rw [hr.abs, abs_of_nonneg hp0]
      refine hr.mono _ _ ?_
      rw [abs_le]
      constructor <;> linarith
    have k1 := okSum_add hr hc hS hk h3 (abs_nonneg (rd (x + y))) hp
    have k2 : rd (u + |rd (x - y)|) ≤ rd (v + |rd (x + y)|) := hr.mono _ _ (by linarith)
    have k3 : 0 ≤ rd (u + |rd (x - y)|) := hr.nonneg (by have := abs_nonneg (rd (x - y)); linarith)
    have k4 : rndMax rd X (fin (u + |rd (x - y)|)) = fin (rd (u + |rd (x - y)|)) := by
      refine rndMax_eq ?_
      rw [abs_of_nonneg k3]
      obtain ⟨z, ez, -, z2, -⟩ := k1.1
      cases ez
      exact k2.trans (z2.trans ((sumOf_mono hr hc (by omega)).trans hS))
    simp only [sorensenR, sorensenW, id, fin_sub_fin, fin_add_fin, rnd_fin, rndMax_eq (hp.trans hcX), rndMax_eq ((hd.trans hp).trans hcX), abs_fin]
    exact ⟨⟨_, _, rfl, k3, k2, k1.1⟩, by rw [k1.2, k4]⟩
  · exact fun k s hs _ => sorensen_norm hr hX hX1 hs
  · exact fun k s hs _ => sorensen_norm hr hX hX1 hs
  · intro k (s : Dbl K × Dbl K) d hs hk
    have := sorensen_norm (X := X) hr hX hX1 hs
    show decide (d < rndMax rd X (s.1 / s.2)) = decide (d < rnd rd (s.1 / s.2))
    rw [this]

end

theorem room_mono (hr : Rounding rd) {X lo B : K} (hB : 0 ≤ B) {k n : ℕ} (h : k ≤ n) {m : Metric} (hn : Room rd X lo B n m) :
    Room rd X lo B k m := by
  cases m with
  | euclidean => exact noOverflow_mono (X := X) (m := .euclidean) hr hB h hn
  | manhattan => exact noOverflow_mono (X := X) (m := .manhattan) hr hB h hn
  | chebyshev => exact noOverflow_mono (X := X) (m := .chebyshev) hr hB h hn
  | cosine =>
    have hc : 0 ≤ rd (B * B) := hr.nonneg (mul_self_nonneg B)
    have hm := sumOf_mono hr hc h
    have h0 : 0 ≤ sumOf rd (rd (B * B)) k := by
      have := sumOf_mono hr hc (Nat.zero_le k)
      simpa [sumOf] using this
    obtain ⟨h1, h2, ε, e0, e1, e2, e3⟩ := hn
    exact ⟨hm.trans h1, (hr.mono _ _ (mul_self_le_mul_self h0 hm)).trans h2, ε, e0, e1, e2,
      (hr.mono _ _ (div_le_div_of_nonneg_right hm e0.le)).trans e3⟩
  | sorensen => exact ⟨hn.1, (sumOf_mono hr (hr.nonneg (by linarith)) h).trans hn.2⟩

section
variable [HasSqrt K] (hr : Rounding rd) {X lo B : K} (hX : rd X = X) (hX1 : 1 ≤ X) (hB : 0 ≤ B) (hlo : -B ≤ lo)
include hr hX hX1 hB hlo

theorem pairwiseRoom_eq {m : Metric} (hs : m = .euclidean ∨ m = .cosine → LawfulSqrt K) {a b : List (Dbl K)} (ha : ∀ x ∈ a, Between lo B x)
    (hb : ∀ x ∈ b, Between lo B x) (hN : Room rd X lo B (a.length + b.length) m) (d : Dbl K) :
    pairwiseDistance (m.dmW (rndMax rd X)) a b d = pairwiseDistance (m.dmR rd) a b d := by
  have ha' := fun x hx => between_below hlo (ha x hx)
  have hb' := fun x hx => between_below hlo (hb x hx)
  cases m with
  | euclidean => exact pairwiseW_eq hr hX hX1 (fun h => hs (.inl h)) ha' hb' hN d
  | manhattan => exact pairwiseW_eq hr hX hX1 (fun h => hs (.inl h)) ha' hb' hN d
  | chebyshev => exact pairwiseW_eq hr hX hX1 (fun h => hs (.inl h)) ha' hb' hN d
  | cosine =>
    have := hs (.inr rfl)
    exact pairwise_sim (sim_cosine hr hX hX1 hN) ha' hb' d
  | sorensen => exact pairwise_sim (sim_sorensen hr hX hX1 hB hN) ha hb d

theorem warpedRoom_eq {m : Metric} (hs : m = .euclidean ∨ m = .cosine → LawfulSqrt K) [BandOps] (ratio : ℚ) {a b : List (Dbl K)}
    (ha : ∀ x ∈ a, Between lo B x) (hb : ∀ x ∈ b, Between lo B x) (hN : Room rd X lo B (a.length + b.length) m) (d : Dbl K)
    (q : List (ℕ × ℕ)) : warpedDistance (m.dmW (rndMax rd X)) ratio a b d q = warpedDistance (m.dmR rd) ratio a b d q := by
  have ha' := fun x hx => between_below hlo (ha x hx)
  have hb' := fun x hx => between_below hlo (hb x hx)
  cases m with
  | euclidean => exact warpedW_eq hr hX hX1 (fun h => hs (.inl h)) ratio ha' hb' hN d q
  | manhattan => exact warpedW_eq hr hX hX1 (fun h => hs (.inl h)) ratio ha' hb' hN d q
  | chebyshev => exact warpedW_eq hr hX hX1 (fun h => hs (.inl h)) ratio ha' hb' hN d q
  | cosine =>
    have := hs (.inr rfl)
    exact warped_sim (sim_cosine hr hX hX1 hN) ha' hb' ratio d q
  | sorensen => exact warped_sim (sim_sorensen hr hX hX1 hB hN) ha hb ratio d q

theorem cascadeRoom_eq (hs : LawfulSqrt K) [BandOps] {ratio : ℚ} (hq : 0 ≤ ratio) {a b : List (Dbl K)}
    (ha : ∀ x ∈ a, Between lo B x) (hb : ∀ x ∈ b, Between lo B x) (hN : Room rd X lo B (a.length + b.length) .euclidean) (d : Dbl K)
    (q : List (ℕ × ℕ)) : cascadeDistanceW (rndMax rd X) ratio a b d q = cascadeDistanceR rd ratio a b d q :=
  cascadeW_eq hr hX hX1 hq (fun x hx => between_below hlo (ha x hx)) (fun x hx => between_below hlo (hb x hx)) hN d q

theorem evalRoom_eq (f : DistRef) (hs : metricOf f = .euclidean ∨ metricOf f = .cosine → LawfulSqrt K) [BandOps] {ratio : ℚ} (hq : 0 ≤ ratio)
    {a b : List (Dbl K)} (ha : ∀ x ∈ a, Between lo B x) (hb : ∀ x ∈ b, Between lo B x)
    (hN : Room rd X lo B (a.length + b.length) (metricOf f)) (d : Dbl K) :
    f.evalW (rndMax rd X) ratio a b d = f.evalR rd ratio a b d ∧ f.matchingW (rndMax rd X) ratio a b = f.matchingR rd ratio a b := by
  cases f with
  | pairwise m =>
    simp only [DistRef.evalW, DistRef.evalR, DistRef.matchingW, DistRef.matchingR]
    rw [pairwiseRoom_eq hr hX hX1 hB hlo (m := m) hs ha hb hN, pairwiseRoom_eq hr hX hX1 hB hlo (m := m) hs ha hb hN]
    exact ⟨rfl, rfl⟩
  | warped m =>
    simp only [DistRef.evalW, DistRef.evalR, DistRef.matchingW, DistRef.matchingR, warpedValue]
    rw [warpedRoom_eq hr hX hX1 hB hlo (m := m) hs ratio ha hb hN, warpedRoom_eq hr hX hX1 hB hlo (m := m) hs ratio ha hb hN]
    exact ⟨rfl, rfl⟩
  | cascade =>
    have := hs (.inl rfl)
    simp only [DistRef.evalW, DistRef.evalR, DistRef.matchingW, DistRef.matchingR]
    rw [cascadeRoom_eq hr hX hX1 hB hlo this hq ha hb hN, cascadeRoom_eq hr hX hX1 hB hlo this hq ha hb hN]
    exact ⟨rfl, rfl⟩

theorem agree_room {L : ℕ} {f : DistRef} [BandOps] {ratio : ℚ} (hq : 0 ≤ ratio)
    (hs : metricOf f = .euclidean ∨ metricOf f = .cosine → LawfulSqrt K) (hN : Room rd X lo B (2 * L) (metricOf f)) :
    Agree (overflowArith (rndMax rd X)) (roundedArith rd) ratio (fun pts => (∀ x ∈ pts, Between lo B x) ∧ pts.length ≤ L) f := by
  rintro a b d ⟨ha, hal⟩ ⟨hb, hbl⟩
  exact (evalRoom_eq hr hX hX1 hB hlo f hs hq ha hb (room_mono hr hB (by omega) hN) d).1

theorem agree_roomPairwise {L : ℕ} {m : Metric} [BandOps] {ratio : ℚ}
    (hs : m = .euclidean ∨ m = .cosine → LawfulSqrt K) (hN : Room rd X lo B (2 * L) m) :
    Agree (overflowArith (rndMax rd X)) (roundedArith rd) ratio (fun pts => (∀ x ∈ pts, Between lo B x) ∧ pts.length ≤ L) (.pairwise m) := by
  intro a b d ha hb
  exact agree_room hr hX hX1 hB hlo (le_refl (0 : ℚ)) (f := .pairwise m) hs hN a b d ha hb

end

/-! ## Numbers outside the series -/

theorem foldlM_keeps {f : Dataset K → Int → Res (Dataset K)} (hf : ∀ d d' c, f d c = .ok d' → ∀ c', c' ≠ c → d'.read c' = d.read c') {c' : Int} :
    ∀ (cs : List Int) (ds ds' : Dataset K), c' ∉ cs → cs.foldlM f ds = .ok ds' → ds'.read c' = ds.read c'
  | [], ds, ds', _, h => by cases h; rfl
  | c :: cs, ds, ds', hc, h => by
    rw [List.foldlM_cons] at h
    simp only [bind, Except.bind] at h
    cases e : f ds c with
    | error e' => rw [e] at h; cases h
    | ok d =>
      rw [e] at h
      simp only [List.mem_cons, not_or] at hc
      rw [foldlM_keeps hf cs d ds' hc.2 h, hf _ _ _ e _ hc.1]

/-- Normalisation changes no number outside the series. -/
theorem normalizeR_keeps {ds ds' : Dataset K} {rows : List (List K)} (H : Holds ds (rows.map (·.map fin))) {mm : Dbl K × Dbl K}
    (e : ds.normalizeR rd = .ok (ds', mm)) {c : Int} (hc : c ∉ cellList ds.maxCol (rows.map (·.map fin))) : ds'.read c = ds.read c := by
  unfold Dataset.normalizeR at e
  split at e
  · cases e
  rw [cells_ok H] at e
  simp only [bind, Except.bind] at e
  split at e
  · cases e
  rename_i m hm
  split at e
  · split at e
    · cases e; rfl
    · split at e
      · cases e
      · rename_i d hd
        cases e
        change d.read c = ds.read c
        exact foldlM_keeps (f := fun d c => d.write c 0) (fun d d' c h c' hc => by rw [read_write h, if_neg hc]) _ _ _ hc hd
  · split at e
    · cases e
    · rename_i d hd
      cases e
      change d.read c = ds.read c
      refine foldlM_keeps (fun d d' c h c' hc => ?_) _ _ _ hc hd
      split at h
      · cases h
      · rw [read_write h, if_neg hc]

end Genex
