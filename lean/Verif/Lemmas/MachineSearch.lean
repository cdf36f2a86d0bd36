import Verif.Model.MachineSearch
import Verif.Lemmas.MachineSizes
import Verif.Lemmas.KSearchAll

/-! The searches with `int` of 32 bits and the counter `extraTimeSeries`. -/

set_option linter.unusedSectionVars false

namespace Genex

open Spec Dbl Props

/-! ### The order of the lengths -/

section

variable [BandOps] {ratio : ℚ}

theorem bandInt_eq (hr : 0 ≤ ratio) {N : ℕ} (hb : ⌊BandOps.mul ratio N⌋ < 2 ^ 31) {h : Int} (h1 : 1 ≤ h) (hN : h ≤ N) :
    bandInt ratio h = .ok (band ratio h) ∧ 0 ≤ band ratio h ∧ band ratio h ≤ h - 1 := by
  obtain ⟨h, rfl⟩ := Int.eq_ofNat_of_zero_le (by omega : 0 ≤ h)
  have h2 := Int.floor_nonneg.2 (BandOps.nonneg ratio h hr)
  have h3 := Int.floor_le_floor (BandOps.mono ratio h N hr (by omega))
  refine ⟨?_, ?_, ?_⟩
  · unfold bandInt band
    rw [if_pos (by omega)]
  · unfold band; omega
  · unfold band; omega

theorem travI_loop (hr : 0 ≤ ratio) {N : ℕ} (hN : N ≤ 2 ^ 30) (hb : ⌊BandOps.mul ratio N⌋ < 2 ^ 31) {q : Int} (hq : 1 ≤ q)
    (hqN : q ≤ N) : ∀ (fuel : ℕ) (s : Trav), s.low ≤ q → q ≤ s.high → (s.highStop = true ∨ s.high ≤ (N : Int) + 1) →
    Trav.loopI ratio q N fuel s = Trav.loop ratio q N fuel s := by
  intro fuel
  induction fuel with
  | zero => intro s _ _ _; unfold Trav.loopI Trav.loop; rfl
  | succ fuel ih =>
    intro s h1 h2 h3
    unfold Trav.loopI Trav.loop
    by_cases hst : (s.lowStop && s.highStop) = true
    · rw [if_pos hst, if_pos hst]
    · rw [if_neg hst, if_neg hst]
      simp only
      have hlo : (s.tests N).goLowI ratio q = .ok ((s.tests N).goLow ratio q) := by
        have hlow : (s.tests N).low = s.low := rfl
        have hstop : (s.tests N).lowStop = (s.lowStop || decide (s.low < 2)) := rfl
        generalize s.tests N = s0 at hlow hstop
        unfold Trav.goLowI Trav.goLow
        by_cases hl : s0.lowStop = true
        · rw [if_pos hl, if_pos hl]
        · rw [if_neg hl, if_neg hl]
          have hl2 : 2 ≤ s0.low := by
            rw [hstop] at hl
            simp only [Bool.or_eq_true, decide_eq_true_eq, not_or] at hl
            omega
          obtain ⟨e, g1, g2⟩ := bandInt_eq hr hb hq hqN
          rw [e]
          simp only [bind, Except.bind]
          rw [int32_ok (by omega) (by omega)]
          simp only
          by_cases hc : q ≤ s0.low + band ratio q
          · rw [if_pos hc, if_pos hc, int32_ok (by omega) (by omega)]
          · rw [if_neg hc, if_neg hc]
      rw [hlo]
      simp only [bind, Except.bind]
      have hfr : ((s.tests N).goLow ratio q).high = s.high ∧ ((s.tests N).goLow ratio q).highStop = (s.tests N).highStop ∧
          ((s.tests N).goLow ratio q).low ≤ q := by
        unfold Trav.goLow
        split
        · exact ⟨rfl, rfl, h1⟩
        · split
          · exact ⟨rfl, rfl, by simp only [Trav.tests]; omega⟩
          · exact ⟨rfl, rfl, h1⟩
      generalize (s.tests N).goLow ratio q = s1 at hfr
      obtain ⟨f1, f2, f3⟩ := hfr
      have hhi : s1.goHighI ratio q = .ok (s1.goHigh ratio q) := by
        unfold Trav.goHighI Trav.goHigh
        by_cases hl : s1.highStop = true
        · rw [if_pos hl, if_pos hl]
        · rw [if_neg hl, if_neg hl]
          have hl2 : s1.high ≤ N := by
            rw [f2] at hl
            simp only [Trav.tests, Bool.or_eq_true, decide_eq_true_eq, not_or] at hl
            omega
          obtain ⟨e, g1, g2⟩ := bandInt_eq hr hb (h := s1.high) (by omega) hl2
          rw [e]
          simp only [bind, Except.bind]
          rw [int32_ok (by omega) (by omega)]
          simp only
          by_cases hc : s1.high ≤ q + band ratio s1.high
          · rw [if_pos hc, if_pos hc, int32_ok (by omega) (by omega)]
          · rw [if_neg hc, if_neg hc]
      rw [hhi]
      simp only
      have hfr2 : (s1.goHigh ratio q).low = s1.low ∧ q ≤ (s1.goHigh ratio q).high ∧
          ((s1.goHigh ratio q).highStop = true ∨ (s1.goHigh ratio q).high ≤ (N : Int) + 1) := by
        unfold Trav.goHigh
        split
        · rename_i hl
          exact ⟨rfl, by omega, Or.inl hl⟩
        · rename_i hl
          have hl2 : s1.high ≤ N := by
            rw [f2] at hl
            simp only [Trav.tests, Bool.or_eq_true, decide_eq_true_eq, not_or] at hl
            omega
          split
          · exact ⟨rfl, by simp only; omega, Or.inr (by simp only; omega)⟩
          · exact ⟨rfl, by simp only; omega, Or.inl rfl⟩
      exact ih _ (by rw [hfr2.1]; exact f3) hfr2.2.1 hfr2.2.2

theorem traverseI_eq (hr : 0 ≤ ratio) {N : ℕ} (hN : N ≤ 2 ^ 30) (hb : ⌊BandOps.mul ratio N⌋ < 2 ^ 31) {q : Int} (hq : 1 ≤ q)
    (hqN : q ≤ N) : generateTraverseOrderI ratio q N = generateTraverseOrder ratio q N := by
  unfold generateTraverseOrderI generateTraverseOrder
  simp only [bind, Except.bind]
  rw [int32_ok (by omega) (by omega)]
  simp only
  rw [int32_ok (by omega) (by omega)]
  exact travI_loop hr hN hb hq hqN _ _ (by simp only; omega) (by simp only; omega) (Or.inr (by simp only; omega))

end

variable {K : Type} [Field K] [LinearOrder K] [IsStrictOrderedRing K] [HasSqrt K]

/-! ### Walking over the members -/

theorem Chain.loopI {σ : Type} {n gi : ℕ} {sp : LocalSpace K} (hsub : sp.subCount = n) (body : σ → Int × Int → Res σ) :
    ∀ (cs : List (ℕ × ℕ)) (p : Int × Int) (fuel : ℕ) (s : σ), Chain sp.memberMap n gi p cs →
      (∀ c ∈ cs, sp.cellI ((c.1 : Int), (c.2 : Int)) = sp.cell ((c.1 : Int), (c.2 : Int))) →
      sp.chainLoopI body fuel p s = sp.chainLoop body fuel p s := by
  intro cs
  induction cs with
  | nil =>
    intro p fuel s h _
    unfold Chain at h
    subst h
    unfold LocalSpace.chainLoopI LocalSpace.chainLoop
    rfl
  | cons c cs ih =>
    intro p fuel s h hc
    obtain ⟨rfl, pr, hm, hch⟩ := h
    have hcell : sp.cell ((c.1 : Int), (c.2 : Int)) = .ok ⟨pr, some gi⟩ := by
      unfold LocalSpace.cell
      have hxi : ((c.1 : Int) * sp.subCount + c.2) = ((c.1 * n + c.2 : ℕ) : Int) := by rw [hsub]; push_cast; ring
      simp only [hxi, Int.toNat_natCast]
      rw [if_neg (by omega), hm]
    unfold LocalSpace.chainLoopI LocalSpace.chainLoop
    rw [if_neg (by simp only; omega), if_neg (by simp only; omega)]
    cases fuel with
    | zero => rfl
    | succ fuel =>
      simp only [hc c (by simp), hcell]
      cases body s ((c.1 : Int), (c.2 : Int)) with
      | error e => rfl
      | ok s' => exact ih pr fuel s' hch (fun x hx => hc x (by simp [hx]))

section

variable {ds : Dataset K} {rows : List (List (Dbl K))} {ℓ n : ℕ} {sp : LocalSpace K} {abs : List AG}

theorem walkI_eq {σ : Type} (R : Rep ds rows ℓ n sp abs) (H : Holds ds rows) (hn : (n : Int) = ds.maxCol - ℓ + 1)
    (hT : rows.length * n < 2 ^ 31) {j : ℕ} {g : Group K} {a : AG} (hg : sp.groups[j]? = some g) (ha : abs[j]? = some a)
    (body : σ → Int × Int → Res σ) (s : σ) :
    sp.walkI g body s = a.mem.foldlM (fun s c => body s ((c.1 : Int), (c.2 : Int))) s := by
  rw [← R.walk hn H hg ha]
  exact Chain.loopI R.sub body a.mem g.last _ s (R.grp j g a hg ha).chain
    (fun c hc => cellI_eq H hn hT R (R.mems a (List.mem_of_getElem? ha) c hc))

theorem getMembersI_eq (R : Rep ds rows ℓ n sp abs) (H : Holds ds rows) (hI : Fits32 ds) (hn : (n : Int) = ds.maxCol - ℓ + 1)
    (hT : rows.length * n < 2 ^ 31) {j : ℕ} {g : Group K} {a : AG} (hg : sp.groups[j]? = some g) (ha : abs[j]? = some a) :
    sp.getMembersI ds g = sp.getMembers ds g := by
  unfold LocalSpace.getMembersI LocalSpace.getMembers
  rw [walkI_eq R H hn hT hg ha, R.walk hn H hg ha]
  apply foldlM_congr
  intro c hc s
  rw [memberI_eq H hI R (R.mems a (List.mem_of_getElem? ha) c hc)]

theorem foldlM_inv {σ α : Type} (P : σ → Prop) (f : σ → α → Res σ) : ∀ (l : List α) (s s' : σ), P s →
    (∀ x ∈ l, ∀ s s', P s → f s x = .ok s' → P s') → l.foldlM f s = .ok s' → P s' := by
  intro l
  induction l with
  | nil => intro s s' h _ e; cases e; exact h
  | cons x xs ih =>
    intro s s' h hf e
    rw [List.foldlM_cons] at e
    cases h1 : f s x with
    | error _ => rw [h1] at e; cases e
    | ok s1 =>
      rw [h1] at e
      exact ih s1 s' (hf x (by simp) s s1 h h1) (fun y hy => hf y (by simp [hy])) e

variable [Arith K]

theorem getBestMatchI_eq (R : Rep ds rows ℓ n sp abs) (H : Holds ds rows) (hI : Fits32 ds) (hn : (n : Int) = ds.maxCol - ℓ + 1)
    (hT : rows.length * n < 2 ^ 31) {j : ℕ} {g : Group K} {a : AG} (hg : sp.groups[j]? = some g) (ha : abs[j]? = some a)
    (ratio : ℚ) (w : DistRef) (query : List (Dbl K)) :
    sp.getBestMatchI ds ratio w query g = sp.getBestMatch ds ratio w query g := by
  have hsub := R.mems a (List.mem_of_getElem? ha)
  unfold LocalSpace.getBestMatchI LocalSpace.getBestMatch
  rw [walkI_eq R H hn hT hg ha, R.walk hn H hg ha]
  rw [foldlM_congr (g := fun (st : Dbl K × (Int × Int)) (c : ℕ × ℕ) => do
    let v ← sp.member ds ((c.1 : Int), (c.2 : Int))
    let pts ← ds.points v
    let d ← Arith.eval ratio w query pts st.1
    .ok (if d < st.1 then (d, ((c.1 : Int), (c.2 : Int))) else st))]
  · cases hb : a.mem.foldlM (fun (st : Dbl K × (Int × Int)) (c : ℕ × ℕ) => do
      let v ← sp.member ds ((c.1 : Int), (c.2 : Int))
      let pts ← ds.points v
      let d ← Arith.eval ratio w query pts st.1
      (.ok (if d < st.1 then (d, ((c.1 : Int), (c.2 : Int))) else st) : Res (Dbl K × (Int × Int)))) (.inf, (0, 0)) with
    | error e => rfl
    | ok b =>
      have hcols := hI.cols
      have hinv : 0 ≤ b.2.2 ∧ b.2.2 + ℓ < 2 ^ 31 := by
        refine foldlM_inv (fun (st : Dbl K × (Int × Int)) => 0 ≤ st.2.2 ∧ st.2.2 + ℓ < 2 ^ 31) _ a.mem _ b ?_ ?_ hb
        · simp only; omega
        · intro c hc s s' hs e
          obtain ⟨r, hr, hle⟩ := hsub c hc
          have := H.fits _ _ hr
          simp only [bind, Except.bind] at e
          split at e
          · cases e
          · split at e
            · cases e
            · split at e
              · cases e
              · cases e
                split
                · simp only; omega
                · exact hs
      simp only [bind, Except.bind]
      have : sp.memberI ds b.2 = sp.member ds b.2 := by
        unfold LocalSpace.memberI LocalSpace.member
        rw [R.len, int32_ok (by omega) (by omega)]
        exact getTimeSeriesI_eq H hI _ _ _
      rw [this]
  · intro c hc s
    obtain ⟨h1, h2⟩ := (hsub c hc).viewAt_bounds H hI
    rw [memberI_eq H hI R (hsub c hc)]
    cases hv : sp.member ds ((c.1 : Int), (c.2 : Int)) with
    | error e => rfl
    | ok v =>
      simp only [bind, Except.bind]
      have hb := getTimeSeries_bounds H hI hv
      rw [pointsI_eq hb.1 hb.2]

/-- A loop that counts its rounds. -/
theorem counted {σ α : Type} (f : σ → α → Res σ) : ∀ (l : List α) (e : Int) (s s' : σ), -2 ^ 31 ≤ e → e < 2 ^ 31 →
    l.foldlM f s = .ok s' →
    l.foldlM (fun (st : Int × σ) (c : α) => do
      let e ← int32 (st.1 + 1)
      let s ← f st.2 c
      (.ok (e, s) : Res (Int × σ))) (e, s) =
      if e + l.length < 2 ^ 31 then .ok (e + l.length, s') else .error (.ub "int overflow") := by
  intro l
  induction l with
  | nil =>
    intro e s s' h1 h2 h
    cases h
    rw [if_pos (by simp only [List.length_nil]; omega)]
    simp [pure, Except.pure]
  | cons x xs ih =>
    intro e s s' h1 h2 h
    rw [List.foldlM_cons] at h ⊢
    cases hx : f s x with
    | error err => rw [hx] at h; cases h
    | ok s1 =>
      rw [hx] at h
      by_cases h3 : e + 1 < 2 ^ 31
      · simp only [bind, Except.bind]
        rw [int32_ok (by omega) h3]
        simp only [hx]
        have := ih (e + 1) s1 s' (by omega) h3 h
        simp only [bind, Except.bind] at this
        rw [this, List.length_cons]
        have e1 : e + 1 + (xs.length : Int) = e + ((xs.length + 1 : ℕ) : Int) := by push_cast; ring
        rw [e1]
      · simp only [bind, Except.bind]
        rw [int32_over (by omega), if_neg (by simp only [List.length_cons]; push_cast; omega)]

theorem topKStep_left {A : Algos (Cand K)} {eval : Dbl K → Res (Dbl K)} {v : View} {st st' : Int × List (Cand K)}
    (h : topKStep A eval v st = .ok st') (h0 : 0 ≤ st.1) : st'.1 = max (st.1 - 1) 0 := by
  unfold topKStep at h
  split at h
  · rename_i hp
    simp only [bind, Except.bind] at h
    split at h
    · cases h
    · cases h
      simp only
      omega
  · split at h
    · cases h
    · simp only [bind, Except.bind] at h
      split at h
      · cases h
      · split at h
        · cases h; simp only; omega
        · cases h; omega

theorem topK_left {α : Type} {A : Algos (Cand K)} (f : α → Dbl K → Res (Dbl K)) (v : α → View) : ∀ (l : List α)
    (st st' : Int × List (Cand K)), l.foldlM (fun (st : Int × List (Cand K)) c => topKStep A (f c) (v c) st) st = .ok st' → 0 ≤ st.1 →
    st'.1 = max (st.1 - l.length) 0 := by
  intro l
  induction l with
  | nil => intro st st' h h0; cases h; simp [h0]
  | cons x xs ih =>
    intro st st' h h0
    rw [List.foldlM_cons] at h
    cases hx : topKStep A (f x) (v x) st with
    | error e => rw [hx] at h; cases h
    | ok s1 =>
      rw [hx] at h
      have h1 := topKStep_left hx h0
      have h2 := ih s1 st' h (by omega)
      rw [h2, List.length_cons]
      push_cast
      omega

/-- `intraGroupKSim` with the counter. -/
theorem intraI_eq {A : Algos (Cand K)} (R : Rep ds rows ℓ n sp abs) (hl : 1 ≤ ℓ) (H : Holds ds rows) (hI : Fits32 ds)
    (hn : (n : Int) = ds.maxCol - ℓ + 1) (hT : rows.length * n < 2 ^ 31) {j : ℕ} {g : Group K} {a : AG}
    (hg : sp.groups[j]? = some g) (ha : abs[j]? = some a) {ratio : ℚ} {w : DistRef} {query : List (Dbl K)} {k : Int} (hk : 0 ≤ k)
    {res : List (Cand K)} (h : sp.intraGroupKSim A ds ratio w query k g = .ok res) {extra : Int} (h1 : -2 ^ 31 ≤ extra)
    (h2 : extra < 2 ^ 31) :
    sp.intraGroupKSimI A ds ratio w query k g extra =
      if extra + a.mem.length < 2 ^ 31 ∧ -2 ^ 31 ≤ extra + a.mem.length - max (k - a.mem.length) 0
      then .ok (res, extra + a.mem.length - max (k - a.mem.length) 0) else .error (.ub "int overflow") := by
  have hsub := R.mems a (List.mem_of_getElem? ha)
  unfold LocalSpace.intraGroupKSim at h
  rw [R.walk hn H hg ha] at h
  rw [foldlM_congr (g := fun (st : Int × List (Cand K)) (c : ℕ × ℕ) => topKStep A (fun bound => do
      let pts ← ds.points (viewAt ds ℓ c); Arith.eval ratio w query pts bound) (viewAt ds ℓ c) st)] at h
  swap
  · intro c hc st
    rw [R.member hl H (hsub c hc)]
    rfl
  cases hst : a.mem.foldlM (fun (st : Int × List (Cand K)) (c : ℕ × ℕ) => topKStep A (fun bound => do
      let pts ← ds.points (viewAt ds ℓ c); Arith.eval ratio w query pts bound) (viewAt ds ℓ c) st) (k, []) with
  | error e => rw [hst] at h; cases h
  | ok st =>
    rw [hst] at h
    simp only [bind, Except.bind, Except.ok.injEq] at h
    subst h
    have hleft := topK_left _ _ _ _ _ hst hk
    simp only at hleft
    unfold LocalSpace.intraGroupKSimI
    rw [walkI_eq R H hn hT hg ha]
    rw [foldlM_congr (g := fun (st : Int × (Int × List (Cand K))) (c : ℕ × ℕ) => do
      let e ← int32 (st.1 + 1)
      let s ← topKStep A (fun bound => do
        let pts ← ds.points (viewAt ds ℓ c); Arith.eval ratio w query pts bound) (viewAt ds ℓ c) st.2
      (.ok (e, s) : Res (Int × (Int × List (Cand K)))))]
    · rw [counted _ a.mem extra _ st h1 h2 hst]
      by_cases h3 : extra + a.mem.length < 2 ^ 31
      · rw [if_pos h3]
        simp only [bind, Except.bind]
        rw [hleft]
        by_cases h4 : -2 ^ 31 ≤ extra + a.mem.length - max (k - a.mem.length) 0
        · rw [int32_ok h4 (by omega), if_pos ⟨h3, h4⟩]
        · rw [if_neg (fun h => h4 h.2)]
          unfold int32
          rw [if_neg (fun h => h4 h.1)]
      · rw [if_neg h3, if_neg (fun h => h3 h.1)]
        rfl
    · intro c hc st
      obtain ⟨h1, h2⟩ := (hsub c hc).viewAt_bounds H hI
      rw [memberI_eq H hI R (hsub c hc), R.member hl H (hsub c hc)]
      simp only [bind, Except.bind]
      rw [pointsI_eq h1 h2]

end

/-! ### The groups -/

theorem shrinkI_eq {B : Algos (GIdx K)} (hB : B.Lawful GIdx.lt) : ∀ (fuel : ℕ) (st : Int × List (GIdx K)),
    (∀ y ∈ st.2, y.dist ≠ .nan ∧ 0 ≤ y.members ∧ y.members ≤ 2 ^ 30) → IsHeap GIdx.lt st.2 → -2 ^ 31 ≤ st.1 → st.1 ≤ 0 →
    shrinkI B fuel st = shrink B fuel st := by
  intro fuel
  induction fuel with
  | zero =>
    rintro ⟨k, best⟩ hy hh h1 h2
    cases best with
    | nil => unfold shrinkI shrink; rfl
    | cons x l =>
      have := hy x (by simp)
      unfold shrinkI shrink
      simp only at *
      rw [int32_bind _ (by omega) (by omega)]
  | succ fuel ih =>
    rintro ⟨k, best⟩ hy hh h1 h2
    cases best with
    | nil => unfold shrinkI shrink; rfl
    | cons x l =>
      have hx := hy x (by simp)
      unfold shrinkI shrink
      simp only at *
      rw [int32_bind _ (by omega) (by omega)]
      split
      · rename_i hle
        obtain ⟨l', e, hp', hh'⟩ := hB.pop x l (gidx_swo (fun y h => (hy y h).1)) hh
        rw [e, List.dropLast_concat]
        exact ih (k + x.members, l') (fun y h => hy y (by simp [hp'.mem_iff.1 h])) hh' (by simp only; omega) hle
      · rfl

theorem kSimStepI_eq {B : Algos (GIdx K)} (hB : B.Lawful GIdx.lt) {k0 : ℕ} (hk : k0 < 2 ^ 31) {all : List (GIdx K)}
    {y : GIdx K} (hN : ∀ x ∈ all ++ [y], x.dist ≠ .nan ∧ 0 ≤ x.members ∧ x.members ≤ 2 ^ 30) {dist : Dbl K → Res (Dbl K)}
    (he : ExactEval dist y.dist) {st : Int × List (GIdx K)} (h : KInv k0 all st) :
    kSimStepI B y.length dist y.index y.members st = kSimStep B y.length dist y.index y.members st := by
  obtain ⟨k, best⟩ := st
  have hy := hN y (by simp)
  rcases h with ⟨h1, h2, h3⟩ | F
  · simp only at h1 h2 h3
    subst h1
    have hs : 0 ≤ memSum best := by
      unfold memSum
      apply List.sum_nonneg
      intro x hx
      obtain ⟨z, hz, rfl⟩ := List.mem_map.1 hx
      exact (hN z (by simp [hz])).2.1
    unfold kSimStepI kSimStep
    simp only
    rw [if_neg (by omega), if_neg (by omega), he.inf]
    simp only [bind, Except.bind]
    rw [int32_ok (by omega) (by omega)]
    simp only
    split
    · rename_i hle
      obtain ⟨hp, hh⟩ := hB.make (best ++ [y]) (gidx_swo (fun x hx => (hN x hx).1))
      exact shrinkI_eq hB _ (k - y.members, B.makeHeap (best ++ [y])) (fun x hx => hN x (hp.mem_iff.1 hx)) hh (by simp only; omega) hle
    · rfl
  · obtain ⟨⟨rest, hp, hle⟩, hb, hn, hh, t, l, rfl, ht⟩ := F
    simp only at hp hle hb hn hh ht
    have hNb : ∀ x ∈ t :: l, x.dist ≠ .nan ∧ 0 ≤ x.members ∧ x.members ≤ 2 ^ 30 := by
      intro x hx
      exact hN x (List.mem_append.2 (Or.inl (hp.mem_iff.1 (List.mem_append.2 (Or.inl hx)))))
    have htm := hNb t (by simp)
    unfold kSimStepI kSimStep
    simp only
    rw [if_pos hn, if_pos hn]
    have key : ∀ d, d < t.dist → dist t.dist = .ok d → d = y.dist := by
      intro d hd e
      rcases he t.dist with h | ⟨h, h'⟩
      · rw [h] at e; cases e; rfl
      · rw [h'] at e; cases e; exact absurd hd (by simp)
    cases hd : dist t.dist with
    | error e => rfl
    | ok d =>
      simp only [bind, Except.bind]
      by_cases hlt : d < t.dist
      · rw [if_pos hlt, if_pos hlt, int32_ok (by omega) (by omega)]
        have := key d hlt hd
        subst this
        have hNp : ∀ x ∈ (t :: l) ++ [y], x.dist ≠ .nan ∧ 0 ≤ x.members ∧ x.members ≤ 2 ^ 30 := by
          intro x hx
          rcases List.mem_append.1 hx with h | h
          · exact hNb x h
          · rw [List.mem_singleton.1 h]; exact hy
        obtain ⟨pp, ph⟩ := hB.push (t :: l) y (gidx_swo (fun x hx => (hNp x hx).1)) hh
        exact shrinkI_eq hB _ (k - y.members, B.pushHeap (t :: l ++ [y])) (fun x hx => hNp x (pp.mem_iff.1 hx)) ph
          (by simp only; omega) (by simp only; omega)
      · rw [if_neg hlt, if_neg hlt]

section

variable {ds : Dataset K} {rows : List (List (Dbl K))} [BandOps] {ratio : ℚ} {w : DistRef} {query : List (Dbl K)}
  {E D : ℕ → ℕ × ℕ → Dbl K} [Arith K]

theorem interLevelI_list {B : Algos (GIdx K)} (hB : B.Lawful GIdx.lt) {k0 : ℕ} (hk : 0 < k0) (hk' : k0 < 2 ^ 31) (ℓ : ℕ)
    (dist : Group K → Dbl K → Res (Dbl K)) : ∀ (gl : List (Group K)) (al : List AG) (j : ℕ) (all : List (GIdx K))
    (st : Int × List (GIdx K)), gl.length = al.length →
    (∀ (i : ℕ) g (a : AG), gl[i]? = some g → al[i]? = some a → g.count = a.mem.length ∧ a.mem.length ≤ 2 ^ 30 ∧
      ExactEval (dist g) (E ℓ a.rep) ∧ E ℓ a.rep ≠ .nan) →
    (∀ x ∈ all, x.dist ≠ .nan ∧ 0 ≤ x.members ∧ x.members ≤ 2 ^ 30) → KInv k0 all st →
    (gl.zipIdx j).foldlM (fun (st : Int × List (GIdx K)) (g : Group K × ℕ) => kSimStepI B ℓ (dist g.1) g.2 g.1.count st) st =
      (gl.zipIdx j).foldlM (fun (st : Int × List (GIdx K)) (g : Group K × ℕ) => kSimStep B ℓ (dist g.1) g.2 g.1.count st) st := by
  intro gl
  induction gl with
  | nil => intros; rfl
  | cons g gl ih =>
    intro al j all st hl hg hN h
    cases al with
    | nil => simp at hl
    | cons a al =>
      obtain ⟨h1, h1', h2, h3⟩ := hg 0 g a rfl rfl
      have hN' : ∀ x ∈ all ++ [(⟨ℓ, j, a.mem.length, E ℓ a.rep⟩ : GIdx K)], x.dist ≠ .nan ∧ 0 ≤ x.members ∧ x.members ≤ 2 ^ 30 := by
        intro x hx
        rcases List.mem_append.1 hx with h | h
        · exact hN x h
        · rw [List.mem_singleton.1 h]; exact ⟨h3, by simp, by simp only; omega⟩
      have e1 := kSimStepI_eq hB hk' (y := ⟨ℓ, j, a.mem.length, E ℓ a.rep⟩) hN' h2 h
      obtain ⟨st', e, h'⟩ := kInv_step hB hk (y := ⟨ℓ, j, a.mem.length, E ℓ a.rep⟩) (fun x hx => (hN' x hx).1) (by simp) h2 h
      rw [List.zipIdx_cons, List.foldlM_cons, List.foldlM_cons]
      simp only [h1]
      rw [e1, e]
      exact ih al (j + 1) _ st' (by simpa using hl) (fun i => hg (i + 1)) hN' h'

theorem interLevelKSimI_eq {B : Algos (GIdx K)} (hB : B.Lawful GIdx.lt) {k0 : ℕ} (hk : 0 < k0) (hk' : k0 < 2 ^ 31) {ℓ n : ℕ}
    {sp : LocalSpace K} {ABS : ℕ → List AG} (R : Rep ds rows ℓ n sp (ABS ℓ)) (H : Holds ds rows) (hI : Fits32 ds)
    (hn : (n : Int) = ds.maxCol - ℓ + 1) (hT : rows.length * n ≤ 2 ^ 30)
    (hD : DistAt rows ratio w query E D ℓ) {all : List (GIdx K)} {st : Int × List (GIdx K)}
    (hN : ∀ x ∈ all, x.dist ≠ .nan ∧ 0 ≤ x.members ∧ x.members ≤ 2 ^ 30) (h : KInv k0 all st) :
    sp.interLevelKSimI B ds ratio w query st = sp.interLevelKSim B ds ratio w query st := by
  unfold LocalSpace.interLevelKSimI LocalSpace.interLevelKSim
  rw [foldlM_congr (g := fun (st : Int × List (GIdx K)) (g : Group K × ℕ) =>
    kSimStepI B sp.length (Group.distance ds ratio w query g.1) g.2 g.1.count st)]
  · rw [R.len]
    refine interLevelI_list (E := E) hB hk hk' ℓ (Group.distance ds ratio w query) sp.groups (ABS ℓ) 0 all st R.num ?_ hN h
    intro i g a hg ha
    have hd := hD _ (R.reps a (List.mem_of_getElem? ha))
    have hle := subAt_length_le H hn (R.mems a (List.mem_of_getElem? ha)) (R.nodup_mem (List.mem_of_getElem? ha))
    refine ⟨(R.grp i g a hg ha).count, by omega, ?_, hd.2.2.1.ne_nan⟩
    intro d
    unfold Group.distance
    rw [R.centroidPts H hg ha]
    exact hd.1 d
  · rintro ⟨g, i⟩ hgi st
    have hg := List.mem_of_getElem? (List.mem_zipIdx_iff_getElem?.1 hgi)
    rw [distanceI_eq H hI R ratio w query hg]

variable {dom : ℕ → Prop} [DecidablePred dom] {gs : GSpace K} {SP : ℕ → LocalSpace K} {ABS : ℕ → List AG}

/-- The places of the lengths of a space. -/
theorem Spaces.places (S : Spaces ds rows dom gs SP ABS) (H : Holds ds rows)
    (hpos : rows ≠ [] → ∀ ℓ, dom ℓ → 1 ≤ ℓ) {ℓ n : ℕ} (hd : dom ℓ) (hn : (n : Int) = ds.maxCol - ℓ + 1) :
    ((rows.length * n : ℕ) : Int) ≤ ds.itemCount * ds.maxCol := by
  rw [H.count]
  by_cases h0 : rows = []
  · subst h0; simp
  · have h1 : (n : Int) ≤ ds.maxCol := by have := hpos h0 ℓ hd; omega
    have h2 : (rows.length : Int) * n ≤ rows.length * ds.maxCol := Int.mul_le_mul_of_nonneg_left h1 (by omega)
    push_cast
    exact h2

theorem allGroups_sizes (S : Spaces ds rows dom gs SP ABS) (H : Holds ds rows)
    (hpos : rows ≠ [] → ∀ ℓ, dom ℓ → 1 ≤ ℓ) {order : List ℕ} :
    ∀ x ∈ allGroups dom ABS E order, 0 ≤ x.members ∧ x.members ≤ ds.itemCount * ds.maxCol := by
  intro x hx
  obtain ⟨ℓ, hℓ, hd, j, a, ha, rfl⟩ := mem_allGroups.1 hx
  obtain ⟨n, hn, R⟩ := S.rep ℓ hd
  have hle := subAt_length_le H hn (R.mems a (List.mem_of_getElem? ha)) (R.nodup_mem (List.mem_of_getElem? ha))
  have := S.places H hpos hd hn
  simp only
  omega

theorem kLoopI_eq {B : Algos (GIdx K)} (hB : B.Lawful GIdx.lt) {k0 : ℕ} (hk : 0 < k0) (hk' : k0 < 2 ^ 31)
    (S : Spaces ds rows dom gs SP ABS)
    (H : Holds ds rows) (hI : Fits32 ds) (harea : ds.itemCount * ds.maxCol ≤ 2 ^ 30) (hpos : rows ≠ [] → ∀ ℓ, dom ℓ → 1 ≤ ℓ)
    (order : List ℕ) (hl : ∀ ℓ ∈ order, (ℓ : Int) ≤ ds.maxCol)
    (hD : ∀ ℓ ∈ order, dom ℓ → DistAt rows ratio w query E D ℓ) :
    (order.map (Nat.cast : ℕ → Int)).foldlM (GSpace.kStepI B ds ratio w query gs) ((k0 : Int), []) =
      (order.map (Nat.cast : ℕ → Int)).foldlM (GSpace.kStep B ds ratio w query gs) ((k0 : Int), []) := by
  have key : ∀ (todo done : List ℕ) st, done ++ todo = order → KInv k0 (allGroups dom ABS E done) st →
      (todo.map (Nat.cast : ℕ → Int)).foldlM (GSpace.kStepI B ds ratio w query gs) st =
        (todo.map (Nat.cast : ℕ → Int)).foldlM (GSpace.kStep B ds ratio w query gs) st := by
    intro todo
    induction todo with
    | nil => intros; rfl
    | cons v vs ih =>
      intro done st e h
      have hNall : ∀ x ∈ allGroups dom ABS E done, x.dist ≠ .nan ∧ 0 ≤ x.members ∧ x.members ≤ 2 ^ 30 := by
        intro x hx
        have h1 := allGroups_ne_nan S (fun ℓ hℓ hd => hD ℓ (by rw [← e]; simp [hℓ]) hd) x hx
        have h2 := allGroups_sizes S H hpos x hx
        exact ⟨h1, h2.1, by omega⟩
      have : ∃ st', GSpace.kStep B ds ratio w query gs st v = .ok st' ∧
          GSpace.kStepI B ds ratio w query gs st v = .ok st' ∧ KInv k0 (allGroups dom ABS E (done ++ [v])) st' := by
        unfold GSpace.kStep GSpace.kStepI
        by_cases hd : dom v
        · rw [S.at_dom hd]
          obtain ⟨n, hn, R⟩ := S.rep v hd
          have e1 : allGroups dom ABS E (done ++ [v]) = allGroups dom ABS E done ++ groupsAt ABS E v := by
            unfold allGroups
            rw [List.filter_append, List.flatMap_append]
            simp [hd]
          rw [e1]
          have hDv := hD v (by rw [← e]; simp) hd
          obtain ⟨st', e', h'⟩ := R.interLevelKSim hB hk H hDv (fun x hx => (hNall x hx).1) h
          have hpl := S.places H hpos hd hn
          have e2 := interLevelKSimI_eq hB hk hk' R H hI hn (by omega) hDv hNall h
          exact ⟨st', e', e2.trans e', h'⟩
        · rw [S.at_off (hl v (by rw [← e]; simp)) hd]
          refine ⟨st, rfl, rfl, ?_⟩
          have e1 : allGroups dom ABS E (done ++ [v]) = allGroups dom ABS E done := by
            unfold allGroups
            rw [List.filter_append, List.flatMap_append]
            simp [hd]
          rw [e1]; exact h
      obtain ⟨st', e', e2, h'⟩ := this
      rw [List.map_cons, List.foldlM_cons, List.foldlM_cons, e', e2]
      exact ih (done ++ [v]) st' (by rw [← e]; simp) h'
  exact key order [] _ rfl (Or.inl ⟨rfl, by simp [allGroups, memSum], by simpa using hk⟩)

/-- The answer and the counter of `getKBestMatches`: the farthest group collected has `sz` members. -/
theorem kSearchI_ok {A : Algos (Cand K)} (hA : SortsApart A) {B : Algos (GIdx K)} (hB : B.Lawful GIdx.lt) {k0 : ℕ}
    (hk : 0 < k0) (hk' : k0 < 2 ^ 31) (S : Spaces ds rows dom gs SP ABS) (H : Holds ds rows) (hI : Fits32 ds)
    (harea : ds.itemCount * ds.maxCol ≤ 2 ^ 30) (hpos : rows ≠ [] → ∀ ℓ, dom ℓ → 1 ≤ ℓ)
    (hw : gs.warped = some w) (hth : gs.threshold.isSome) (order : List ℕ)
    (ho : generateTraverseOrder ratio query.length ((gs.spaces.length : Int) - 1) = .ok (order.map Nat.cast))
    (hoI : generateTraverseOrderI ratio query.length ((gs.spaces.length : Int) - 1) = .ok (order.map Nat.cast))
    (hl : ∀ ℓ ∈ order, 1 ≤ ℓ ∧ (ℓ : Int) ≤ ds.maxCol) (hD : ∀ ℓ ∈ order, dom ℓ → DistAt rows ratio w query E D ℓ)
    (hne : ∀ x ∈ allGroups dom ABS E order, 0 < x.members)
    (hS : Separated ((allGroups dom ABS E order).flatMap (candsOf ds ABS D)))
    {res : List (Cand K)} (h : gs.getKBestMatches A B ds ratio query k0 = .ok res) :
    ∃ sz : ℕ, (sz : Int) ≤ ds.itemCount * ds.maxCol ∧ (sz = 0 ↔ allGroups dom ABS E order = []) ∧
      (sz ≠ 0 → ∃ x ∈ allGroups dom ABS E order, x.members = sz) ∧
      ∀ extra : Int, -2 ^ 31 ≤ extra → extra < 2 ^ 31 →
        gs.getKBestMatchesI A B ds ratio query k0 extra =
          if extra + sz < 2 ^ 31 ∧ -2 ^ 31 ≤ extra + sz - (if sz = 0 then 0 else max (k0 - memSum (allGroups dom ABS E order)) 0)
          then .ok (res, extra + sz - (if sz = 0 then 0 else max (k0 - memSum (allGroups dom ABS E order)) 0))
          else .error (.ub "int overflow") := by
  obtain ⟨st, e, hinv⟩ := kInv_loop (ratio := ratio) (w := w) (query := query) hB hk S H order (fun ℓ h => (hl ℓ h).2) hD
  have eI := kLoopI_eq (ratio := ratio) (w := w) (query := query) hB hk hk' S H hI harea hpos order (fun ℓ h => (hl ℓ h).2) hD
  rw [e] at eI
  have hsum0 : 0 ≤ memSum (allGroups dom ABS E order) := by
    unfold memSum
    apply List.sum_nonneg
    intro x hx
    obtain ⟨z, hz, rfl⟩ := List.mem_map.1 hx
    exact (hne z hz).le
  have hsubAt : ∀ ℓ, dom ℓ → ∀ (j : ℕ) (a : AG), (ABS ℓ)[j]? = some a → ∀ c ∈ a.mem, SubAt rows ℓ c := by
    intro ℓ hd j a ha c hc
    obtain ⟨n, -, R⟩ := S.rep ℓ hd
    exact R.mems a (List.mem_of_getElem? ha) c hc
  obtain ⟨k, best⟩ := st
  unfold GSpace.getKBestMatches at h
  rw [hw] at h
  simp only [bind, Except.bind, ho, e] at h
  cases best with
  | nil =>
    simp only at h
    cases h
    have hall : allGroups dom ABS E order = [] := by
      rcases hinv with ⟨h1, -, -⟩ | F
      · exact h1.symm
      · obtain ⟨t, l, h, -⟩ := F.top
        cases h
    refine ⟨0, ?_, by simp [hall], by simp, ?_⟩
    · rw [Nat.cast_zero]; exact mul_nonneg (by omega) hI.nonneg
    · intro extra he1 he2
      unfold GSpace.getKBestMatchesI
      rw [hw]
      simp only [bind, Except.bind, hoI, eI]
      rw [if_pos (by simp; omega)]
      simp [pure, Except.pure]
  | cons t l =>
    simp only at h
    have hmem : ∀ x ∈ t :: l, x ∈ allGroups dom ABS E order := by
      intro x hx
      rcases hinv with ⟨h1, -, -⟩ | F
      · simp only at h1; rw [← h1]; exact hx
      · obtain ⟨rest, hp, -⟩ := F.left
        exact hp.mem_iff.1 (List.mem_append.2 (Or.inl hx))
    have htop := hmem t (by simp)
    obtain ⟨ℓ, hℓ, hd, j, a, ha, ht⟩ := mem_allGroups.1 htop
    obtain ⟨n, hn, R⟩ := S.rep ℓ hd
    have hpl := S.places H hpos hd hn
    obtain ⟨g, hg, eg⟩ := groupAt_ok S hd ha a.mem.length (E ℓ a.rep)
    have hmt : t.members = a.mem.length := by rw [ht]
    have hsz := allGroups_sizes (E := E) S H hpos t htop
    have htpos := hne t htop
    have hkb : 0 < k + t.members ∧ k + t.members < 2 ^ 31 ∧
        max (k + t.members - t.members) 0 = max (k0 - memSum (allGroups dom ABS E order)) 0 := by
      rcases hinv with ⟨h1, h2, h3⟩ | F
      · simp only at h1 h2 h3
        have : 0 ≤ memSum l := by
          unfold memSum
          apply List.sum_nonneg
          intro x hx
          obtain ⟨z, hz, rfl⟩ := List.mem_map.1 hx
          exact (hne z (hmem z (by simp [hz]))).le
        have h4 : memSum (allGroups dom ABS E order) = t.members + memSum l := by rw [← h1, memSum_cons]
        omega
      · obtain ⟨t', l', h, h'⟩ := F.top
        simp only [List.cons.injEq] at h h'
        rw [← h.1] at h'
        have hn0 := F.nonpos
        have hb := F.budget
        obtain ⟨rest, hp, -⟩ := F.left
        simp only at hn0 hb hp
        have h4 := memSum_perm hp
        rw [memSum_append] at h4
        have h5 : 0 ≤ memSum rest := by
          unfold memSum
          apply List.sum_nonneg
          intro x hx
          obtain ⟨z, hz, rfl⟩ := List.mem_map.1 hx
          exact (hne z (hp.mem_iff.1 (List.mem_append.2 (Or.inr hz)))).le
        omega
    obtain ⟨kk, hkk⟩ := Int.eq_ofNat_of_zero_le (by omega : 0 ≤ k + t.members)
    have egt : gs.groupAt t = .ok (SP ℓ, g) := by rw [ht]; exact eg
    rw [egt] at h
    simp only at h
    cases hi : (SP ℓ).intraGroupKSim A ds ratio w query (k + t.members) g with
    | error err => rw [hi] at h; cases h
    | ok intra =>
      rw [hi] at h
      simp only at h
      have hothers : l.mapM (gs.takeAllI ds) = l.mapM (gs.takeAll ds) := by
        apply mapM_congr
        intro x hx
        obtain ⟨ℓ', hℓ', hd', j', a', ha', rfl⟩ := mem_allGroups.1 (hmem x (by simp [hx]))
        obtain ⟨n', hn', R'⟩ := S.rep ℓ' hd'
        have hpl' := S.places H hpos hd' hn'
        obtain ⟨g', hg', eg'⟩ := groupAt_ok S hd' ha' a'.mem.length (E ℓ' a'.rep)
        unfold GSpace.takeAllI GSpace.takeAll
        rw [eg']
        simp only [bind, Except.bind]
        rw [getMembersI_eq R' H hI hn' (by omega) hg' ha']
      have hviews : ∀ others, l.mapM (gs.takeAll ds) = .ok others → ∀ v ∈ others.flatten, 0 ≤ v.start ∧ v.stop < 2 ^ 31 := by
        intro others ho v hv
        rw [mapM_ok (g := fun x => (candsOf ds ABS D x).map Cand.view)] at ho
        · cases ho
          simp only [List.mem_flatten, List.mem_map] at hv
          obtain ⟨_, ⟨x, hx, rfl⟩, hv⟩ := hv
          obtain ⟨ℓ', hℓ', hd', j', a', ha', rfl⟩ := mem_allGroups.1 (hmem x (by simp [hx]))
          rw [candsOf_eq ha', List.map_map] at hv
          obtain ⟨c, hc, rfl⟩ := List.mem_map.1 hv
          exact (hsubAt ℓ' hd' j' a' ha' c hc).viewAt_bounds H hI
        · intro x hx
          obtain ⟨ℓ', hℓ', hd', j', a', ha', rfl⟩ := mem_allGroups.1 (hmem x (by simp [hx]))
          obtain ⟨n', hn', R'⟩ := S.rep ℓ' hd'
          obtain ⟨g', hg', eg'⟩ := groupAt_ok S hd' ha' a'.mem.length (E ℓ' a'.rep)
          unfold GSpace.takeAll
          rw [eg']
          simp only [bind, Except.bind]
          rw [R'.getMembers (hl ℓ' hℓ').1 hn' H hg' ha', candsOf_eq ha', List.map_map]
          simp only [Option.isNone_eq_false_iff.2 hth, Bool.false_and, Bool.false_eq_true, if_false]
          rfl
      have hcand : candsOf ds ABS D t = a.mem.map (candAt ds D ℓ) := by rw [ht, candsOf_eq ha]
      have hintra : ∀ v ∈ intra.map Cand.view, 0 ≤ v.start ∧ v.stop < 2 ^ 31 := by
        obtain ⟨intra', drop, ei, hp, -, -⟩ := R.intraGroupKSim hA (hl ℓ hℓ).1 hn H hg ha (hD ℓ hℓ hd) (k := kk) (by omega)
          (hS.mono (by
            intro c hc
            rw [List.mem_flatMap]
            exact ⟨t, htop, by rw [hcand]; exact hc⟩))
        rw [hkk] at hi
        rw [hi] at ei
        cases ei
        intro v hv
        obtain ⟨c, hc, rfl⟩ := List.mem_map.1 hv
        obtain ⟨c', hc', rfl⟩ := List.mem_map.1 (hp.mem_iff.1 (List.mem_append.2 (Or.inl hc)))
        exact (hsubAt ℓ hd j a ha c' hc').viewAt_bounds H hI
      refine ⟨a.mem.length, by omega, ⟨fun h0 => by omega, fun h0 => by rw [h0] at htop; simp at htop⟩, fun _ => ⟨t, htop, hmt⟩, ?_⟩
      intro extra he1 he2
      have hint := intraI_eq R (hl ℓ hℓ).1 H hI hn (by omega) hg ha (by omega) hi he1 he2
      have hif : (if a.mem.length = 0 then (0 : Int) else max (k0 - memSum (allGroups dom ABS E order)) 0) =
          max (k + t.members - a.mem.length) 0 := by
        rw [if_neg (by omega), ← hkb.2.2, hmt]
      rw [hif]
      unfold GSpace.getKBestMatchesI
      rw [hw]
      simp only [bind, Except.bind, hoI, eI]
      unfold GSpace.takeTopI
      rw [egt]
      simp only [bind, Except.bind]
      rw [int32_ok (by omega) hkb.2.1]
      simp only
      rw [hint]
      by_cases hc : extra + a.mem.length < 2 ^ 31 ∧ -2 ^ 31 ≤ extra + a.mem.length - max (k + t.members - a.mem.length) 0
      · rw [if_pos hc, if_pos hc]
        simp only
        rw [hothers]
        cases hoth : l.mapM (gs.takeAll ds) with
        | error err => rw [hoth] at h; cases h
        | ok others =>
          rw [hoth] at h
          simp only at h ⊢
          have hm : (intra.map Cand.view ++ others.flatten).mapM (fun v => do
              let pts ← ds.pointsI v
              let d ← Arith.eval ratio w query pts .inf
              (.ok ⟨v, d⟩ : Res (Cand K))) = .ok res := by
            rw [← h]
            apply mapM_congr
            intro v hv
            have hb : 0 ≤ v.start ∧ v.stop < 2 ^ 31 := by
              rcases List.mem_append.1 hv with h' | h'
              · exact hintra v h'
              · exact hviews others hoth v h'
            rw [pointsI_eq hb.1 hb.2]
            rfl
          simp only [bind, Except.bind] at hm
          rw [hm]
      · rw [if_neg hc, if_neg hc]

theorem Spaces.at_some (S : Spaces ds rows dom gs SP ABS) {i : Int} {sp : LocalSpace K} (h : gs.spaceAt i = .ok (some sp)) :
    ∃ ℓ, dom ℓ ∧ sp = SP ℓ := by
  unfold GSpace.spaceAt at h
  split at h
  · cases h
  · split at h
    · rename_i s hs
      cases h
      have hlt := (List.getElem?_eq_some_iff.1 hs).1
      have hsz := S.size
      by_cases hd : dom i.toNat
      · have := S.on _ hd
        rw [hs] at this
        cases this
        exact ⟨_, hd, rfl⟩
      · have := S.off i.toNat (by omega) hd
        rw [hs] at this
        cases this
    · cases h

theorem bestStepI_eq (S : Spaces ds rows dom gs SP ABS) (H : Holds ds rows) (hI : Fits32 ds)
    (st : Dbl K × Option (LocalSpace K × ℕ)) (i : Int) :
    GSpace.bestStepI ds ratio w query gs st i = GSpace.bestStep ds ratio w query gs st i := by
  unfold GSpace.bestStepI GSpace.bestStep
  cases hs : gs.spaceAt i with
  | error e => rfl
  | ok o =>
    cases o with
    | none => rfl
    | some sp =>
      obtain ⟨ℓ, hd, rfl⟩ := S.at_some hs
      obtain ⟨n, hn, R⟩ := S.rep ℓ hd
      simp only [bind, Except.bind]
      unfold LocalSpace.getBestGroupI LocalSpace.getBestGroup
      rw [bestLoopI_congr 0 (st.1, none) (fun g hg => distanceI_eq H hI R ratio w query hg)]

/-- `getBestMatch` needs no counter: it is the unbounded one. -/
theorem bestMatchI_eq (S : Spaces ds rows dom gs SP ABS) (H : Holds ds rows) (hI : Fits32 ds)
    (hpos : rows ≠ [] → ∀ ℓ, dom ℓ → 1 ≤ ℓ)
    (ho : 2 ≤ query.length → generateTraverseOrderI ratio query.length ((gs.spaces.length : Int) - 1) =
      generateTraverseOrder ratio query.length ((gs.spaces.length : Int) - 1)) :
    gs.getBestMatchI ds ratio query = gs.getBestMatch ds ratio query := by
  unfold GSpace.getBestMatchI GSpace.getBestMatch
  by_cases hq : query.length ≤ 1
  · rw [if_pos hq, if_pos hq]
  · rw [if_neg hq, if_neg hq]
    cases hw : gs.warped with
    | none => rfl
    | some w =>
      simp only
      rw [ho (by omega)]
      cases hord : generateTraverseOrder ratio query.length ((gs.spaces.length : Int) - 1) with
      | error e => rfl
      | ok order =>
        simp only [bind, Except.bind]
        rw [foldlM_congr (g := GSpace.bestStep ds ratio w query gs) _ _ (fun i _ st => bestStepI_eq S H hI st i)]
        cases hst : order.foldlM (GSpace.bestStep ds ratio w query gs) (.inf, none) with
        | error e => rfl
        | ok st =>
          have hinv : ∀ x, st.2 = some x → ∃ ℓ, dom ℓ ∧ x.1 = SP ℓ := by
            refine foldlM_inv (fun (st : Dbl K × Option (LocalSpace K × ℕ)) => ∀ x, st.2 = some x → ∃ ℓ, dom ℓ ∧ x.1 = SP ℓ)
              (GSpace.bestStep ds ratio w query gs) order _ st (by simp) ?_ hst
            intro i _ s s' hs e
            unfold GSpace.bestStep at e
            cases hsp : gs.spaceAt i with
            | error err => rw [hsp] at e; cases e
            | ok o =>
              rw [hsp] at e
              cases o with
              | none => cases e; exact hs
              | some sp =>
                simp only [bind, Except.bind] at e
                split at e
                · cases e
                · cases e
                  split
                  · intro x hx
                    simp only [Option.map_eq_some_iff] at hx
                    obtain ⟨g, -, rfl⟩ := hx
                    exact S.at_some hsp
                  · exact hs
          obtain ⟨d, o⟩ := st
          cases o with
          | none => rfl
          | some x =>
            obtain ⟨sp, g⟩ := x
            obtain ⟨ℓ, hd, e⟩ := hinv (sp, g) rfl
            simp only at e
            subst e
            obtain ⟨n, hn, R⟩ := S.rep ℓ hd
            simp only
            cases hg : (SP ℓ).groups[g]? with
            | none => rfl
            | some grp =>
              have hlt : g < (ABS ℓ).length := by rw [← R.num]; exact (List.getElem?_eq_some_iff.1 hg).1
              have hpl := S.places H hpos hd hn
              have harea := hI.area
              exact getBestMatchI_eq R H hI hn (by omega) hg (List.getElem?_eq_getElem hlt) ratio w query

end

/-! ### Objects that are ready -/

section
variable [Arith K] [PairwiseEvals K] {PE PD : List K → Dbl K → Prop} (z : GSet K) (rows : List (List K)) [BandOps] (ratio : ℚ)
    (hr : 0 ≤ ratio) (m : Metric) (t : Dbl K) (whole : Bool)
    (hz : Ready (rows.map (·.map fin)) (metricName m) t whole z)
    (A : Algos (Cand K)) (hA : SortsApart A) (B : Algos (GIdx K)) (hB : B.Lawful GIdx.lt)
    (hI : Fits32 z.ds) (harea : z.ds.itemCount * z.ds.maxCol ≤ 2 ^ 30) (hcols : z.ds.maxCol ≤ 2 ^ 30)
    (hb : ⌊BandOps.mul ratio z.ds.maxCol.toNat⌋ < 2 ^ 31)
    (q : List K) (hdists : Dists ratio m q PE PD) (hq : 1 ≤ q.length) (hle : (q.length : Int) ≤ z.ds.maxCol) (hwide : 2 ≤ z.ds.maxCol)
    (hW : SpacedFor PD rows)

include hr hz hA hB hI harea hcols hb hdists hq hle hwide hW

/-- The counter after a k-best search. -/
theorem counter_ok (h : ℕ) (hh : 1 ≤ h) (hh' : h < 2 ^ 31) :
    ∃ gs M d, z.groups = some gs ∧ (M.length : Int) ≤ z.ds.itemCount * z.ds.maxCol ∧
      (M = [] ↔ available rows z.ds.maxCol whole ratio q.length = 0) ∧
      (M ≠ [] → GroupFor PE z.ds gs rows whole ratio q.length M d) ∧
      ∀ k : ℕ, k ≤ h → ∃ res, z.getKBestMatches A B ratio (q.map fin) k h = .ok res ∧
        ∀ extra : Int, -2 ^ 31 ≤ extra → extra < 2 ^ 31 →
          z.getKBestMatchesI A B ratio (q.map fin) k h extra =
            if extra + M.length < 2 ^ 31 ∧ -2 ^ 31 ≤ extra + M.length -
                (if M = [] then 0 else h - available rows z.ds.maxCol whole ratio q.length : ℕ)
            then .ok (res, extra + M.length - (if M = [] then 0 else h - available rows z.ds.maxCol whole ratio q.length : ℕ))
            else .error (.ub "int overflow") := by
  obtain ⟨H, hmax, hpos, m', gs, SP, ABS, hname, hgs, U⟩ := hz.usable
  obtain rfl := metricName_inj hname
  have S := U.spaces
  obtain ⟨order, ho, hrange, hmo, kA⟩ := kAll_order H ratio hr m t whole U q hdists hq hle hwide
  have hS := kA.separated hwide hW
  have htwo : ∀ ℓ, InRange z.ds.maxCol whole ℓ → 2 ≤ ℓ := by
    rintro ℓ ⟨-, h⟩
    split at h
    · omega
    · exact h
  obtain ⟨res, e, -⟩ := kA.found A hA B hB h hh hS
  have hsz : (gs.spaces.length : Int) - 1 = z.ds.maxCol := by have := S.size; omega
  have hN : ((z.ds.maxCol.toNat : ℕ) : Int) = z.ds.maxCol := by omega
  have hoI : generateTraverseOrderI ratio q.length z.ds.maxCol = .ok (order.map Nat.cast) := by
    have := traverseI_eq hr (N := z.ds.maxCol.toNat) (by omega) hb (q := q.length) (by omega) (by omega)
    rw [hN] at this
    rw [this]; exact ho
  have hne : ∀ x ∈ allGroups (InRange z.ds.maxCol whole) ABS (distTo PE rows) order, 0 < x.members := by
    intro x hx
    have h1 := kA.len x hx
    have h2 := List.length_pos_iff.2 (kA.ne x hx)
    omega
  obtain ⟨sz, h1, h2, h3, h4⟩ := kSearchI_ok hA hB hh hh' S H hI harea hpos U.warped (by rw [U.threshold]; rfl) order
    (by rw [List.length_map, hsz]; exact ho) (by rw [List.length_map, hsz]; exact hoI)
    (fun ℓ hℓ => by have := hrange ℓ hℓ; exact ⟨by omega, this.2⟩)
    (fun ℓ hℓ hd => (hdists.distAt rows (htwo ℓ hd) (fun _ => ((hmo ℓ (htwo ℓ hd)).1 hℓ).2)).1) hne hS e
  have hsum := kA.sum
  -- the group
  have hM : ∃ M d, M.length = sz ∧ (M ≠ [] → GroupFor PE z.ds gs rows whole ratio q.length M d) := by
    by_cases h0 : sz = 0
    · exact ⟨[], .inf, by simp [h0], by simp⟩
    · obtain ⟨x, hx, hxs⟩ := h3 h0
      refine ⟨_, _, ?_, fun _ => (kA.grp _ _).2 ⟨x, hx, rfl, rfl⟩⟩
      have := kA.len x hx
      rw [List.length_map]
      omega
  obtain ⟨M, d, hMl, hMg⟩ := hM
  have hM0 : M = [] ↔ sz = 0 := by rw [← hMl, List.length_eq_zero_iff]
  refine ⟨gs, M, d, hgs, by rw [hMl]; exact h1, ?_, hMg, ?_⟩
  · rw [hM0, h2]
    constructor
    · intro h0; rw [h0, memSum_nil] at hsum; omega
    · intro h0
      by_contra hne0
      obtain ⟨x, hx⟩ := List.exists_mem_of_ne_nil _ hne0
      have hle' : x.members ≤ memSum (allGroups (InRange z.ds.maxCol whole) ABS (distTo PE rows) order) := by
        unfold memSum
        apply List.single_le_sum
        · intro y hy
          obtain ⟨y', hy', rfl⟩ := List.mem_map.1 hy
          exact (hne y' hy').le
        · exact List.mem_map_of_mem hx
      have := hne x hx
      omega
  · intro k hkh
    have hunch : z.getKBestMatches A B ratio (q.map fin) k h =
        .ok (((A.sort res).map GSet.Entry.cand).take k ++ List.replicate (k - ((A.sort res).map GSet.Entry.cand).length) .pad) := by
      unfold GSet.getKBestMatches
      simp only [hgs]
      rw [if_neg (by omega), e]
      simp only [bind, Except.bind]
      rw [if_neg (by omega), Int.toNat_natCast]
    refine ⟨_, hunch, ?_⟩
    intro extra he1 he2
    have h5 := h4 extra he1 he2
    have hif : ((if M = [] then 0 else h - available rows z.ds.maxCol whole ratio q.length : ℕ) : Int) =
        if sz = 0 then 0 else max ((h : Int) - memSum (allGroups (InRange z.ds.maxCol whole) ABS (distTo PE rows) order)) 0 := by
      by_cases h0 : sz = 0
      · rw [if_pos h0, if_pos (hM0.2 h0)]; rfl
      · rw [if_neg h0, if_neg (fun h => h0 (hM0.1 h)), hsum]
        omega
    rw [hif, hMl]
    unfold GSet.getKBestMatchesI
    simp only [hgs]
    rw [if_neg (by omega), h5]
    generalize (if sz = 0 then (0 : Int) else _) = over
    by_cases hc : extra + (sz : Int) < 2 ^ 31 ∧ -2 ^ 31 ≤ extra + (sz : Int) - over
    · rw [if_pos hc, if_pos hc]
      simp only [bind, Except.bind]
      rw [if_neg (by omega), Int.toNat_natCast]
    · rw [if_neg hc, if_neg hc]
      rfl

end

section
variable [Arith K] [PairwiseEvals K] [BandOps]

/-- A search that succeeds adds to the counter what its group has less what is left over. -/
theorem session_repeat {A : Algos (Cand K)} {B : Algos (GIdx K)} {ratio : ℚ} {z : GSet K} {query : List (Dbl K)} {k h : Int} {s : ℕ}
    {res : List (GSet.Entry K)}
    (hs : ∀ extra : Int, -2 ^ 31 ≤ extra → extra < 2 ^ 31 → z.getKBestMatchesI A B ratio query k h extra =
      if extra + s < 2 ^ 31 then .ok (res, extra + s) else .error (.ub "int overflow")) :
    ∀ (n : ℕ) (extra : Int), -2 ^ 31 ≤ extra → extra < 2 ^ 31 →
      z.sessionI A B ratio (List.replicate n (query, k, h)) extra =
        if extra + n * s < 2 ^ 31 then .ok (List.replicate n res, extra + n * s) else .error (.ub "int overflow") := by
  intro n
  induction n with
  | zero =>
    intro extra h1 h2
    rw [if_pos (by simp; omega)]
    simp [GSet.sessionI]
  | succ n ih =>
    intro extra h1 h2
    have e1 : extra + ((n + 1 : ℕ) : Int) * s = extra + s + n * s := by push_cast; ring
    have hn0 : (0 : Int) ≤ n * s := by positivity
    rw [List.replicate_succ, e1]
    unfold GSet.sessionI
    simp only [hs extra h1 h2]
    by_cases h3 : extra + s < 2 ^ 31
    · rw [if_pos h3]
      simp only [bind, Except.bind]
      rw [ih (extra + s) (by omega) h3]
      by_cases h4 : extra + s + n * s < 2 ^ 31
      · rw [if_pos h4, if_pos h4]
        simp only
        rw [List.replicate_succ]
      · rw [if_neg h4, if_neg h4]
    · rw [if_neg h3, if_neg (by omega)]
      rfl

end

end Genex
