import Verif.Spec.MachinePaa
import Verif.Lemmas.Paa
import Verif.Lemmas.MachineBrute

/-! Piecewise aggregate approximation on the machine (for C101). -/

set_option linter.unusedSectionVars false

namespace Genex

open Spec Dbl

variable {K : Type} [Field K] [LinearOrder K] (r : Dbl K → Dbl K)

/-- The computed sum of some values. -/
def sumBy (l : List (Dbl K)) : Dbl K := l.foldl (fun s x => r (s + x)) 0

/-- The computed mean of block `j`. -/
def blockBy (b : ℕ) (x : List (Dbl K)) (j : ℕ) : Dbl K := meanBy r ((x.drop (j * b)).take b)

/-- All computed block means. -/
def paaBy (b : ℕ) (x : List (Dbl K)) : List (Dbl K) := (List.range ((x.length - 1) / b + 1)).map (blockBy r b x)

theorem take_succ_sumBy (l : List (Dbl K)) (i : ℕ) (y : Dbl K) (h : l[i]? = some y) :
    sumBy r (l.take (i + 1)) = r (sumBy r (l.take i) + y) := by
  rw [List.take_add_one, h]
  simp [sumBy]

theorem paaLoopI_eq (b : Int) {n : ℕ} (hn : n < 2 ^ 31) : ∀ (xs : List (Dbl K)) (i : ℕ) (sum : Dbl K) (count : ℕ) (dest : List (Dbl K)),
    i + xs.length ≤ n → count ≤ i → paaLoopI r b n xs i sum count dest = paaLoopW r b n xs i sum count dest
  | [], _, _, _, _, _, _ => rfl
  | x :: xs, i, sum, count, dest, h, hc => by
    simp only [List.length_cons] at h
    rw [paaLoopI, paaLoopW, int32_bind _ (by omega) (by omega), int32_bind _ (by omega) (by omega), int32_bind _ (by omega) (by omega),
      show ((i : Int) + 1).toNat = i + 1 by omega, show ((count : Int) + 1).toNat = count + 1 by omega]
    split
    · congr 1
      funext d
      exact paaLoopI_eq b hn xs (i + 1) 0 0 d (by omega) (by omega)
    · exact paaLoopI_eq b hn xs (i + 1) _ (count + 1) dest (by omega) (by omega)

/-- No `int` overflows in `tsPAA`. -/
theorem tsPAAI_eq {x : List (Dbl K)} (hx : x.length < 2 ^ 31) (b : ℕ) : tsPAAI r x b = tsPAAW r x b := by
  unfold tsPAAI tsPAAW
  rw [int32_bind _ (by omega) (by omega), int32_bind _ (by omega) (by omega)]
  by_cases h0 : (b : Int) = 0
  · rw [if_pos h0, if_pos h0]
  rw [if_neg h0, if_neg h0]
  have h1 : -1 ≤ ((x.length : Int) - 1).tdiv b ∧ ((x.length : Int) - 1).tdiv b ≤ x.length ∧ (x = [] ∨ ((x.length : Int) - 1).tdiv b < x.length) := by
    cases x with
    | nil =>
      simp only [List.length_nil, Nat.cast_zero, zero_sub, Int.neg_tdiv]
      have : (1 : Int).tdiv b = ((1 / b : ℕ) : Int) := by rw [Int.tdiv_eq_ediv_of_nonneg (by omega)]; norm_cast
      have h2 : 1 / b ≤ 1 := Nat.div_le_self 1 b
      rw [this]
      generalize 1 / b = q at *
      exact ⟨by omega, by omega, by simp⟩
    | cons y ys =>
      simp only [List.length_cons, Nat.cast_add, Nat.cast_one, add_sub_cancel_right]
      have : (ys.length : Int).tdiv b = ((ys.length / b : ℕ) : Int) := by rw [Int.tdiv_eq_ediv_of_nonneg (by omega)]; norm_cast
      have h2 : ys.length / b ≤ ys.length := Nat.div_le_self _ b
      rw [this]
      generalize ys.length / b = q at *
      exact ⟨by omega, by omega, Or.inr (by omega)⟩
  have h3 : ((x.length : Int) - 1).tdiv b + 1 < 2 ^ 31 := by
    obtain ⟨h1, h2, rfl | h3⟩ := h1
    · simp only [List.length_nil] at h2 ⊢; omega
    · omega
  rw [int32_bind _ (by omega) (by omega), int32_bind _ (by omega) h3]
  simp only
  split
  · rfl
  · exact paaLoopI_eq r b hx x 0 0 0 _ (by omega) (by omega)

theorem paaLoopW_ok {b : ℕ} (hb : 1 ≤ b) (x : List (Dbl K)) (hx : 1 ≤ x.length) : ∀ (rest : List (Dbl K)) (i : ℕ) (dest : List (Dbl K)),
    x.drop i = rest → i ≤ x.length → i + rest.length = x.length → dest.length = (x.length - 1) / b + 1 →
    (∀ j, j < i / b → dest[j]? = some (blockBy r b x j)) → rest ≠ [] →
    paaLoopW r b x.length rest i (sumBy r ((x.drop (i / b * b)).take (i % b))) (i % b) dest = .ok (paaBy r b x) := by
  intro rest
  induction rest with
  | nil => intro i dest _ _ _ _ _ h; exact absurd rfl h
  | cons y ys ih =>
    intro i dest hd hi hlen hdl hdone _
    have hib : i / b * b + i % b = i := Nat.div_add_mod' i b
    have hmod : i % b < b := Nat.mod_lt _ (by omega)
    have hin : i < x.length := by simp only [List.length_cons] at hlen; omega
    have hy : x[i]? = some y := by
      have := congrArg (fun l => l[0]?) hd
      simpa using this
    have hsum : r (sumBy r (List.take (i % b) (List.drop (i / b * b) x)) + y) =
        sumBy r (List.take (i % b + 1) (List.drop (i / b * b) x)) := by
      rw [take_succ_sumBy r _ _ y]
      rw [List.getElem?_drop, hib, hy]
    have hdys : x.drop (i + 1) = ys := by
      rw [← List.tail_drop, hd]; rfl
    have hlys : i + 1 + ys.length = x.length := by simp only [List.length_cons] at hlen; omega
    have hdivlt : i / b < dest.length := by
      rw [hdl]
      have := Nat.div_le_div_right (c := b) (show i ≤ x.length - 1 by omega)
      omega
    rw [paaLoopW, hsum]
    by_cases hc : ((i % b : ℕ) : Int) + 1 = b ∨ (i : Int) = (x.length : Int) - 1
    · rw [if_pos hc]
      have htd : (i : Int).tdiv b = ((i / b : ℕ) : Int) := by
        rw [Int.tdiv_eq_ediv_of_nonneg (by omega)]; norm_cast
      have hmean : r (sumBy r (List.take (i % b + 1) (List.drop (i / b * b) x)) / Dbl.ofNat (i % b + 1)) = blockBy r b x (i / b) := by
        unfold blockBy meanBy sumBy
        have hl : (List.drop (i / b * b) x).length = x.length - i / b * b := List.length_drop
        have ht : List.take (i % b + 1) (List.drop (i / b * b) x) = List.take b (List.drop (i / b * b) x) := by
          rcases hc with hc | hc
          · rw [show i % b + 1 = b by omega]
          · rw [List.take_of_length_le (by omega), List.take_of_length_le (by omega)]
        rw [ht, List.length_take, hl]
        rcases hc with hc | hc
        · rw [show min b (x.length - i / b * b) = i % b + 1 by omega]
        · rw [show min b (x.length - i / b * b) = i % b + 1 by omega]
      rw [htd, hmean]
      unfold setPoint
      rw [if_neg (not_or.2 ⟨_root_.not_lt.2 (Int.natCast_nonneg _), _root_.not_le.2 (by exact_mod_cast hdivlt)⟩)]
      simp only [bind, Except.bind, Int.toNat_natCast]
      have hdone' : ∀ j, j < i / b + 1 → (dest.set (i / b) (blockBy r b x (i / b)))[j]? = some (blockBy r b x j) := by
        intro j hj
        rw [List.getElem?_set]
        split
        · rename_i e; subst e; simp [hdivlt]
        · exact hdone j (by omega)
      have hfin : ∀ d : List (Dbl K), d.length = (x.length - 1) / b + 1 →
          (∀ j, j < (x.length - 1) / b + 1 → d[j]? = some (blockBy r b x j)) → d = paaBy r b x := by
        intro d hd hj
        apply List.ext_getElem?
        intro j
        by_cases hlt : j < (x.length - 1) / b + 1
        · rw [hj j hlt, paaBy, List.getElem?_map, List.getElem?_range hlt]; rfl
        · rw [List.getElem?_eq_none (by omega), List.getElem?_eq_none]
          simp only [paaBy, List.length_map, List.length_range]; omega
      cases hys : ys with
      | nil =>
        rw [paaLoopW]
        have : i = x.length - 1 := by rw [hys, List.length_nil] at hlys; omega
        exact congrArg Except.ok (hfin _ (by rw [List.length_set]; exact hdl) (by rw [← this]; exact hdone'))
      | cons z zs =>
        rw [← hys]
        have hne : ys ≠ [] := by rw [hys]; simp
        have hlt : i + 1 < x.length := by rw [hys] at hlys; simp only [List.length_cons] at hlys; omega
        have hcb : i % b + 1 = b := by omega
        have e1 : (i + 1) / b = i / b + 1 := by
          rw [show i + 1 = b * (i / b + 1) by rw [Nat.mul_add, Nat.mul_one, Nat.mul_comm]; omega, Nat.mul_div_cancel_left _ (by omega)]
        have e2 : (i + 1) % b = 0 := by
          rw [show i + 1 = b * (i / b + 1) by rw [Nat.mul_add, Nat.mul_one, Nat.mul_comm]; omega, Nat.mul_mod_right]
        have := ih (i + 1) (dest.set (i / b) (blockBy r b x (i / b))) hdys (by omega) hlys
          (by rw [List.length_set]; exact hdl) (by rw [e1]; exact hdone') hne
        rw [e2, List.take_zero] at this
        exact this
    · rw [if_neg hc]
      have hne : ys ≠ [] := by
        rintro rfl
        simp only [List.length_nil] at hlys
        apply hc; right; omega
      have e1 : (i + 1) / b = i / b := by
        rw [Nat.div_eq_iff (by omega)]
        have := hib
        constructor
        · omega
        · omega
      have e2 : (i + 1) % b = i % b + 1 := by
        have := Nat.div_add_mod' (i + 1) b
        rw [e1] at this; omega
      have := ih (i + 1) dest hdys (by omega) hlys hdl (by rw [e1]; exact hdone) hne
      rw [e1, e2] at this
      exact this

theorem tsPAAW_ok {b : ℕ} (hb : 1 ≤ b) (x : List (Dbl K)) (hx : 1 ≤ x.length) : tsPAAW r x (b : Int) = .ok (paaBy r b x) := by
  unfold tsPAAW
  have htd : ((x.length : Int) - 1).tdiv b = (((x.length - 1) / b : ℕ) : Int) := by
    rw [Int.tdiv_eq_ediv_of_nonneg (by omega)]; push_cast [Nat.cast_sub hx]; rfl
  rw [if_neg (by omega)]
  simp only [htd]
  rw [if_neg (_root_.not_lt.2 (by positivity))]
  have hne : x ≠ [] := by rintro rfl; simp at hx
  have := paaLoopW_ok r hb x hx x 0 (List.replicate ((x.length - 1) / b + 1) 0) rfl (by omega) (by omega)
    (by rw [List.length_replicate]) (by intro j hj; simp at hj) hne
  simp only [Nat.zero_div, Nat.zero_mod, List.take_zero] at this
  exact this

theorem tsPAAI_ok {b : ℕ} (hb : 1 ≤ b) (x : List (Dbl K)) (hx : 1 ≤ x.length) (hx' : x.length < 2 ^ 31) :
    tsPAAI r x (b : Int) = .ok (paaBy r b x) := by
  rw [tsPAAI_eq r hx' b, tsPAAW_ok r hb x hx]

theorem paaBy_length (b : ℕ) (x : List (Dbl K)) : (paaBy r b x).length = (x.length - 1) / b + 1 := by simp [paaBy]

theorem paaBy_getElem? (b : ℕ) (x : List (Dbl K)) (j : ℕ) (h : j < (x.length - 1) / b + 1) :
    (paaBy r b x)[j]? = some (blockBy r b x j) := by
  rw [paaBy, List.getElem?_map, List.getElem?_range h]; rfl

theorem paaBy_isPaa {b : ℕ} (hb : 1 ≤ b) {x : List (Dbl K)} (hx : 1 ≤ x.length) : IsPaaBy r b x (paaBy r b x) := by
  refine ⟨by rw [paaBy_length, ceil_eq hx hb], ?_⟩
  intro i m h
  have hi : i < (x.length - 1) / b + 1 := by
    have := (List.getElem?_eq_some_iff.1 h).1
    rwa [paaBy_length] at this
  rw [paaBy_getElem? r b x i hi] at h
  exact (Option.some.inj h).symm

/-! ### The matrix -/

variable {ds : Dataset K} {rows : List (List (Dbl K))}

theorem Spec.Holds.view_pointsI (H : Holds ds rows) (hI : Fits32 ds) {i s e : ℕ} {x : List (Dbl K)} (hr : rows[i]? = some x)
    (hs : s < e) (he : e ≤ x.length) :
    ds.getTimeSeriesI i s e = .ok (viewOf ds.maxCol (i, s, e)) ∧
      ds.pointsI (viewOf ds.maxCol (i, s, e)) = .ok (slice x s e) := by
  have h1 := H.getTimeSeries hr hs he
  have hb := getTimeSeries_bounds H hI h1
  rw [getTimeSeriesI_eq H hI]
  exact ⟨h1, (pointsI_eq hb.1 hb.2).trans (H.points hr he)⟩

theorem row_small (H : Holds ds rows) (hI : Fits32 ds) {i : ℕ} {x : List (Dbl K)} (hr : rows[i]? = some x) : x.length + 1 < 2 ^ 31 := by
  have := H.fits i x hr
  have := hI.cols
  omega

/-- Row `i` of the matrix for block size `b`. -/
def paaRowBy (L b : ℕ) (x : List (Dbl K)) : List (PaaTs K) :=
  (List.range b).map (fun o => PaaTs.own (paaBy r b (slice x o L)))

theorem genRowI_ok (H : Holds ds rows) (hI : Fits32 ds) {i L b : ℕ} {x : List (Dbl K)} (hr : rows[i]? = some x)
    (hL : L ≤ x.length) (hb : 1 ≤ b) : ∀ (offs : List ℕ) (row : List (PaaTs K)), (∀ o ∈ offs, o < L) →
    Paa.genRowI r ds L b i offs row = (row ++ offs.map (fun o => PaaTs.own (paaBy r b (slice x o L))), .ok ()) := by
  intro offs
  induction offs with
  | nil => intro row _; simp [Paa.genRowI]
  | cons o os ih =>
    intro row h
    have ho : o < L := h o (by simp)
    obtain ⟨h1, h2⟩ := H.view_pointsI hI hr ho hL
    have hl := slice_length x o L hL
    have hsm := row_small H hI hr
    rw [Paa.genRowI, h1]
    simp only [bind, Except.bind, h2, tsPAAI_ok r hb _ (show 1 ≤ (slice x o L).length by omega) (by omega)]
    rw [ih _ (fun o ho => h o (by simp [ho]))]
    simp

theorem genRowI_short (H : Holds ds rows) (hI : Fits32 ds) {i L b : ℕ} {x : List (Dbl K)} (hr : rows[i]? = some x)
    (hL : x.length < L) (hb : 1 ≤ b) : ∃ row msg, Paa.genRowI r ds L b i (List.range b) [] = (row, .error (.genex msg)) := by
  obtain ⟨c, rfl⟩ : ∃ c, b = c + 1 := ⟨b - 1, by omega⟩
  rw [List.range_succ_eq_map, Paa.genRowI]
  have hlt := H.lt hr
  have : ds.getTimeSeriesI i 0 L = .error (.genex "Invalid starting or ending position of a time series") := by
    rw [getTimeSeriesI_eq H hI]
    unfold Dataset.getTimeSeries
    rw [if_neg (by omega), if_neg (by omega), H.getItemLength hr]
    simp only [bind, Except.bind]
    rw [if_pos (by omega)]
  rw [show ((0 : ℕ) : Int) = 0 from rfl, this]
  exact ⟨_, _, rfl⟩

theorem genRowsI_ok (H : Holds ds rows) (hI : Fits32 ds) {L b : ℕ} (hL : ∀ x ∈ rows, L ≤ x.length) (hb : b ≤ L) :
    ∀ (is : List ℕ) (mat : List (List (PaaTs K))), (∀ i ∈ is, i < rows.length) → mat.length = rows.length →
    ∃ mat', Paa.genRowsI r ds L b is mat = (mat', .ok ()) ∧ mat'.length = rows.length ∧
      ∀ (j : ℕ), mat'[j]? = if j ∈ is then some (paaRowBy r L b (rows.getD j [])) else mat[j]? := by
  intro is
  induction is with
  | nil => intro mat _ hm; exact ⟨mat, rfl, hm, fun j => by simp⟩
  | cons i is ih =>
    intro mat h hm
    have hi : i < rows.length := h i (by simp)
    have hr := getElem?_getD' hi ([] : List (Dbl K))
    have hlen := hL _ (List.mem_of_getElem? hr)
    have hgen : Paa.genRowI r ds L b i (List.range b) [] = (paaRowBy r L b (rows.getD i []), .ok ()) := by
      by_cases hb0 : b = 0
      · subst hb0; rfl
      · rw [genRowI_ok r H hI hr hlen (by omega) _ _ (fun o ho => by rw [List.mem_range] at ho; omega)]
        rfl
    rw [Paa.genRowsI, if_neg (by omega)]
    simp only [Int.toNat_natCast, hgen]
    obtain ⟨mat', e, hl, hj⟩ := ih (mat.set i (paaRowBy r L b (rows.getD i []))) (fun j hj => h j (by simp [hj]))
      (by rw [List.length_set]; exact hm)
    refine ⟨mat', e, hl, fun j => ?_⟩
    rw [hj]
    by_cases h1 : j ∈ is
    · simp [h1]
    · rw [if_neg h1, List.getElem?_set]
      by_cases h2 : j = i
      · subst h2; simp [hm, hi]
      · rw [if_neg (fun e => h2 e.symm), if_neg (by simp [h1, h2])]

theorem genRowsI_cases (H : Holds ds rows) (hI : Fits32 ds) {L b : ℕ} (hb : b ≤ L) (hb0 : 1 ≤ b) :
    ∀ (is : List ℕ) (mat : List (List (PaaTs K))), (∀ i ∈ is, i < rows.length) → mat.length = rows.length →
    (Paa.genRowsI r ds L b is mat).1.length = rows.length ∧
    ((∃ (i : ℕ) (x : List (Dbl K)), i ∈ is ∧ rows[i]? = some x ∧ x.length < L) →
      ∃ msg, (Paa.genRowsI r ds L b is mat).2 = .error (.genex msg)) := by
  intro is
  induction is with
  | nil => intro mat _ hm; exact ⟨hm, fun ⟨i, _, h, _⟩ => by simp at h⟩
  | cons i is ih =>
    intro mat h hm
    have hi : i < rows.length := h i (by simp)
    have hr := getElem?_getD' hi ([] : List (Dbl K))
    rw [Paa.genRowsI, if_neg (by omega)]
    simp only [Int.toNat_natCast]
    by_cases hlen : L ≤ (rows.getD i []).length
    · rw [genRowI_ok r H hI hr hlen hb0 _ _ (fun o ho => by rw [List.mem_range] at ho; omega)]
      simp only
      obtain ⟨h1, h2⟩ := ih (mat.set i ([] ++ (List.range b).map
        (fun o => PaaTs.own (paaBy r b (slice (rows.getD i []) o L))))) (fun j hj => h j (by simp [hj]))
        (by rw [List.length_set]; exact hm)
      refine ⟨h1, ?_⟩
      rintro ⟨j, x, hj, hrj, hrl⟩
      rcases List.mem_cons.1 hj with rfl | hj
      · rw [hr, Option.some.injEq] at hrj
        subst hrj; omega
      · exact h2 ⟨j, x, hj, hrj, hrl⟩
    · obtain ⟨row, msg, e⟩ := genRowI_short r (L := L) H hI hr (by omega) hb0
      rw [e]
      simp only
      exact ⟨by rw [List.length_set]; exact hm, fun _ => ⟨msg, rfl⟩⟩

theorem paaCreateI_ok (H : Holds ds rows) (hI : Fits32 ds) : ∃ w, Paa.createI ds = .ok w ∧ w.mat.length = rows.length := by
  unfold Paa.createI
  have key : ∀ i ∈ List.range ds.itemCount, (do
      let v ← ds.getTimeSeriesI i (-1) (-1)
      .ok [PaaTs.view v] : Res (List (PaaTs K))) =
      .ok [PaaTs.view ⟨i * ds.maxCol, i, 0, (rows.getD i []).length⟩] := by
    intro i hi
    rw [List.mem_range, H.count] at hi
    rw [getTimeSeriesI_eq H hI, H.whole (getElem?_getD' hi []) _ _ (by omega) (by omega)]
    simp only [bind, Except.bind]
  rw [mapM_ok _ _ _ key]
  refine ⟨_, rfl, ?_⟩
  simp [H.count]

/-- The wrapper after a successful preparation with block size `b`. -/
def paaDoneBy (L b : ℕ) (rows : List (List (Dbl K))) : Paa K := ⟨some (b : Int), rows.map (paaRowBy r L b)⟩

/-- What `generatePAAMatrix` leaves in the wrapper when it succeeds. -/
theorem paaGenerateI_ok (H : Holds ds rows) (hI : Fits32 ds) {b : Int} (hb : 1 ≤ b) {r0 : List (Dbl K)}
    (hr0 : rows[ds.maxCol.toNat]? = some r0) (hL : ∀ x ∈ rows, r0.length ≤ x.length) {w : Paa K}
    (hw : w.mat.length = rows.length) :
    Paa.generateI r w ds b = (paaDoneBy r r0.length (min b.toNat r0.length) rows, .ok ()) := by
  unfold Paa.generateI
  have hg := H.getItemLength hr0
  rw [Int.toNat_of_nonneg hI.nonneg] at hg
  have hmin : min b (r0.length : Int) = ((min b.toNat r0.length : ℕ) : Int) := by omega
  rw [if_neg (by omega), hg]
  simp only [hmin]
  obtain ⟨mat', e, hl, hj⟩ := genRowsI_ok r H hI hL (show min b.toNat r0.length ≤ r0.length by omega)
    (List.range ds.itemCount) w.mat (fun i hi => by
      rw [List.mem_range, H.count] at hi; exact hi) hw
  rw [e]
  simp only
  have : mat' = rows.map (paaRowBy r r0.length (min b.toNat r0.length)) := by
    apply List.ext_getElem?
    intro j
    have hmem : j ∈ List.range ds.itemCount ↔ j < rows.length := by rw [List.mem_range, H.count]
    rw [hj, List.getElem?_map]
    by_cases h : j < rows.length
    · rw [if_pos (hmem.2 h), getElem?_getD' h []]; rfl
    · rw [if_neg (fun h' => h (hmem.1 h')), List.getElem?_eq_none (by omega), List.getElem?_eq_none (by omega)]; rfl
  rw [this, paaDoneBy]

/-- The outcomes of `generatePAAMatrix`. -/
theorem paaGenerateI_cases (H : Holds ds rows) (hI : Fits32 ds) (b : Int) {w : Paa K} (hw : w.mat.length = rows.length) :
    (Paa.generateI r w ds b).1.mat.length = rows.length ∧
    (b < 1 → (Paa.generateI r w ds b).2 = .error (.genex "Block size for PAA must be positive")) ∧
    (1 ≤ b → (rows.length : Int) ≤ ds.maxCol → (Paa.generateI r w ds b).2 = .error (.ub "lengths index out of bounds")) ∧
    (1 ≤ b → ∀ r0, rows[ds.maxCol.toNat]? = some r0 →
      ((∀ x ∈ rows, r0.length ≤ x.length) → (Paa.generateI r w ds b).2 = .ok ()) ∧
      ((∃ x ∈ rows, x.length < r0.length) → ∃ msg, (Paa.generateI r w ds b).2 = .error (.genex msg))) := by
  have h0 : 0 ≤ ds.maxCol := hI.nonneg
  by_cases hb : b < 1
  · unfold Paa.generateI
    rw [if_pos hb]
    exact ⟨hw, fun _ => rfl, fun h => by omega, fun h => by omega⟩
  by_cases hm : (rows.length : Int) ≤ ds.maxCol
  · have hg : ds.getItemLength ds.maxCol = .error (.ub "lengths index out of bounds") := by
      unfold Dataset.getItemLength
      split
      · rfl
      · rw [H.lens]
        rw [List.getElem?_eq_none (by rw [List.length_map]; omega)]
    unfold Paa.generateI
    rw [if_neg hb, hg]
    refine ⟨hw, fun h => absurd h hb, fun _ _ => rfl, fun _ r0 h0 => ?_⟩
    have := (List.getElem?_eq_some_iff.1 h0).1
    omega
  · have hlt : ds.maxCol.toNat < rows.length := by omega
    have hr0 := getElem?_getD' hlt ([] : List (Dbl K))
    set r0 := rows.getD ds.maxCol.toNat [] with hr0d
    by_cases hL : ∀ x ∈ rows, r0.length ≤ x.length
    · rw [paaGenerateI_ok r H hI (by omega) hr0 hL hw]
      refine ⟨by simp [paaDoneBy], fun h => absurd h hb, fun _ h => absurd h hm, fun _ x hr => ⟨fun _ => rfl, ?_⟩⟩
      rw [hr0, Option.some.injEq] at hr
      subst hr
      rintro ⟨x, hr, hlt⟩
      have := hL x hr
      omega
    · push Not at hL
      obtain ⟨x, hr, hrl⟩ := hL
      have hg := H.getItemLength hr0
      rw [Int.toNat_of_nonneg h0] at hg
      have hmin : min b (r0.length : Int) = ((min b.toNat r0.length : ℕ) : Int) := by omega
      obtain ⟨j, hj⟩ := List.mem_iff_getElem?.1 hr
      have hjl := (List.getElem?_eq_some_iff.1 hj).1
      obtain ⟨g1, g2⟩ := genRowsI_cases r H hI (show min b.toNat r0.length ≤ r0.length by omega) (by omega)
        (List.range ds.itemCount) w.mat (fun i hi => by
          rw [List.mem_range, H.count] at hi; exact hi) hw
      obtain ⟨msg, hmsg⟩ := g2 ⟨j, x, by rw [List.mem_range, H.count]; exact hjl, hj, hrl⟩
      unfold Paa.generateI
      rw [if_neg hb, hg]
      simp only [hmin, hmsg]
      refine ⟨g1, fun h => absurd h hb, fun _ h => absurd h hm, fun _ x' hr' => ⟨fun h => ?_, fun _ => ⟨msg, rfl⟩⟩⟩
      rw [hr0, Option.some.injEq] at hr'
      subst hr'
      have := h x hr
      omega

theorem wrapperBy_rows (H : Holds ds rows) (hI : Fits32 ds) {w : Paa K} (h : WrapperBy r ds w) : w.mat.length = rows.length := by
  induction h with
  | created h =>
    obtain ⟨w', e, hl⟩ := paaCreateI_ok H hI
    rw [h, Except.ok.injEq] at e
    rw [e]; exact hl
  | again b _ ih => exact (paaGenerateI_cases r H hI b ih).1

theorem preparedBy_done (H : Holds ds rows) (hI : Fits32 ds) {b : Int} {w : Paa K}
    (h : PreparedBy r ds b w) : ∃ r0, rows[ds.maxCol.toNat]? = some r0 ∧ 1 ≤ b ∧
      (∀ x ∈ rows, r0.length ≤ x.length) ∧ w = paaDoneBy r r0.length (min b.toNat r0.length) rows := by
  obtain ⟨w0, hw, e⟩ := h
  obtain ⟨-, h1, h2, h3⟩ := paaGenerateI_cases r H hI b (wrapperBy_rows r H hI hw)
  rw [e] at h1 h2 h3
  have hb : 1 ≤ b := by
    by_contra hb
    have := h1 (by omega)
    cases this
  have hm : ¬ (rows.length : Int) ≤ ds.maxCol := by
    intro hm
    have := h2 hb hm
    cases this
  have h0 := hI.nonneg
  have hr0 := getElem?_getD' (show ds.maxCol.toNat < rows.length by omega) ([] : List (Dbl K))
  have hL : ∀ x ∈ rows, (rows.getD ds.maxCol.toNat []).length ≤ x.length := by
    by_contra hL
    push Not at hL
    obtain ⟨msg, h⟩ := (h3 hb _ hr0).2 hL
    cases h
  refine ⟨_, hr0, hb, hL, ?_⟩
  rw [paaGenerateI_ok r H hI hb hr0 hL (wrapperBy_rows r H hI hw), Prod.mk.injEq] at e
  exact e.1.symm

/-! ### Assembling -/

variable [IsStrictOrderedRing K]

theorem take_slice_block {x : List (Dbl K)} {s e b j : ℕ} (h : (j + 1) * b ≤ e - s) :
    ((slice x s e).drop (j * b)).take b = (x.drop (s + j * b)).take b := by
  unfold slice
  rw [List.drop_take, List.take_take, List.drop_drop]
  congr 1
  rw [Nat.add_mul, Nat.one_mul] at h
  omega

theorem assembleI_ok (H : Holds ds rows) (hI : Fits32 ds) {L b : ℕ} (hb : 1 ≤ b)
    {i s e : ℕ} {x : List (Dbl K)} (hr : rows[i]? = some x) (hs : s < e) (he : e ≤ L) (hL : L ≤ x.length) (hbL : b ≤ L)
    (sum0 : Option (Dbl K)) :
    Paa.assembleI r (paaDoneBy r L b rows) sum0 ds i s e =
      if b ∣ e - s then .ok (paaBy r b (slice x s e))
      else (match sum0 with
        | none => .error (.ub "read of the uninitialised variable sum")
        | some g => setPoint ((List.range ((e - s) / b)).map (fun j => blockBy r b (slice x s e) j) ++ [0])
            ((((e - s) / b : ℕ) : Int))
            (r ((slice x (s + (e - s) / b * b) e).foldl (fun t y => r (t + y)) g / Dbl.ofNat ((e - s) % b)))) := by
  have hsm := row_small H hI hr
  have hoff : ((s : ℕ) : Int).tmod b = ((s % b : ℕ) : Int) := by
    rw [Int.tmod_eq_emod_of_nonneg (by omega)]; norm_cast
  have hmod : s % b < b := Nat.mod_lt _ (by omega)
  have hsb : s / b * b + s % b = s := Nat.div_add_mod' s b
  have hlen : ((e : Int) - s - 1).tdiv b = (((e - s - 1) / b : ℕ) : Int) := by
    rw [Int.tdiv_eq_ediv_of_nonneg (by omega), show (e : Int) - s - 1 = ((e - s - 1 : ℕ) : Int) by omega]; norm_cast
  have hst : ((s : Int) - ((s % b : ℕ) : Int)).tdiv b = ((s / b : ℕ) : Int) := by
    rw [Int.tdiv_eq_ediv_of_nonneg (by omega), show (s : Int) - ((s % b : ℕ) : Int) = ((s / b * b : ℕ) : Int) by omega]
    norm_cast
    exact Nat.mul_div_cancel _ (by omega)
  have hes : e - s % b = s / b * b + (e - s) := by omega
  have hdiv : (e - s % b) / b = s / b + (e - s) / b := by
    rw [hes, Nat.add_comm, Nat.add_mul_div_right _ _ (by omega), Nat.add_comm]
  have hen : ((e : Int) - ((s % b : ℕ) : Int)).tdiv b = ((s / b + (e - s) / b : ℕ) : Int) := by
    rw [Int.tdiv_eq_ediv_of_nonneg (by omega), show (e : Int) - ((s % b : ℕ) : Int) = ((e - s % b : ℕ) : Int) by omega,
      ← hdiv]
    norm_cast
  have hem : ((e : Int) - ((s % b : ℕ) : Int)).tmod b = (((e - s) % b : ℕ) : Int) := by
    rw [Int.tmod_eq_emod_of_nonneg (by omega), show (e : Int) - ((s % b : ℕ) : Int) = ((e - s % b : ℕ) : Int) by omega, hes]
    norm_cast
    rw [Nat.add_comm, Nat.add_mul_mod_self_right]
  have hq : ((e : Int) - s).tdiv b = (((e - s) / b : ℕ) : Int) := by
    rw [Int.tdiv_eq_ediv_of_nonneg (by omega), show (e : Int) - s = ((e - s : ℕ) : Int) by omega]; norm_cast
  have hcell : ((paaDoneBy r L b rows).mat[((i : ℕ) : Int).toNat]? >>= (fun row => row[((s % b : ℕ) : Int).toNat]?)) =
      some (PaaTs.own (paaBy r b (slice x (s % b) L))) := by
    rw [Int.toNat_natCast, Int.toNat_natCast, paaDoneBy, List.getElem?_map, hr]
    simp only [Option.map_some, bind, Option.bind, paaRowBy, List.getElem?_map, List.getElem?_range hmod]
  have hdm : (e - s) / b * b + (e - s) % b = e - s := Nat.div_add_mod' _ _
  have hqle : (e - s) / b ≤ (e - s - 1) / b + 1 := by
    rw [← Nat.add_div_right _ (show 0 < b by omega)]
    exact Nat.div_le_div_right (by omega)
  have hq1 : (e - s) / b ≤ e - s := Nat.div_le_self _ _
  have hq2 : (e - s - 1) / b ≤ e - s - 1 := Nat.div_le_self _ _
  have hq3 : s / b ≤ s := Nat.div_le_self _ _
  have hpt : ∀ j < (e - s) / b, Paa.pointI ds (((s / b : ℕ) : Int) + (j : ℕ)) (PaaTs.own (paaBy r b (slice x (s % b) L))) =
      .ok (blockBy r b (slice x s e) j) := by
    intro j hj
    have hjb : (j + 1) * b ≤ e - s := by
      have := Nat.mul_le_mul_right b (show j + 1 ≤ (e - s) / b from hj)
      omega
    have hjb' : (s / b + j + 1) * b ≤ L - s % b := by
      rw [show (s / b + j + 1) * b = s / b * b + (j + 1) * b by ring]
      omega
    have hll : (slice x (s % b) L).length = L - s % b := slice_length _ _ _ hL
    have hidx : s / b + j < ((slice x (s % b) L).length - 1) / b + 1 := by
      rw [hll, Nat.lt_succ_iff, Nat.le_div_iff_mul_le (by omega)]
      rw [Nat.add_mul (s / b + j), Nat.one_mul] at hjb'
      omega
    rw [show ((s / b : ℕ) : Int) + (j : ℕ) = ((s / b + j : ℕ) : Int) by push_cast; rfl]
    unfold Paa.pointI PaaTs.point
    simp only
    rw [if_neg (_root_.not_lt.2 (Int.natCast_nonneg _)), Int.toNat_natCast, paaBy_getElem? _ _ _ _ hidx]
    simp only
    unfold blockBy
    rw [take_slice_block hjb', take_slice_block hjb]
    congr 4
    rw [show (s / b + j) * b = s / b * b + j * b by ring]
    omega
  have hcopy := copy_ok (fun j => Paa.pointI ds (((s / b : ℕ) : Int) + (j : ℕ)) (PaaTs.own (paaBy r b (slice x (s % b) L))))
    (fun j => blockBy r b (slice x s e) j) ((e - s) / b) (List.replicate ((e - s - 1) / b + 1) 0)
    (by rw [List.length_replicate]; exact hqle) hpt
  unfold Paa.assembleI
  simp only [show (paaDoneBy r L b rows).blockSize = some (b : Int) from rfl]
  rw [if_neg (by omega), hoff]
  simp only [hcell]
  rw [int32_bind _ (by omega) (by omega), int32_bind _ (by omega) (by omega), hlen]
  have o1 : (((e - s - 1) / b : ℕ) : Int) < 2 ^ 31 - 1 := by generalize (e - s - 1) / b = q at *; omega
  have o2 : ((s / b + (e - s) / b : ℕ) : Int) < 2 ^ 31 := by generalize (e - s) / b = q at *; generalize s / b = q' at *; omega
  have o3 : ((s / b : ℕ) : Int) < 2 ^ 31 := by generalize s / b = q' at *; omega
  have o4 : (((e - s) / b : ℕ) : Int) < 2 ^ 31 := by generalize (e - s) / b = q' at *; omega
  have p1 := Int.natCast_nonneg ((e - s - 1) / b)
  have p2 := Int.natCast_nonneg (s / b + (e - s) / b)
  have p3 := Int.natCast_nonneg (s / b)
  have p4 := Int.natCast_nonneg ((e - s) / b)
  rw [int32_bind _ (by omega) (by omega), int32_bind _ (by omega) (by omega), if_neg (by omega), int32_bind _ (by omega) (by omega),
    int32_bind _ (by omega) (by omega), hst, hen, int32_bind _ (by omega) (by omega), int32_bind _ (by omega) (by omega), hem, hq]
  have t1 : ∀ m n : ℕ, (((m + n : ℕ) : Int) - (m : Int)).toNat = n := fun m n => by omega
  have t2 : ∀ m : ℕ, ((m : Int) + 1).toNat = m + 1 := fun m => by omega
  rw [t1, t2]
  rw [hcopy]
  simp only [bind, Except.bind]
  have hsl : (slice x s e).length = e - s := slice_length _ _ _ (by omega)
  by_cases hd : b ∣ e - s
  · have h0 : (e - s) % b = 0 := Nat.mod_eq_zero_of_dvd hd
    rw [if_pos hd, if_neg (by simp [h0])]
    have hqe : (e - s) / b = (e - s - 1) / b + 1 := by
      obtain ⟨c, hc⟩ := hd
      have hc1 : 1 ≤ c := by
        rcases Nat.eq_zero_or_pos c with h | h
        · subst h; omega
        · exact h
      have hm : b * c = b * (c - 1) + b := by
        rw [← Nat.mul_succ, show (c - 1).succ = c by omega]
      rw [hc, Nat.mul_div_cancel_left _ (by omega), show b * c - 1 = (b - 1) + b * (c - 1) by omega,
        Nat.add_mul_div_left _ _ (by omega), Nat.div_eq_of_lt (by omega)]
      omega
    rw [← hqe, List.drop_replicate, Nat.sub_self, List.replicate_zero, List.append_nil]
    unfold paaBy
    rw [hsl, ← hqe]
  · have h0 : (e - s) % b ≠ 0 := fun h => hd (Nat.dvd_of_mod_eq_zero h)
    rw [if_neg hd, if_pos (by exact_mod_cast h0)]
    have hqe : (e - s - 1) / b = (e - s) / b := by
      have h1 : e - s - 1 = ((e - s) % b - 1) + b * ((e - s) / b) := by rw [Nat.mul_comm]; omega
      have h2 := Nat.mod_lt (e - s) (show 0 < b by omega)
      rw [h1, Nat.add_mul_div_left _ _ (by omega), Nat.div_eq_of_lt (by omega), Nat.zero_add]
    have hlo : s + (e - s) / b * b < e := by omega
    obtain ⟨h1, h2⟩ := H.view_pointsI hI hr hlo (show e ≤ x.length by omega)
    rw [int32_ok (by omega) o4]
    simp only
    rw [show (((e - s) / b : ℕ) : Int) * b = (((e - s) / b * b : ℕ) : Int) by push_cast; rfl, int32_ok (by omega) (by omega)]
    simp only
    rw [int32_ok (by omega) (by omega)]
    simp only
    rw [show (s : Int) + (((e - s) / b * b : ℕ) : Int) = ((s + (e - s) / b * b : ℕ) : Int) by push_cast; rfl, h1]
    simp only [h2]
    cases sum0 with
    | none => rfl
    | some g =>
      simp only [averageI, slice_length x (s + (e - s) / b * b) e (by omega)]
      rw [int32_ok (by omega) (by omega)]
      simp only
      rw [hqe, List.drop_replicate, show (e - s) / b + 1 - (e - s) / b = 1 by omega, List.replicate_one,
        show e - (s + (e - s) / b * b) = (e - s) % b by omega, add_sub_cancel_right]

/-- A compiler that leaves zero in the uninitialised variable: the assembled approximation is the direct one. -/
theorem assembleI_zero (H : Holds ds rows) (hI : Fits32 ds) {L b : ℕ} (hb : 1 ≤ b)
    {i s e : ℕ} {x : List (Dbl K)} (hr : rows[i]? = some x) (hs : s < e) (he : e ≤ L) (hL : L ≤ x.length) (hbL : b ≤ L) :
    Paa.assembleI r (paaDoneBy r L b rows) (some 0) ds i s e = .ok (paaBy r b (slice x s e)) := by
  rw [assembleI_ok r H hI hb hr hs he hL hbL]
  by_cases hd : b ∣ e - s
  · rw [if_pos hd]
  · have h0 : (e - s) % b ≠ 0 := fun h => hd (Nat.dvd_of_mod_eq_zero h)
    have hlt := Nat.mod_lt (e - s) (show 0 < b by omega)
    have hdm : (e - s) / b * b + (e - s) % b = e - s := Nat.div_add_mod' _ _
    have hqe : (e - s - 1) / b = (e - s) / b := by
      have h1 : e - s - 1 = ((e - s) % b - 1) + b * ((e - s) / b) := by rw [Nat.mul_comm]; omega
      rw [h1, Nat.add_mul_div_left _ _ (by omega), Nat.div_eq_of_lt (by omega), Nat.zero_add]
    rw [if_neg hd]
    simp only
    unfold setPoint
    rw [if_neg (not_or.2 ⟨_root_.not_lt.2 (Int.natCast_nonneg _), _root_.not_le.2 (by
      simp only [List.length_append, List.length_map, List.length_range, List.length_singleton]
      exact_mod_cast Nat.lt_succ_self _)⟩)]
    rw [Int.toNat_natCast, List.set_append_right _ _ (by simp), List.length_map, List.length_range, Nat.sub_self,
      List.set_cons_zero]
    unfold paaBy
    rw [slice_length _ _ _ (by omega), hqe, List.range_succ, List.map_append]
    congr 2
    simp only [List.map_cons, List.map_nil]
    unfold blockBy meanBy
    have : (slice x s e).drop ((e - s) / b * b) = slice x (s + (e - s) / b * b) e := by
      unfold slice
      rw [List.drop_take, List.drop_drop]
      congr 1; omega
    have hl : (slice x (s + (e - s) / b * b) e).length = (e - s) % b := by
      rw [slice_length _ _ _ (by omega)]; omega
    rw [this, List.take_of_length_le (by omega), hl]

theorem getPAAI_eq (H : Holds ds rows) (w : Paa K) {i s e : ℕ} {x : List (Dbl K)} (hr : rows[i]? = some x)
    (hs : s < e) (he : e ≤ x.length) (sum0 : Option (Dbl K)) :
    Paa.getPAAI r w sum0 ds i s e = w.assembleI r sum0 ds i s e := by
  have := H.lt hr
  unfold Paa.getPAAI
  rw [if_neg (by omega), H.getItemLength hr]
  simp only [bind, Except.bind, if_neg (show ¬ ((s : Int) < 0 ∧ (e : Int) < 0) by omega)]
  rw [if_neg (by omega)]

theorem paaBy_one {x : List (Dbl K)} (hx : 1 ≤ x.length) (hf : ∀ y ∈ x, Stable r y) : paaBy r 1 x = x := by
  apply List.ext_getElem?
  intro j
  by_cases h : j < x.length
  · rw [paaBy_getElem? _ _ _ _ (by rw [Nat.div_one]; omega)]
    unfold blockBy meanBy
    obtain ⟨h1, h2⟩ := hf _ (List.getElem_mem h)
    rw [Nat.mul_one, List.drop_eq_getElem_cons h, List.take_succ_cons, List.take_zero]
    simp only [List.foldl_cons, List.foldl_nil, List.length_singleton, h1, h2, List.getElem?_eq_getElem h]
  · rw [List.getElem?_eq_none (by rw [paaBy_length, Nat.div_one]; omega), List.getElem?_eq_none (by omega)]

/-! ### Searching -/

theorem searchI_one [Arith K] (H : Holds ds rows) (hI : Fits32 ds) {L : ℕ} (hlt : ds.maxCol.toNat < rows.length)
    (hu : ∀ x ∈ rows, x.length = L) (hL : 1 ≤ L) (hf : ∀ x ∈ rows, ∀ y ∈ x, Stable r y) (sum0 : Option (Dbl K)) (A : Algos (Cand K))
    (ratio : ℚ) (q : List (Dbl K)) (hq : ∀ y ∈ q, Stable r y) (hql : q.length < 2 ^ 31) (k : Int) (name : String) :
    Paa.searchI r (paaDoneBy r L 1 rows) sum0 A ratio ds q k name = bruteForceI A ratio ds q k name := by
  unfold Paa.searchI bruteForceI
  by_cases hk : k ≤ 0
  · rw [if_pos hk, if_pos hk]
  rw [if_neg hk, if_neg hk]
  cases getDistanceFromName (name ++ "_dtw") with
  | error e => rfl
  | ok dist =>
    have hr0 := getElem?_getD' hlt ([] : List (Dbl K))
    have hg := H.getItemLength hr0
    rw [Int.toNat_of_nonneg hI.nonneg, hu _ (List.mem_of_getElem? hr0)] at hg
    have hqq : tsPAAI r q ((1 : ℕ) : Int) = .ok q := by
      cases q with
      | nil => rw [tsPAAI_eq r hql]; rfl
      | cons x xs => rw [tsPAAI_ok r (by omega) _ (by simp) hql, paaBy_one r (by simp) hq]
    simp only [bind, Except.bind, hg, show (paaDoneBy r L 1 rows).blockSize = some ((1 : ℕ) : Int) from rfl, hqq]
    refine congrArg (fun x : Res (Int × List (Cand K)) => Except.bind x (fun st => .ok (A.sort st.2)))
      (foldlM_congr _ _ ?_)
    intro idx hidx st
    rw [List.mem_range, H.count] at hidx
    have hr := getElem?_getD' hidx ([] : List (Dbl K))
    have hrl := hu _ (List.mem_of_getElem? hr)
    have hp : Paa.placesI r (paaDoneBy r L 1 rows) sum0 A ratio ds dist q L idx st = lengthsI A ratio ds dist q idx st := by
      unfold Paa.placesI lengthsI
      rw [H.getItemLength hr, hrl]
      simp only [bind, Except.bind]
      refine foldlM_congr _ _ (fun i hi st => ?_)
      rw [List.mem_range, Int.toNat_natCast] at hi
      unfold startsI
      simp only [bind, Except.bind]
      have hsm := row_small H hI hr
      rw [int32_ok (by omega) (by omega)]
      simp only
      refine congrArg (fun x : Res (Int × List (Cand K)) => Except.bind x (fun st => Except.bind (int32 (((i + 2 : ℕ) : Int) + 1)) (fun _ => .ok st)))
        (foldlM_congr _ _ (fun s hs st => ?_))
      rw [List.mem_range] at hs
      have hse : s + (i + 2) ≤ L := by omega
      rw [int32_ok (by omega) (by omega)]
      simp only
      rw [show (s : Int) + ((i + 2 : ℕ) : Int) = ((s + (i + 2) : ℕ) : Int) by push_cast; rfl]
      obtain ⟨v1, v2⟩ := H.view_pointsI hI hr (show s < s + (i + 2) by omega) (by omega)
      have hp := getPAAI_eq r H (paaDoneBy r L 1 rows) hr (show s < s + (i + 2) by omega) (by omega) sum0
      rw [assembleI_ok r H hI (by omega) hr (by omega) hse (by omega) hL, if_pos (one_dvd _),
        paaBy_one r (x := slice _ _ _) (by rw [slice_length _ _ _ (by omega)]; omega) (fun y hy => hf _ (List.mem_of_getElem? hr) y
          (List.mem_of_mem_drop (List.mem_of_mem_take hy)))] at hp
      simp only [v1, hp, v2]
    rw [hp]

theorem searchI_never [Arith K] (H : Holds ds rows) (hI : Fits32 ds) {L b : ℕ} (hne : rows ≠ []) (hb : 2 ≤ b) (hbL : b ≤ L)
    (hL3 : 3 ≤ L) (hL : ∀ x ∈ rows, L ≤ x.length) (hmax : ds.getItemLength ds.maxCol = .ok (L : Int))
    (A : Algos (Cand K)) (ratio : ℚ) (q : List (Dbl K)) (k : Int) (name : String) (res : List (Cand K)) :
    Paa.searchI r (paaDoneBy r L b rows) none A ratio ds q k name ≠ .ok res := by
  intro h
  unfold Paa.searchI at h
  split at h
  · cases h
  simp only [bind, Except.bind] at h
  cases hd : getDistanceFromName (name ++ "_dtw") with
  | error e => rw [hd] at h; cases h
  | ok dist =>
    simp only [hd, hmax, show (paaDoneBy r L b rows).blockSize = some (b : Int) from rfl] at h
    split at h
    · cases h
    rename_i pq hpq
    split at h
    · cases h
    rename_i st hst
    have hpos : 0 < rows.length := List.length_pos_iff.2 hne
    have hr := getElem?_getD' hpos ([] : List (Dbl K))
    have hrl := hL _ (List.mem_of_getElem? hr)
    obtain ⟨e, he3, hd⟩ : ∃ e, e ≤ 1 ∧ ¬ b ∣ (0 + (e + 2)) - 0 := by
      by_cases h : b = 2
      · exact ⟨1, by omega, by subst h; decide⟩
      · exact ⟨0, by omega, fun hd => by have := Nat.le_of_dvd (by omega) hd; omega⟩
    obtain ⟨s1, t1, h1⟩ := foldlM_all_ok hst 0 (List.mem_range.2 (by rw [H.count]; exact hpos))
    split at h1
    · cases h1
    rename_i st' hst'
    unfold Paa.placesI at hst'
    obtain ⟨s2, t2, h2⟩ := foldlM_all_ok hst' e (List.mem_range.2 (by omega))
    have hsm := row_small H hI hr
    rw [int32_bind _ (by omega) (by omega)] at h2
    simp only [bind, Except.bind] at h2
    split at h2
    · cases h2
    rename_i st3 hst3
    obtain ⟨s4, t4, h4⟩ := foldlM_all_ok hst3 0 (List.mem_range.2 (by omega))
    rw [int32_ok (by omega) (by omega)] at h4
    have hp := getPAAI_eq r H (paaDoneBy r L b rows) hr (show 0 < 0 + (e + 2) by omega) (by omega) none
    rw [assembleI_ok r H hI (by omega) hr (by omega) (by omega) hrl hbL, if_neg hd] at hp
    obtain ⟨v1, -⟩ := H.view_pointsI hI hr (show 0 < 0 + (e + 2) by omega) (by omega)
    simp only at h4
    rw [show ((0 : ℕ) : Int) + ((e + 2 : ℕ) : Int) = ((0 + (e + 2) : ℕ) : Int) by push_cast; rfl, v1] at h4
    simp only [hp] at h4
    cases h4

end Genex
