import Verif.Model.Paa
import Verif.Spec.Paa
import Verif.Lemmas.BruteForce

/-! Piecewise aggregate approximation. -/

set_option linter.unusedSectionVars false

namespace Genex

open Spec Dbl

variable {K : Type} [Field K] [LinearOrder K] [IsStrictOrderedRing K]

/-- The mean of block `j`. -/
def blockMean (b : ℕ) (x : List K) (j : ℕ) : K := mean ((x.drop (j * b)).take b)

/-- All block means. -/
def paaOf (b : ℕ) (x : List K) : List K := (List.range ((x.length - 1) / b + 1)).map (blockMean b x)

theorem take_succ_sum (l : List K) (i : ℕ) (y : K) (h : l[i]? = some y) : (l.take (i + 1)).sum = (l.take i).sum + y := by
  rw [List.take_add_one, h]
  simp

theorem paaLoop_ok {b : ℕ} (hb : 1 ≤ b) (x : List K) (hx : 1 ≤ x.length) : ∀ (rest : List K) (i : ℕ) (dest : List (Dbl K)),
    x.drop i = rest → i ≤ x.length → i + rest.length = x.length → dest.length = (x.length - 1) / b + 1 →
    (∀ j, j < i / b → dest[j]? = some (fin (blockMean b x j))) → rest ≠ [] →
    paaLoop b x.length (rest.map fin) i (fin (((x.drop (i / b * b)).take (i % b)).sum)) (i % b) dest =
      .ok ((paaOf b x).map fin) := by
  intro rest
  induction rest with
  | nil => intro i dest _ _ _ _ _ h; exact absurd rfl h
  | cons y ys ih =>
    intro i dest hd hi hlen hdl hdone _
    have hib : i / b * b + i % b = i := Nat.div_add_mod' i b
    have hmod : i % b < b := Nat.mod_lt _ (by omega)
    have hin : i < x.length := by simp only [List.length_cons] at hlen; omega
    have hy : x[i]? = some y := by
      have := congrArg (fun l => l[0]?) hd
      simpa using this
    have hsum : fin ((List.take (i % b) (List.drop (i / b * b) x)).sum) + fin y =
        fin ((List.take (i % b + 1) (List.drop (i / b * b) x)).sum) := by
      rw [fin_add_fin, take_succ_sum _ _ y]
      rw [List.getElem?_drop, hib, hy]
    have hdys : x.drop (i + 1) = ys := by
      rw [← List.tail_drop, hd]; rfl
    have hlys : i + 1 + ys.length = x.length := by simp only [List.length_cons] at hlen; omega
    have hdivlt : i / b < dest.length := by
      rw [hdl]
      have := Nat.div_le_div_right (c := b) (show i ≤ x.length - 1 by omega)
      omega
    rw [List.map_cons, paaLoop, hsum]
    by_cases hc : ((i % b : ℕ) : Int) + 1 = b ∨ (i : Int) = (x.length : Int) - 1
    · rw [if_pos hc]
      have htd : (i : Int).tdiv b = ((i / b : ℕ) : Int) := by
        rw [Int.tdiv_eq_ediv_of_nonneg (by omega)]; norm_cast
      have hmean : fin ((List.take (i % b + 1) (List.drop (i / b * b) x)).sum) / Dbl.ofNat (i % b + 1) =
          fin (blockMean b x (i / b)) := by
        unfold Dbl.ofNat
        rw [fin_div_fin (by positivity)]
        unfold blockMean mean
        have hl : (List.drop (i / b * b) x).length = x.length - i / b * b := List.length_drop
        have ht : List.take (i % b + 1) (List.drop (i / b * b) x) = List.take b (List.drop (i / b * b) x) := by
          rcases hc with hc | hc
          · rw [show i % b + 1 = b by omega]
          · rw [List.take_of_length_le (by omega), List.take_of_length_le (by omega)]
        rw [ht, List.length_take, hl]
        rcases hc with hc | hc
        · rw [show min b (x.length - i / b * b) = i % b + 1 by omega]
        · rw [show min b (x.length - i / b * b) = i % b + 1 by omega]
      rw [htd, hmean]
      unfold setPoint
      rw [if_neg (not_or.2 ⟨_root_.not_lt.2 (Int.natCast_nonneg _), _root_.not_le.2 (by exact_mod_cast hdivlt)⟩)]
      simp only [bind, Except.bind, Int.toNat_natCast]
      have hdone' : ∀ j, j < i / b + 1 → (dest.set (i / b) (fin (blockMean b x (i / b))))[j]? =
          some (fin (blockMean b x j)) := by
        intro j hj
        rw [List.getElem?_set]
        split
        · rename_i e; subst e; simp [hdivlt]
        · exact hdone j (by omega)
      have hfin : ∀ d : List (Dbl K), d.length = (x.length - 1) / b + 1 →
          (∀ j, j < (x.length - 1) / b + 1 → d[j]? = some (fin (blockMean b x j))) → d = (paaOf b x).map fin := by
        intro d hd hj
        apply List.ext_getElem?
        intro j
        by_cases hlt : j < (x.length - 1) / b + 1
        · rw [hj j hlt, paaOf, List.getElem?_map, List.getElem?_map, List.getElem?_range hlt]; rfl
        · rw [List.getElem?_eq_none (by omega), List.getElem?_eq_none]
          simp only [paaOf, List.length_map, List.length_range]; omega
      cases hys : ys with
      | nil =>
        rw [List.map_nil, paaLoop]
        have : i = x.length - 1 := by rw [hys, List.length_nil] at hlys; omega
        exact congrArg Except.ok (hfin _ (by rw [List.length_set]; exact hdl) (by rw [← this]; exact hdone'))
      | cons z zs =>
        rw [← hys]
        have hne : ys ≠ [] := by rw [hys]; simp
        have hlt : i + 1 < x.length := by rw [hys] at hlys; simp only [List.length_cons] at hlys; omega
        have hcb : i % b + 1 = b := by omega
        have e1 : (i + 1) / b = i / b + 1 := by
          rw [show i + 1 = b * (i / b + 1) by rw [Nat.mul_add, Nat.mul_one, Nat.mul_comm]; omega, Nat.mul_div_cancel_left _ (by omega)]
        have e2 : (i + 1) % b = 0 := by
          rw [show i + 1 = b * (i / b + 1) by rw [Nat.mul_add, Nat.mul_one, Nat.mul_comm]; omega, Nat.mul_mod_right]
        have := ih (i + 1) (dest.set (i / b) (fin (blockMean b x (i / b)))) hdys (by omega) hlys
          (by rw [List.length_set]; exact hdl) (by rw [e1]; exact hdone') hne
        rw [e2, List.take_zero, List.sum_nil] at this
        exact this
    · rw [if_neg hc]
      have hne : ys ≠ [] := by
        rintro rfl
        simp only [List.length_nil] at hlys
        apply hc; right; omega
      have e1 : (i + 1) / b = i / b := by
        rw [Nat.div_eq_iff (by omega)]
        have := hib
        constructor
        · omega
        · omega
      have e2 : (i + 1) % b = i % b + 1 := by
        have := Nat.div_add_mod' (i + 1) b
        rw [e1] at this; omega
      have := ih (i + 1) dest hdys (by omega) hlys hdl (by rw [e1]; exact hdone) hne
      rw [e1, e2] at this
      exact this

theorem tsPAA_ok {b : ℕ} (hb : 1 ≤ b) (x : List K) (hx : 1 ≤ x.length) : tsPAA (x.map fin) (b : Int) = .ok ((paaOf b x).map fin) := by
  unfold tsPAA
  have htd : ((x.length : Int) - 1).tdiv b = (((x.length - 1) / b : ℕ) : Int) := by
    rw [Int.tdiv_eq_ediv_of_nonneg (by omega)]; push_cast [Nat.cast_sub hx]; rfl
  rw [if_neg (by omega)]
  simp only [List.length_map, htd]
  rw [if_neg (_root_.not_lt.2 (by positivity))]
  have hne : x ≠ [] := by rintro rfl; simp at hx
  have := paaLoop_ok hb x hx x 0 (List.replicate ((x.length - 1) / b + 1) 0) rfl (by omega) (by omega)
    (by rw [List.length_replicate]) (by intro j hj; simp at hj) hne
  simp only [Nat.zero_div, Nat.zero_mod, List.take_zero, List.sum_nil] at this
  exact this

theorem paaOf_length (b : ℕ) (x : List K) : (paaOf b x).length = (x.length - 1) / b + 1 := by simp [paaOf]

theorem paaOf_getElem? (b : ℕ) (x : List K) (j : ℕ) (h : j < (x.length - 1) / b + 1) :
    (paaOf b x)[j]? = some (blockMean b x j) := by
  rw [paaOf, List.getElem?_map, List.getElem?_range h]; rfl

theorem ceil_eq {n b : ℕ} (hn : 1 ≤ n) (hb : 1 ≤ b) : (n - 1) / b + 1 = (n + b - 1) / b := by
  rw [show n + b - 1 = (n - 1) + b by omega, Nat.add_div_right _ (by omega)]

theorem paaOf_isPaa {b : ℕ} (hb : 1 ≤ b) {x : List K} (hx : 1 ≤ x.length) : IsPaa b x (paaOf b x) := by
  refine ⟨by rw [paaOf_length, ceil_eq hx hb], ?_⟩
  intro i m h
  have hi : i < (x.length - 1) / b + 1 := by
    have := (List.getElem?_eq_some_iff.1 h).1
    rwa [paaOf_length] at this
  rw [paaOf_getElem? b x i hi] at h
  exact (Option.some.inj h).symm

/-- The approximation is determined. -/
theorem IsPaa_unique {b : ℕ} {x p q : List K} (hp : IsPaa b x p) (hq : IsPaa b x q) : p = q := by
  apply List.ext_getElem?
  intro i
  by_cases h : i < p.length
  · have h' : i < q.length := by rw [hq.1, ← hp.1]; exact h
    rw [List.getElem?_eq_getElem h, List.getElem?_eq_getElem h', hp.2 i _ (List.getElem?_eq_getElem h),
      hq.2 i _ (List.getElem?_eq_getElem h')]
  · rw [List.getElem?_eq_none (by omega), List.getElem?_eq_none (by rw [hq.1, ← hp.1]; omega)]

/-- The part of `r` from point `s` up to (excluding) point `e`. -/
def sub (r : List K) (s e : ℕ) : List K := (r.drop s).take (e - s)

theorem slice_map (r : List K) (s e : ℕ) : slice (r.map fin) s e = (sub r s e).map fin := by
  simp only [slice, sub, List.map_take, List.map_drop]

theorem sub_length (r : List K) (s e : ℕ) (h : e ≤ r.length) : (sub r s e).length = e - s := by
  unfold sub; rw [List.length_take, List.length_drop]; omega

/-! ### The matrix -/

variable {ds : Dataset K} {rows : List (List K)}

theorem holds_row (i : ℕ) (r : List K) (hr : rows[i]? = some r) :
    (rows.map (·.map (fin : K → Dbl K)))[i]? = some (r.map fin) := by
  rw [List.getElem?_map, hr]; rfl

theorem Spec.Holds.view_points (H : Holds ds (rows.map (·.map fin))) {i s e : ℕ} {r : List K} (hr : rows[i]? = some r)
    (hs : s < e) (he : e ≤ r.length) :
    ds.getTimeSeries i s e = .ok (viewOf ds.maxCol (i, s, e)) ∧
      ds.points (viewOf ds.maxCol (i, s, e)) = .ok ((sub r s e).map fin) := by
  have h := holds_row i r hr
  refine ⟨H.getTimeSeries h hs (by simpa using he), ?_⟩
  rw [← slice_map]
  exact H.points h (by simpa using he)

/-- Row `i` of the matrix for block size `b`. -/
def paaRow (L b : ℕ) (r : List K) : List (PaaTs K) :=
  (List.range b).map (fun o => PaaTs.own ((paaOf b (sub r o L)).map fin))

theorem genRow_ok (H : Holds ds (rows.map (·.map fin))) {i L b : ℕ} {r : List K} (hr : rows[i]? = some r)
    (hL : L ≤ r.length) (hb : 1 ≤ b) : ∀ (offs : List ℕ) (row : List (PaaTs K)), (∀ o ∈ offs, o < L) →
    Paa.genRow ds L b i offs row = (row ++ offs.map (fun o => PaaTs.own ((paaOf b (sub r o L)).map fin)), .ok ()) := by
  intro offs
  induction offs with
  | nil => intro row _; simp [Paa.genRow]
  | cons o os ih =>
    intro row h
    have ho : o < L := h o (by simp)
    obtain ⟨h1, h2⟩ := H.view_points hr ho hL
    have hx : 1 ≤ (sub r o L).length := by rw [sub_length _ _ _ hL]; omega
    rw [Paa.genRow, h1]
    simp only [bind, Except.bind, h2, tsPAA_ok hb _ hx]
    rw [ih _ (fun o ho => h o (by simp [ho]))]
    simp

theorem genRow_short (H : Holds ds (rows.map (·.map fin))) {i L b : ℕ} {r : List K} (hr : rows[i]? = some r)
    (hL : r.length < L) (hb : 1 ≤ b) : ∃ row msg, Paa.genRow ds L b i (List.range b) [] = (row, .error (.genex msg)) := by
  obtain ⟨c, rfl⟩ : ∃ c, b = c + 1 := ⟨b - 1, by omega⟩
  rw [List.range_succ_eq_map, Paa.genRow]
  have hlt := H.lt (holds_row i r hr)
  have : ds.getTimeSeries i 0 L = .error (.genex "Invalid starting or ending position of a time series") := by
    unfold Dataset.getTimeSeries
    rw [if_neg (by omega), if_neg (by omega), H.getItemLength (holds_row i r hr)]
    simp only [bind, Except.bind, List.length_map]
    rw [if_pos (by omega)]
  rw [show ((0 : ℕ) : Int) = 0 from rfl, this]
  exact ⟨_, _, rfl⟩

theorem genRows_ok (H : Holds ds (rows.map (·.map fin))) {L b : ℕ} (hL : ∀ r ∈ rows, L ≤ r.length) (hb : b ≤ L) :
    ∀ (is : List ℕ) (mat : List (List (PaaTs K))), (∀ i ∈ is, i < rows.length) → mat.length = rows.length →
    ∃ mat', Paa.genRows ds L b is mat = (mat', .ok ()) ∧ mat'.length = rows.length ∧
      ∀ (j : ℕ), mat'[j]? = if j ∈ is then some (paaRow L b (rows.getD j [])) else mat[j]? := by
  intro is
  induction is with
  | nil => intro mat _ hm; exact ⟨mat, rfl, hm, fun j => by simp⟩
  | cons i is ih =>
    intro mat h hm
    have hi : i < rows.length := h i (by simp)
    have hr := getElem?_getD' hi ([] : List K)
    have hlen := hL _ (List.mem_of_getElem? hr)
    have hgen : Paa.genRow ds L b i (List.range b) [] = (paaRow L b (rows.getD i []), .ok ()) := by
      by_cases hb0 : b = 0
      · subst hb0; rfl
      · rw [genRow_ok H hr hlen (by omega) _ _ (fun o ho => by rw [List.mem_range] at ho; omega)]
        rfl
    rw [Paa.genRows, if_neg (by omega)]
    simp only [Int.toNat_natCast, hgen]
    obtain ⟨mat', e, hl, hj⟩ := ih (mat.set i (paaRow L b (rows.getD i []))) (fun j hj => h j (by simp [hj]))
      (by rw [List.length_set]; exact hm)
    refine ⟨mat', e, hl, fun j => ?_⟩
    rw [hj]
    by_cases h1 : j ∈ is
    · simp [h1]
    · rw [if_neg h1, List.getElem?_set]
      by_cases h2 : j = i
      · subst h2; simp [hm, hi]
      · rw [if_neg (fun e => h2 e.symm), if_neg (by simp [h1, h2])]

theorem genRows_cases (H : Holds ds (rows.map (·.map fin))) {L b : ℕ} (hb : b ≤ L) (hb0 : 1 ≤ b) :
    ∀ (is : List ℕ) (mat : List (List (PaaTs K))), (∀ i ∈ is, i < rows.length) → mat.length = rows.length →
    (Paa.genRows ds L b is mat).1.length = rows.length ∧
    ((∃ (i : ℕ) (r : List K), i ∈ is ∧ rows[i]? = some r ∧ r.length < L) →
      ∃ msg, (Paa.genRows ds L b is mat).2 = .error (.genex msg)) := by
  intro is
  induction is with
  | nil => intro mat _ hm; exact ⟨hm, fun ⟨i, _, h, _⟩ => by simp at h⟩
  | cons i is ih =>
    intro mat h hm
    have hi : i < rows.length := h i (by simp)
    have hr := getElem?_getD' hi ([] : List K)
    rw [Paa.genRows, if_neg (by omega)]
    simp only [Int.toNat_natCast]
    by_cases hlen : L ≤ (rows.getD i []).length
    · rw [genRow_ok H hr hlen hb0 _ _ (fun o ho => by rw [List.mem_range] at ho; omega)]
      simp only
      obtain ⟨h1, h2⟩ := ih (mat.set i ([] ++ (List.range b).map
        (fun o => PaaTs.own ((paaOf b (sub (rows.getD i []) o L)).map fin)))) (fun j hj => h j (by simp [hj]))
        (by rw [List.length_set]; exact hm)
      refine ⟨h1, ?_⟩
      rintro ⟨j, r, hj, hrj, hrl⟩
      rcases List.mem_cons.1 hj with rfl | hj
      · rw [hr, Option.some.injEq] at hrj
        subst hrj; omega
      · exact h2 ⟨j, r, hj, hrj, hrl⟩
    · obtain ⟨row, msg, e⟩ := genRow_short (L := L) H hr (by omega) hb0
      rw [e]
      simp only
      exact ⟨by rw [List.length_set]; exact hm, fun _ => ⟨msg, rfl⟩⟩

theorem paaCreate_ok (H : Holds ds (rows.map (·.map fin))) :
    ∃ w, Paa.create ds = .ok w ∧ w.mat.length = rows.length := by
  unfold Paa.create
  have key : ∀ i ∈ List.range ds.itemCount, (do
      let v ← ds.getTimeSeries i (-1) (-1)
      .ok [PaaTs.view v] : Res (List (PaaTs K))) =
      .ok [PaaTs.view ⟨i * ds.maxCol, i, 0, (rows.getD i []).length⟩] := by
    intro i hi
    rw [List.mem_range, H.count, List.length_map] at hi
    rw [H.whole (holds_row i _ (getElem?_getD' hi [])) _ _ (by omega) (by omega)]
    simp only [bind, Except.bind, List.length_map]
  rw [mapM_ok _ _ _ key]
  refine ⟨_, rfl, ?_⟩
  simp [H.count]

theorem holds_maxCol_nonneg (H : Holds ds (rows.map (·.map fin))) (h : rows ≠ []) : 0 ≤ ds.maxCol := by
  obtain ⟨r, rs, rfl⟩ := List.exists_cons_of_ne_nil h
  have := H.fits 0 (r.map fin) rfl
  omega

/-- The wrapper after a successful preparation with block size `b`. -/
def paaDone (L b : ℕ) (rows : List (List K)) : Paa K := ⟨some (b : Int), rows.map (paaRow L b)⟩

/-- What `generatePAAMatrix` leaves in the wrapper when it succeeds. -/
theorem paaGenerate_ok (H : Holds ds (rows.map (·.map fin))) {b : Int} (hb : 1 ≤ b) {r0 : List K} (h0 : 0 ≤ ds.maxCol)
    (hr0 : rows[ds.maxCol.toNat]? = some r0) (hL : ∀ r ∈ rows, r0.length ≤ r.length) {w : Paa K}
    (hw : w.mat.length = rows.length) :
    Paa.generate w ds b = (paaDone r0.length (min b.toNat r0.length) rows, .ok ()) := by
  unfold Paa.generate
  have hg := H.getItemLength (holds_row _ _ hr0)
  rw [Int.toNat_of_nonneg h0, List.length_map] at hg
  have hmin : min b (r0.length : Int) = ((min b.toNat r0.length : ℕ) : Int) := by omega
  rw [if_neg (by omega), hg]
  simp only [hmin]
  obtain ⟨mat', e, hl, hj⟩ := genRows_ok H hL (show min b.toNat r0.length ≤ r0.length by omega)
    (List.range ds.itemCount) w.mat (fun i hi => by
      rw [List.mem_range, H.count, List.length_map] at hi; exact hi) hw
  rw [e]
  simp only
  have : mat' = rows.map (paaRow r0.length (min b.toNat r0.length)) := by
    apply List.ext_getElem?
    intro j
    have hmem : j ∈ List.range ds.itemCount ↔ j < rows.length := by rw [List.mem_range, H.count, List.length_map]
    rw [hj, List.getElem?_map]
    by_cases h : j < rows.length
    · rw [if_pos (hmem.2 h), getElem?_getD' h []]; rfl
    · rw [if_neg (fun h' => h (hmem.1 h')), List.getElem?_eq_none (by omega), List.getElem?_eq_none (by omega)]; rfl
  rw [this, paaDone]

/-- The outcomes of `generatePAAMatrix`. -/
theorem paaGenerate_cases (H : Holds ds (rows.map (·.map fin))) (b : Int) {w : Paa K} (hw : w.mat.length = rows.length) :
    (Paa.generate w ds b).1.mat.length = rows.length ∧
    (b < 1 → (Paa.generate w ds b).2 = .error (.genex "Block size for PAA must be positive")) ∧
    (1 ≤ b → (ds.maxCol < 0 ∨ (rows.length : Int) ≤ ds.maxCol) →
      (Paa.generate w ds b).2 = .error (.ub "lengths index out of bounds")) ∧
    (1 ≤ b → 0 ≤ ds.maxCol → ∀ r0, rows[ds.maxCol.toNat]? = some r0 →
      ((∀ r ∈ rows, r0.length ≤ r.length) → (Paa.generate w ds b).2 = .ok ()) ∧
      ((∃ r ∈ rows, r.length < r0.length) → ∃ msg, (Paa.generate w ds b).2 = .error (.genex msg))) := by
  by_cases hb : b < 1
  · unfold Paa.generate
    rw [if_pos hb]
    exact ⟨hw, fun _ => rfl, fun h => by omega, fun h => by omega⟩
  by_cases hm : ds.maxCol < 0 ∨ (rows.length : Int) ≤ ds.maxCol
  · have hg : ds.getItemLength ds.maxCol = .error (.ub "lengths index out of bounds") := by
      unfold Dataset.getItemLength
      split
      · rfl
      · rw [H.lens]
        rw [List.getElem?_eq_none (by rw [List.length_map, List.length_map]; omega)]
    unfold Paa.generate
    rw [if_neg hb, hg]
    refine ⟨hw, fun h => absurd h hb, fun _ _ => rfl, fun _ h r0 h0 => ?_⟩
    have := (List.getElem?_eq_some_iff.1 h0).1
    omega
  · have h0 : 0 ≤ ds.maxCol := by omega
    have hlt : ds.maxCol.toNat < rows.length := by omega
    have hr0 := getElem?_getD' hlt ([] : List K)
    set r0 := rows.getD ds.maxCol.toNat [] with hr0d
    by_cases hL : ∀ r ∈ rows, r0.length ≤ r.length
    · rw [paaGenerate_ok H (by omega) h0 hr0 hL hw]
      refine ⟨by simp [paaDone], fun h => absurd h hb, fun _ h => absurd h hm, fun _ _ r hr => ⟨fun _ => rfl, ?_⟩⟩
      rw [hr0, Option.some.injEq] at hr
      subst hr
      rintro ⟨r, hr, hlt⟩
      have := hL r hr
      omega
    · push Not at hL
      obtain ⟨r, hr, hrl⟩ := hL
      have hg := H.getItemLength (holds_row _ _ hr0)
      rw [Int.toNat_of_nonneg h0, List.length_map] at hg
      have hmin : min b (r0.length : Int) = ((min b.toNat r0.length : ℕ) : Int) := by omega
      obtain ⟨j, hj⟩ := List.mem_iff_getElem?.1 hr
      have hjl := (List.getElem?_eq_some_iff.1 hj).1
      obtain ⟨g1, g2⟩ := genRows_cases H (show min b.toNat r0.length ≤ r0.length by omega) (by omega)
        (List.range ds.itemCount) w.mat (fun i hi => by
          rw [List.mem_range, H.count, List.length_map] at hi; exact hi) hw
      obtain ⟨msg, hmsg⟩ := g2 ⟨j, r, by rw [List.mem_range, H.count, List.length_map]; exact hjl, hj, hrl⟩
      unfold Paa.generate
      rw [if_neg hb, hg]
      simp only [hmin, hmsg]
      refine ⟨g1, fun h => absurd h hb, fun _ h => absurd h hm, fun _ _ r' hr' => ⟨fun h => ?_, fun _ => ⟨msg, rfl⟩⟩⟩
      rw [hr0, Option.some.injEq] at hr'
      subst hr'
      have := h r hr
      omega

/-! ### Assembling -/

theorem copy_ok (f : ℕ → Res (Dbl K)) (g : ℕ → Dbl K) : ∀ (n : ℕ) (p : List (Dbl K)), n ≤ p.length →
    (∀ j < n, f j = .ok (g j)) →
    (List.range n).foldlM (fun (p : List (Dbl K)) (j : ℕ) => do let x ← f j; setPoint p j x) p =
      .ok ((List.range n).map g ++ p.drop n) := by
  intro n
  induction n with
  | zero => intro p _ _; simp; rfl
  | succ n ih =>
    intro p hp hf
    rw [List.range_succ, List.foldlM_append, ih p (by omega) (fun j hj => hf j (by omega))]
    simp only [bind, Except.bind, List.foldlM_cons, List.foldlM_nil, hf n (by omega)]
    unfold setPoint
    rw [if_neg (by simp only [List.length_append, List.length_map, List.length_range, List.length_drop]; omega)]
    simp only [Int.toNat_natCast, pure, Except.pure]
    congr 1
    rw [List.set_append_right _ _ (by simp), List.length_map, List.length_range, Nat.sub_self]
    rw [List.drop_eq_getElem_cons (show n < p.length by omega), List.set_cons_zero]
    simp

theorem foldl_fin (l : List K) : ∀ g : K, (l.map fin).foldl (· + ·) (fin g) = fin (g + l.sum) := by
  induction l with
  | nil => intro g; simp
  | cons x xs ih => intro g; rw [List.map_cons, List.foldl_cons, fin_add_fin, ih, List.sum_cons, add_assoc]

theorem take_sub_block {r : List K} {s e b j : ℕ} (h : (j + 1) * b ≤ e - s) :
    ((sub r s e).drop (j * b)).take b = (r.drop (s + j * b)).take b := by
  unfold sub
  rw [List.drop_take, List.take_take, List.drop_drop]
  congr 1
  rw [Nat.add_mul, Nat.one_mul] at h
  omega

theorem assemble_ok (H : Holds ds (rows.map (·.map fin))) {L b : ℕ} (hb : 1 ≤ b)
    {i s e : ℕ} {r : List K} (hr : rows[i]? = some r) (hs : s < e) (he : e ≤ L) (hL : L ≤ r.length)
    (sum0 : Option (Dbl K)) :
    Paa.assemble (paaDone L b rows) sum0 ds i s e =
      if b ∣ e - s then .ok ((paaOf b (sub r s e)).map fin)
      else (match sum0 with
        | none => .error (.ub "read of the uninitialised variable sum")
        | some g => setPoint ((List.range ((e - s) / b)).map (fun j => fin (blockMean b (sub r s e) j)) ++ [0])
            ((((e - s) / b : ℕ) : Int))
            (((sub r (s + (e - s) / b * b) e).map fin).foldl (· + ·) g / Dbl.ofNat ((e - s) % b))) := by
  have hoff : ((s : ℕ) : Int).tmod b = ((s % b : ℕ) : Int) := by
    rw [Int.tmod_eq_emod_of_nonneg (by omega)]; norm_cast
  have hmod : s % b < b := Nat.mod_lt _ (by omega)
  have hsb : s / b * b + s % b = s := Nat.div_add_mod' s b
  have hlen : ((e : Int) - s - 1).tdiv b = (((e - s - 1) / b : ℕ) : Int) := by
    rw [Int.tdiv_eq_ediv_of_nonneg (by omega), show (e : Int) - s - 1 = ((e - s - 1 : ℕ) : Int) by omega]; norm_cast
  have hst : ((s : Int) - ((s % b : ℕ) : Int)).tdiv b = ((s / b : ℕ) : Int) := by
    rw [Int.tdiv_eq_ediv_of_nonneg (by omega), show (s : Int) - ((s % b : ℕ) : Int) = ((s / b * b : ℕ) : Int) by omega]
    norm_cast
    exact Nat.mul_div_cancel _ (by omega)
  have hes : e - s % b = s / b * b + (e - s) := by omega
  have hdiv : (e - s % b) / b = s / b + (e - s) / b := by
    rw [hes, Nat.add_comm, Nat.add_mul_div_right _ _ (by omega), Nat.add_comm]
  have hen : ((e : Int) - ((s % b : ℕ) : Int)).tdiv b = ((s / b + (e - s) / b : ℕ) : Int) := by
    rw [Int.tdiv_eq_ediv_of_nonneg (by omega), show (e : Int) - ((s % b : ℕ) : Int) = ((e - s % b : ℕ) : Int) by omega,
      ← hdiv]
    norm_cast
  have hem : ((e : Int) - ((s % b : ℕ) : Int)).tmod b = (((e - s) % b : ℕ) : Int) := by
    rw [Int.tmod_eq_emod_of_nonneg (by omega), show (e : Int) - ((s % b : ℕ) : Int) = ((e - s % b : ℕ) : Int) by omega, hes]
    norm_cast
    rw [Nat.add_comm, Nat.add_mul_mod_self_right]
  have hq : ((e : Int) - s).tdiv b = (((e - s) / b : ℕ) : Int) := by
    rw [Int.tdiv_eq_ediv_of_nonneg (by omega), show (e : Int) - s = ((e - s : ℕ) : Int) by omega]; norm_cast
  have hcell : ((paaDone L b rows).mat[((i : ℕ) : Int).toNat]? >>= (fun row => row[((s % b : ℕ) : Int).toNat]?)) =
      some (PaaTs.own ((paaOf b (sub r (s % b) L)).map fin)) := by
    rw [Int.toNat_natCast, Int.toNat_natCast, paaDone, List.getElem?_map, hr]
    simp only [Option.map_some, bind, Option.bind, paaRow, List.getElem?_map, List.getElem?_range hmod]
  have hdm : (e - s) / b * b + (e - s) % b = e - s := Nat.div_add_mod' _ _
  have hqle : (e - s) / b ≤ (e - s - 1) / b + 1 := by
    rw [← Nat.add_div_right _ (show 0 < b by omega)]
    exact Nat.div_le_div_right (by omega)
  have hpt : ∀ j < (e - s) / b, (PaaTs.own ((paaOf b (sub r (s % b) L)).map fin)).point ds (((s / b : ℕ) : Int) + (j : ℕ)) =
      .ok (fin (blockMean b (sub r s e) j)) := by
    intro j hj
    have hjb : (j + 1) * b ≤ e - s := by
      have := Nat.mul_le_mul_right b (show j + 1 ≤ (e - s) / b from hj)
      omega
    have hjb' : (s / b + j + 1) * b ≤ L - s % b := by
      rw [show (s / b + j + 1) * b = s / b * b + (j + 1) * b by ring]
      omega
    have hll : (sub r (s % b) L).length = L - s % b := sub_length _ _ _ hL
    have hidx : s / b + j < ((sub r (s % b) L).length - 1) / b + 1 := by
      rw [hll, Nat.lt_succ_iff, Nat.le_div_iff_mul_le (by omega)]
      rw [Nat.add_mul (s / b + j), Nat.one_mul] at hjb'
      omega
    rw [show ((s / b : ℕ) : Int) + (j : ℕ) = ((s / b + j : ℕ) : Int) by push_cast; rfl]
    unfold PaaTs.point
    simp only
    rw [if_neg (_root_.not_lt.2 (Int.natCast_nonneg _)), Int.toNat_natCast, List.getElem?_map, paaOf_getElem? _ _ _ hidx]
    simp only [Option.map_some]
    unfold blockMean
    rw [take_sub_block hjb', take_sub_block hjb]
    congr 5
    rw [show (s / b + j) * b = s / b * b + j * b by ring]
    omega
  have hcopy := copy_ok (fun j => (PaaTs.own ((paaOf b (sub r (s % b) L)).map fin)).point ds (((s / b : ℕ) : Int) + (j : ℕ)))
    (fun j => fin (blockMean b (sub r s e) j)) ((e - s) / b) (List.replicate ((e - s - 1) / b + 1) 0)
    (by rw [List.length_replicate]; exact hqle) hpt
  unfold Paa.assemble
  simp only [show (paaDone L b rows).blockSize = some (b : Int) from rfl]
  rw [if_neg (by omega), hoff]
  simp only [hcell, hlen, hst, hen, hem, hq]
  rw [if_neg (_root_.not_lt.2 (by positivity)), show (((s / b + (e - s) / b : ℕ) : Int) - ((s / b : ℕ) : Int)).toNat = (e - s) / b by
    push_cast; rw [add_sub_cancel_left]; norm_cast, show ((((e - s - 1) / b : ℕ) : Int) + 1).toNat = (e - s - 1) / b + 1 by
    norm_cast]
  simp only [bind, Except.bind] at hcopy ⊢
  rw [hcopy]
  simp only
  have hsl : (sub r s e).length = e - s := sub_length _ _ _ (by omega)
  by_cases hd : b ∣ e - s
  · have h0 : (e - s) % b = 0 := Nat.mod_eq_zero_of_dvd hd
    rw [if_pos hd, if_neg (by simp [h0])]
    have hqe : (e - s) / b = (e - s - 1) / b + 1 := by
      obtain ⟨c, hc⟩ := hd
      have hc1 : 1 ≤ c := by
        rcases Nat.eq_zero_or_pos c with h | h
        · subst h; omega
        · exact h
      have hm : b * c = b * (c - 1) + b := by
        rw [← Nat.mul_succ, show (c - 1).succ = c by omega]
      rw [hc, Nat.mul_div_cancel_left _ (by omega), show b * c - 1 = (b - 1) + b * (c - 1) by omega,
        Nat.add_mul_div_left _ _ (by omega), Nat.div_eq_of_lt (by omega)]
      omega
    rw [← hqe, List.drop_replicate, Nat.sub_self, List.replicate_zero, List.append_nil]
    unfold paaOf
    rw [hsl, ← hqe, List.map_map]
    rfl
  · have h0 : (e - s) % b ≠ 0 := fun h => hd (Nat.dvd_of_mod_eq_zero h)
    rw [if_neg hd, if_pos (by exact_mod_cast h0)]
    have hqe : (e - s - 1) / b = (e - s) / b := by
      have h1 : e - s - 1 = ((e - s) % b - 1) + b * ((e - s) / b) := by rw [Nat.mul_comm]; omega
      have h2 := Nat.mod_lt (e - s) (show 0 < b by omega)
      rw [h1, Nat.add_mul_div_left _ _ (by omega), Nat.div_eq_of_lt (by omega), Nat.zero_add]
    have hlo : s + (e - s) / b * b < e := by omega
    obtain ⟨h1, h2⟩ := H.view_points hr hlo (show e ≤ r.length by omega)
    rw [show (s : Int) + (((e - s) / b : ℕ) : Int) * b = ((s + (e - s) / b * b : ℕ) : Int) by push_cast; rfl, h1]
    simp only [h2]
    cases sum0 with
    | none => rfl
    | some g =>
      simp only [average, List.length_map, sub_length r (s + (e - s) / b * b) e (by omega)]
      rw [hqe, List.drop_replicate, show (e - s) / b + 1 - (e - s) / b = 1 by omega, List.replicate_one,
        show e - (s + (e - s) / b * b) = (e - s) % b by omega, add_sub_cancel_right]

/-- A compiler that leaves zero in the uninitialised variable: the assembled approximation is the direct one. -/
theorem assemble_zero (H : Holds ds (rows.map (·.map fin))) {L b : ℕ} (hb : 1 ≤ b)
    {i s e : ℕ} {r : List K} (hr : rows[i]? = some r) (hs : s < e) (he : e ≤ L) (hL : L ≤ r.length) :
    Paa.assemble (paaDone L b rows) (some 0) ds i s e = .ok ((paaOf b (sub r s e)).map fin) := by
  rw [assemble_ok H hb hr hs he hL]
  by_cases hd : b ∣ e - s
  · rw [if_pos hd]
  · have h0 : (e - s) % b ≠ 0 := fun h => hd (Nat.dvd_of_mod_eq_zero h)
    have hlt := Nat.mod_lt (e - s) (show 0 < b by omega)
    have hdm : (e - s) / b * b + (e - s) % b = e - s := Nat.div_add_mod' _ _
    have hqe : (e - s - 1) / b = (e - s) / b := by
      have h1 : e - s - 1 = ((e - s) % b - 1) + b * ((e - s) / b) := by rw [Nat.mul_comm]; omega
      rw [h1, Nat.add_mul_div_left _ _ (by omega), Nat.div_eq_of_lt (by omega), Nat.zero_add]
    rw [if_neg hd]
    simp only
    rw [zero_def, foldl_fin, zero_add, Dbl.ofNat, fin_div_fin (by exact_mod_cast h0)]
    unfold setPoint
    rw [if_neg (not_or.2 ⟨_root_.not_lt.2 (Int.natCast_nonneg _), _root_.not_le.2 (by
      simp only [List.length_append, List.length_map, List.length_range, List.length_singleton]
      exact_mod_cast Nat.lt_succ_self _)⟩)]
    rw [Int.toNat_natCast, List.set_append_right _ _ (by simp), List.length_map, List.length_range, Nat.sub_self,
      List.set_cons_zero]
    unfold paaOf
    rw [sub_length _ _ _ (by omega), hqe, List.range_succ, List.map_append, List.map_append, List.map_map]
    congr 2
    simp only [List.map_cons, List.map_nil]
    congr 2
    unfold blockMean mean
    have : (sub r s e).drop ((e - s) / b * b) = sub r (s + (e - s) / b * b) e := by
      unfold sub
      rw [List.drop_take, List.drop_drop]
      congr 1; omega
    have hl : (sub r (s + (e - s) / b * b) e).length = (e - s) % b := by
      rw [sub_length _ _ _ (by omega)]; omega
    rw [this, List.take_of_length_le (by omega), hl]

theorem getPAA_eq (H : Holds ds (rows.map (·.map fin))) (w : Paa K) {i s e : ℕ} {r : List K} (hr : rows[i]? = some r)
    (hs : s < e) (he : e ≤ r.length) (sum0 : Option (Dbl K)) :
    Paa.getPAA w sum0 ds i s e = w.assemble sum0 ds i s e := by
  have := H.lt (holds_row i r hr)
  unfold Paa.getPAA
  rw [if_neg (by omega), H.getItemLength (holds_row i r hr)]
  simp only [bind, Except.bind, if_neg (show ¬ ((s : Int) < 0 ∧ (e : Int) < 0) by omega), List.length_map]
  rw [if_neg (by omega)]

theorem paaOf_one {x : List K} (hx : 1 ≤ x.length) : paaOf 1 x = x := by
  apply List.ext_getElem?
  intro j
  by_cases h : j < x.length
  · rw [paaOf_getElem? _ _ _ (by rw [Nat.div_one]; omega)]
    unfold blockMean mean
    rw [Nat.mul_one, List.drop_eq_getElem_cons h, List.take_succ_cons, List.take_zero]
    simp [List.getElem?_eq_getElem h]
  · rw [List.getElem?_eq_none (by rw [paaOf_length, Nat.div_one]; omega), List.getElem?_eq_none (by omega)]

/-! ### Searching -/

theorem foldlM_error {σ α : Type} {f : σ → α → Res σ} {x : α} : ∀ (l : List α) (s : σ), x ∈ l →
    (∀ s, ∃ e, f s x = .error e) → ∀ r, l.foldlM f s ≠ .ok r := by
  intro l
  induction l with
  | nil => intro s h; simp at h
  | cons y ys ih =>
    intro s h hx r
    rw [List.foldlM_cons]
    rcases List.mem_cons.1 h with rfl | h
    · obtain ⟨e, he⟩ := hx s
      rw [he]; intro h; cases h
    · cases hf : f s y with
      | error e => intro h; cases h
      | ok s' => exact ih s' h hx r

theorem flat_coords {L : ℕ} (hu : ∀ r ∈ rows, r.length = L) :
    (List.range rows.length).flatMap (fun i => (subCoords L).map (fun p => (i, p))) =
      allCoords ((rows.map (·.map (fin : K → Dbl K))).map List.length) := by
  unfold allCoords
  rw [List.flatMap_def]
  congr 1
  apply List.ext_getElem?
  intro i
  rw [List.getElem?_map, List.getElem?_mapIdx, List.getElem?_map, List.getElem?_map]
  by_cases hi : i < rows.length
  · have := hu _ (List.mem_of_getElem? (getElem?_getD' hi ([] : List K)))
    rw [List.getElem?_range hi, getElem?_getD' hi []]
    simp only [Option.map_some, List.length_map, this]
  · rw [List.getElem?_eq_none (by rw [List.length_range]; omega), List.getElem?_eq_none (by omega)]
    rfl

theorem search_one [HasSqrt K] (H : Holds ds (rows.map (·.map fin))) {L : ℕ} (h0 : 0 ≤ ds.maxCol)
    (hlt : ds.maxCol.toNat < rows.length) (hu : ∀ r ∈ rows, r.length = L) (sum0 : Option (Dbl K)) (A : Algos (Cand K))
    [BandOps] (ratio : ℚ) (q : List K) (k : Int) (name : String) :
    Paa.search (paaDone L 1 rows) sum0 A ratio ds (q.map fin) k name = bruteForce A ratio ds (q.map fin) k name := by
  unfold Paa.search bruteForce
  by_cases hk : k ≤ 0
  · rw [if_pos hk, if_pos hk]
  rw [if_neg hk, if_neg hk]
  cases getDistanceFromName (name ++ "_dtw") with
  | error e => rfl
  | ok dist =>
    have hr0 := getElem?_getD' hlt ([] : List K)
    have hg := H.getItemLength (holds_row _ _ hr0)
    rw [Int.toNat_of_nonneg h0, List.length_map, hu _ (List.mem_of_getElem? hr0)] at hg
    have hq : tsPAA (q.map (fin : K → Dbl K)) ((1 : ℕ) : Int) = .ok (q.map fin) := by
      cases q with
      | nil => rfl
      | cons x xs => rw [tsPAA_ok (by omega) _ (by simp), paaOf_one (by simp)]
    simp only [bind, Except.bind, hg, bruteCoords_ok H, show (paaDone L 1 rows).blockSize = some ((1 : ℕ) : Int) from rfl, hq]
    have hc : (List.range ds.itemCount).flatMap (fun i => (subCoords ((L : ℕ) : Int).toNat).map (fun p => (i, p))) =
        allCoords ((rows.map (·.map (fin : K → Dbl K))).map List.length) := by
      rw [Int.toNat_natCast, H.count, List.length_map]
      exact flat_coords hu
    rw [hc]
    refine congrArg (fun x : Res (Int × List (Cand K)) => Except.bind x (fun st => .ok (A.sort st.2)))
      (foldlM_congr _ _ ?_)
    rintro ⟨i, s, e⟩ hm st
    obtain ⟨len, g1, g2, g3⟩ := mem_allCoords.1 hm
    rw [List.getElem?_map, List.getElem?_map, Option.map_map, Option.map_eq_some_iff] at g1
    obtain ⟨r, hr, rfl⟩ := g1
    have hrl : r.length = L := hu _ (List.mem_of_getElem? hr)
    have g3' : e ≤ r.length := by simpa using g3
    obtain ⟨v1, v2⟩ := H.view_points hr (show s < e by omega) g3'
    have hp := getPAA_eq H (paaDone L 1 rows) hr (show s < e by omega) g3' sum0
    rw [assemble_ok H (by omega) hr (by omega) (by omega) (by omega), if_pos (one_dvd _),
      paaOf_one (by rw [sub_length _ _ _ g3']; omega)] at hp
    simp only [v1, hp, v2, Arith.eval]

theorem search_never [HasSqrt K] (H : Holds ds (rows.map (·.map fin))) {L b : ℕ} (hne : rows ≠ []) (hb : 2 ≤ b)
    (hL3 : 3 ≤ L) (hL : ∀ r ∈ rows, L ≤ r.length) (hmax : ds.getItemLength ds.maxCol = .ok (L : Int))
    (A : Algos (Cand K)) [BandOps] (ratio : ℚ) (q : List (Dbl K)) (k : Int) (name : String) (res : List (Cand K)) :
    Paa.search (paaDone L b rows) none A ratio ds q k name ≠ .ok res := by
  unfold Paa.search
  by_cases hk : k ≤ 0
  · rw [if_pos hk]; intro h; cases h
  rw [if_neg hk]
  cases getDistanceFromName (name ++ "_dtw") with
  | error e => intro h; cases h
  | ok dist =>
    simp only [bind, Except.bind, hmax, show (paaDone L b rows).blockSize = some (b : Int) from rfl, Int.toNat_natCast]
    cases tsPAA q b with
    | error e => intro h; cases h
    | ok pq =>
      simp only
      have hpos : 0 < rows.length := List.length_pos_iff.2 hne
      have hr := getElem?_getD' hpos ([] : List K)
      set r := rows.getD 0 [] with hrd
      have hrl := hL r (List.mem_of_getElem? hr)
      obtain ⟨e, he2, he3, hd⟩ : ∃ e, 2 ≤ e ∧ e ≤ 3 ∧ ¬ b ∣ e - 0 := by
        by_cases h : b = 2
        · exact ⟨3, by omega, by omega, by subst h; decide⟩
        · exact ⟨2, by omega, by omega, fun hd => by have := Nat.le_of_dvd (by omega) hd; omega⟩
      have hmem : (0, 0, e) ∈ (List.range ds.itemCount).flatMap (fun i => (subCoords L).map (fun p => (i, p))) := by
        rw [List.mem_flatMap]
        refine ⟨0, ?_, List.mem_map.2 ⟨(0, e), mem_subCoords.2 ⟨by omega, by omega⟩, rfl⟩⟩
        rw [List.mem_range, H.count, List.length_map]; exact hpos
      have hp := getPAA_eq H (paaDone L b rows) hr (show 0 < e by omega) (by omega) none
      rw [assemble_ok H (by omega) hr (by omega) (by omega) hrl, if_neg hd] at hp
      obtain ⟨v1, -⟩ := H.view_points hr (show 0 < e by omega) (by omega)
      have key := fun (f : Int × List (Cand K) → ℕ × ℕ × ℕ → Res (Int × List (Cand K))) s0 h =>
        foldlM_error (f := f) _ s0 hmem h
      intro h
      split at h
      · cases h
      · rename_i v hv
        refine key _ _ ?_ _ hv
        intro st
        simp only [v1, hp]
        exact ⟨_, rfl⟩

end Genex
