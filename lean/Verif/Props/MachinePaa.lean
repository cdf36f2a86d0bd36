import Verif.Lemmas.MachinePaa
import Verif.Props.MachineBrute
import Verif.Props.RoundedData
import Verif.Props.Paa

/-!
# C101: piecewise aggregate approximation on the machine
-/

set_option linter.unusedSectionVars false

namespace Genex.Props

open Dbl Spec Genex.Registry

section

variable {K : Type} [Field K] [LinearOrder K] [IsStrictOrderedRing K] (r : Dbl K → Dbl K)

/-- C101: no `int` overflows when a series that an `int` can count is approximated: the result is that of C79 and C87, and consists of
the computed means of the blocks.  Missing: the empty series, see `C49_empty_false`. -/
theorem C101_direct_partial (x : List (Dbl K)) (hx : x.length < 2 ^ 31) (b : ℕ) :
    tsPAAI r x b = tsPAAW r x b ∧ (1 ≤ x.length → 1 ≤ b → ∃ p, tsPAAI r x b = .ok p ∧ IsPaaBy r b x p) :=
  ⟨tsPAAI_eq r hx b, fun h1 hb => ⟨_, tsPAAI_ok r hb x h1 hx, paaBy_isPaa r hb h1⟩⟩

variable (ds : Dataset K) (rows : List (List (Dbl K))) (H : Holds ds rows) (hI : Fits32 ds)

include H hI

/-- C101: preparing succeeds exactly when the block size is positive and no series is shorter than series number `maxCol`, and otherwise
throws a `GenexException`.  Missing: datasets with at most `maxCol` series, see `C101_prepare_false`. -/
theorem C101_prepare_partial (w : Paa K) (hw : WrapperBy r ds w) (b : Int) (r0 : List (Dbl K)) (hr0 : rows[ds.maxCol.toNat]? = some r0) :
    ((w.generateI r ds b).2 = .ok () ↔ 1 ≤ b ∧ ∀ x ∈ rows, r0.length ≤ x.length) ∧
    ((w.generateI r ds b).2 ≠ .ok () → ∃ msg, (w.generateI r ds b).2 = .error (.genex msg)) := by
  obtain ⟨-, h1, -, h3⟩ := paaGenerateI_cases r H hI b (wrapperBy_rows r H hI hw)
  by_cases hb : b < 1
  · rw [h1 hb]
    exact ⟨⟨fun h => (by cases h), fun h => absurd hb (by omega)⟩, fun _ => ⟨_, rfl⟩⟩
  · obtain ⟨g1, g2⟩ := h3 (by omega) r0 hr0
    by_cases hL : ∀ x ∈ rows, r0.length ≤ x.length
    · rw [g1 hL]
      exact ⟨⟨fun _ => ⟨by omega, hL⟩, fun _ => rfl⟩, fun h => absurd rfl h⟩
    · have hL' : ∃ x ∈ rows, x.length < r0.length := by push Not at hL; exact hL
      obtain ⟨msg, e⟩ := g2 hL'
      rw [e]
      exact ⟨⟨fun h => (by cases h), fun h => absurd h.2 hL⟩, fun _ => ⟨_, rfl⟩⟩

/-- C101 is false of datasets with at most `maxCol` series: the lengths are read outside their array. -/
theorem C101_prepare_false (h : (rows.length : Int) ≤ ds.maxCol) (w : Paa K) (hw : WrapperBy r ds w) (b : Int) (hb : 1 ≤ b) :
    (w.generateI r ds b).2 = .error (.ub "lengths index out of bounds") :=
  (paaGenerateI_cases r H hI b (wrapperBy_rows r H hI hw)).2.2.1 hb h

/-- C101: after a successful preparation with block size `b`, where `c` is the smaller of `b` and the length of the shortest series: for a
part of a series that ends within that length and whose own length is a multiple of `c`, the approximation assembled from the matrix is
bit for bit the one computed from the part, whatever the rounding.  Missing: other parts, see `C101_uninit` and `C50_long_false`. -/
theorem C101_same_partial (b : Int) (w : Paa K) (hw : PreparedBy r ds b w) (r0 : List (Dbl K)) (hr0 : rows[ds.maxCol.toNat]? = some r0)
    (c : ℕ) (hc : (c : Int) = min b r0.length) (i s e : ℕ) (x : List (Dbl K)) (hx : rows[i]? = some x) (hs : s < e) (he : e ≤ r0.length)
    (hd : c ∣ e - s) :
    ∃ p, w.getPAAI r none ds i s e = .ok p ∧ tsPAAI r ((x.drop s).take (e - s)) c = .ok p ∧ IsPaaBy r c ((x.drop s).take (e - s)) p := by
  obtain ⟨r0', h1, h2, h4, rfl⟩ := preparedBy_done r H hI hw
  rw [hr0, Option.some.injEq] at h1
  subst h1
  have hL := h4 x (List.mem_of_getElem? hx)
  have hcc : min b.toNat r0.length = c := by omega
  have hl := slice_length x s e (by omega)
  have hsm := row_small H hI hx
  rw [hcc]
  refine ⟨paaBy r c (slice x s e), ?_, tsPAAI_ok r (by omega) _ (show 1 ≤ (slice x s e).length by omega) (show (slice x s e).length < _ by omega),
    paaBy_isPaa r (by omega) (show 1 ≤ (slice x s e).length by omega)⟩
  rw [getPAAI_eq r H _ hx hs (by omega), assembleI_ok r H hI (by omega) hx hs he hL (by omega), if_pos hd]

/-- C101 is false of parts whose length is not a multiple of the block size: an uninitialised variable is read. -/
theorem C101_uninit (b : Int) (w : Paa K) (hw : PreparedBy r ds b w) (r0 : List (Dbl K)) (hr0 : rows[ds.maxCol.toNat]? = some r0)
    (c : ℕ) (hc : (c : Int) = min b r0.length) (i s e : ℕ) (x : List (Dbl K)) (hx : rows[i]? = some x) (hs : s < e) (he : e ≤ r0.length)
    (hd : ¬ c ∣ e - s) : w.getPAAI r none ds i s e = .error (.ub "read of the uninitialised variable sum") := by
  obtain ⟨r0', h1, h2, h4, rfl⟩ := preparedBy_done r H hI hw
  rw [hr0, Option.some.injEq] at h1
  subst h1
  have hL := h4 x (List.mem_of_getElem? hx)
  have hcc : min b.toNat r0.length = c := by omega
  rw [hcc, getPAAI_eq r H _ hx hs (by omega), assembleI_ok r H hI (by omega) hx hs he hL (by omega), if_neg hd]

/-- C101 for a compiler that leaves zero in the uninitialised variable: all parts that end within the length of the shortest series. -/
theorem C101_zero_partial (b : Int) (w : Paa K) (hw : PreparedBy r ds b w) (r0 : List (Dbl K)) (hr0 : rows[ds.maxCol.toNat]? = some r0)
    (c : ℕ) (hc : (c : Int) = min b r0.length) (i s e : ℕ) (x : List (Dbl K)) (hx : rows[i]? = some x) (hs : s < e) (he : e ≤ r0.length) :
    ∃ p, w.getPAAI r (some 0) ds i s e = .ok p ∧ tsPAAI r ((x.drop s).take (e - s)) c = .ok p ∧
      IsPaaBy r c ((x.drop s).take (e - s)) p := by
  obtain ⟨r0', h1, h2, h4, rfl⟩ := preparedBy_done r H hI hw
  rw [hr0, Option.some.injEq] at h1
  subst h1
  have hL := h4 x (List.mem_of_getElem? hx)
  have hcc : min b.toNat r0.length = c := by omega
  have hl := slice_length x s e (by omega)
  have hsm := row_small H hI hx
  rw [hcc]
  refine ⟨paaBy r c (slice x s e), ?_, tsPAAI_ok r (by omega) _ (show 1 ≤ (slice x s e).length by omega) (show (slice x s e).length < _ by omega),
    paaBy_isPaa r (by omega) (show 1 ≤ (slice x s e).length by omega)⟩
  rw [getPAAI_eq r H _ hx hs (by omega), assembleI_zero r H hI (by omega) hx hs he hL (by omega)]

/-- C101: after preparing with block size one, where all series have the same length, not zero, and rounding leaves the points as they
are, a search with the approximation does what the exhaustive search of C96 does.  Missing: larger blocks, see `C101_never`. -/
theorem C101_search_partial [Arith K] (w : Paa K) (hw : PreparedBy r ds 1 w) (L : ℕ) (hL : 1 ≤ L) (hu : ∀ x ∈ rows, x.length = L)
    (hf : ∀ x ∈ rows, ∀ y ∈ x, Stable r y) (A : Algos (Cand K)) (ratio : ℚ) (q : List (Dbl K)) (hq : ∀ y ∈ q, Stable r y)
    (hql : q.length < 2 ^ 31) (k : Int) (name : String) :
    w.searchI r none A ratio ds q k name = bruteForceI A ratio ds q k name := by
  obtain ⟨r0, h1, h2, h4, rfl⟩ := preparedBy_done r H hI hw
  have h0 := hu r0 (List.mem_of_getElem? h1)
  rw [h0, show min (1 : Int).toNat L = 1 by omega]
  exact searchI_one r H hI (List.getElem?_eq_some_iff.1 h1).1 hu hL hf none A ratio q hq hql k name

/-- C101 is false of blocks of two or more points, if the shortest series has three points or more: no search returns. -/
theorem C101_never [Arith K] (b : Int) (hb : 2 ≤ b) (w : Paa K) (hw : PreparedBy r ds b w) (hL : ∀ x ∈ rows, 3 ≤ x.length)
    (A : Algos (Cand K)) (ratio : ℚ) (q : List (Dbl K)) (k : Int) (name : String) (res : List (Cand K)) :
    w.searchI r none A ratio ds q k name ≠ .ok res := by
  obtain ⟨r0, h1, h2, h4, rfl⟩ := preparedBy_done r H hI hw
  have h0 := hL r0 (List.mem_of_getElem? h1)
  have hg := H.getItemLength h1
  rw [Int.toNat_of_nonneg hI.nonneg] at hg
  exact searchI_never r H hI (fun h => by rw [h] at h1; simp at h1) (by omega) (by omega) h0 h4 hg A ratio q k name res

end

section

variable {K : Type} [Field K] [LinearOrder K] [IsStrictOrderedRing K] [FloorRing K]

theorem block_sums {b : ℕ} (hb : b ≤ 2 ^ 53) : sumOf roundDouble (roundDouble (2 * 2 ^ 480) : K) b ≤ maxDouble :=
  C87_double .manhattan (by decide) b hb

theorem le_twice {y : K} (h : |y| ≤ 2 ^ 480) : |y| ≤ roundDouble (2 * 2 ^ 480) := by
  have h1 := roundDouble_mul (K := K) 1 (by norm_num) 480
  have h2 : roundDouble (1 * 2 ^ 480 : K) ≤ roundDouble (2 * 2 ^ 480) :=
    roundDouble_rounding.mono _ _ (mul_le_mul_of_nonneg_right (by norm_num) (by positivity))
  rw [Nat.cast_one] at h1
  rw [h1, one_mul] at h2
  exact h.trans h2

/-- Numbers of type `double` are left as they are. -/
theorem double_stable {y : K} (h : roundDouble y = y) (hy : |y| ≤ 2 ^ 480) : Stable (rndMax roundDouble maxDouble) (fin y) := by
  have hm : |roundDouble y| ≤ maxDouble := by
    rw [h]
    exact hy.trans (pow_le_max (by norm_num))
  have h1 : rndMax roundDouble maxDouble (fin y) = fin y := by rw [rndMax_eq hm, h]
  constructor
  · rw [zero_def, fin_add_fin, zero_add, h1]
  · rw [Dbl.ofNat, fin_div_fin (by simp), Nat.cast_one, div_one, h1]

/-- C101: in `double` arithmetic with points up to `2 ^ 480` in size, each point of an assembled approximation is the mean of its block
up to the error of C79.  Missing: other parts, as in `C101_same_partial`; greater points, see `C87_paa_false`. -/
theorem C101_error_partial (ds : Dataset K) (rows : List (List K)) (H : Holds ds (rows.map (·.map fin))) (hI : Fits32 ds)
    (hf : ∀ x ∈ rows, Floats roundDouble x ∧ ∀ y ∈ x, |y| ≤ 2 ^ 480) (b : Int) (w : Paa K)
    (hw : PreparedBy (rndMax roundDouble maxDouble) ds b w) (r0 : List K) (hr0 : rows[ds.maxCol.toNat]? = some r0)
    (c : ℕ) (hc : (c : Int) = min b r0.length) (i s e : ℕ) (x : List K) (hx : rows[i]? = some x) (hs : s < e) (he : e ≤ r0.length)
    (hd : c ∣ e - s) :
    ∃ p : List K, w.getPAAI (rndMax roundDouble maxDouble) none ds i s e = .ok (p.map fin) ∧ p.length = (e - s) / c ∧
      ∀ (j : ℕ) m, p[j]? = some m → |m - mean ((x.drop (s + j * c)).take c)| ≤
        ((1 + 1 / 2 ^ 53) ^ c - 1) * mean (((x.drop (s + j * c)).take c).map (|·|)) + (1 / 2 ^ 537) ^ 2 := by
  obtain ⟨p, h1, h2, -⟩ := C101_same_partial _ ds _ H hI b w hw (r0.map fin) (by rw [List.getElem?_map, hr0]; rfl) c
    (by rw [List.length_map]; exact hc) i s e (x.map fin) (by rw [List.getElem?_map, hx]; rfl) hs (by rw [List.length_map]; exact he) hd
  obtain ⟨r0', g1, g2, g4, -⟩ := preparedBy_done _ H hI hw
  rw [List.getElem?_map, hr0, Option.map_some, Option.some.injEq] at g1
  subst g1
  have hL := g4 (x.map fin) (List.mem_map.2 ⟨x, List.mem_of_getElem? hx, rfl⟩)
  simp only [List.length_map] at hL
  have hsm := row_small H hI (show (rows.map (·.map (fin : K → Dbl K)))[i]? = some (x.map fin) by rw [List.getElem?_map, hx]; rfl)
  rw [List.length_map] at hsm
  have hc1 : 1 ≤ c := by omega
  have hsl := sub_length x s e (by omega)
  obtain ⟨f1, f2⟩ := hf x (List.mem_of_getElem? hx)
  have hsub : ∀ y ∈ sub x s e, y ∈ x := fun y hy => List.mem_of_mem_drop (List.mem_of_mem_take hy)
  obtain ⟨p', k1, k2, -, k4⟩ := C79_error_partial roundDouble _ _ roundDouble_ops (sub x s e) (by omega) (fun y hy => f1 y (hsub y hy)) c hc1
  rw [show ((x.map fin).drop s).take (e - s) = (sub x s e).map (fin : K → Dbl K) by simp [sub, List.map_take, List.map_drop]] at h2
  rw [(C101_direct_partial _ ((sub x s e).map fin) (by rw [List.length_map]; omega) c).1,
    C87_paa_partial roundDouble roundDouble_rounding maxDouble max_fixed _ ((abs_nonneg (0 : K)).trans (le_twice (by simp))) c (block_sums (by omega))
      (sub x s e) (fun y hy => le_twice (f2 y (hsub y hy))), k1, Except.ok.injEq] at h2
  subst h2
  obtain ⟨d, hdd⟩ := hd
  have hlen : p'.length = (e - s) / c := by
    rw [k2, hsl, hdd, Nat.mul_div_cancel_left _ (by omega), show c * d + c - 1 = (c - 1) + c * d by omega, Nat.add_mul_div_left _ _ (by omega),
      Nat.div_eq_of_lt (by omega), Nat.zero_add]
  refine ⟨p', h1, hlen, fun j m hj => ?_⟩
  have hjl := (List.getElem?_eq_some_iff.1 hj).1
  have hjc : (j + 1) * c ≤ e - s := by
    rw [hlen, hdd, Nat.mul_div_cancel_left _ (by omega)] at hjl
    rw [hdd, Nat.mul_comm]
    exact Nat.mul_le_mul_left c hjl
  have := k4 j m hj
  rwa [take_sub_block hjc] at this

end

/-! ## Examples -/

theorem exWide_fits : Fits32 exWide := ⟨by decide +kernel, by decide +kernel, by decide +kernel, by decide +kernel⟩

/-- The wrapper around `exWide` in `double` arithmetic, with block size `b`. -/
def exPaaBy (b : Int) : Paa ℚ :=
  match Paa.createI exWide with
  | .ok w => (w.generateI (rndMax roundDouble maxDouble) exWide b).1
  | .error _ => ⟨none, []⟩

theorem exPaaBy_prepared (b : Int) (hb : 1 ≤ b) : PreparedBy (rndMax roundDouble maxDouble) exWide b (exPaaBy b) := by
  obtain ⟨w, h, -⟩ := paaCreateI_ok exWide_holds exWide_fits
  refine ⟨w, .created h, ?_⟩
  have := ((C101_prepare_partial (rndMax roundDouble maxDouble) exWide _ exWide_holds exWide_fits w (.created h) b
    ([3, 1, 4, 1].map fin) rfl).1).2 ⟨hb, by decide +kernel⟩
  unfold exPaaBy
  rw [h]
  exact Prod.ext rfl this

example := C101_direct_partial (rndMax roundDouble maxDouble) [fin (1 : ℚ), fin 3, fin 4, fin 6, fin 9] (by simp) 3

/-- The mean of the first block is rounded. -/
example : tsPAAI (K := ℚ) (rndMax roundDouble maxDouble) [fin 1, fin 0, fin 0, fin 6, fin 9] 3 =
    .ok [fin (6004799503160661 / 2 ^ 54), fin (15 / 2)] := by decide +kernel

/-- Two series of up to three points cannot be prepared. -/
example : ∃ w, Paa.createI exData = .ok w ∧
    (w.generateI (rndMax roundDouble maxDouble) exData 2).2 = .error (.ub "lengths index out of bounds") := by
  obtain ⟨w, h, -⟩ := paaCreateI_ok exData_holds exData_fits
  exact ⟨w, h, C101_prepare_false _ exData _ exData_holds exData_fits (by decide) w (.created h) 2 (by omega)⟩

example := C101_same_partial (rndMax roundDouble maxDouble) exWide _ exWide_holds exWide_fits 2 (exPaaBy 2) (exPaaBy_prepared 2 (by omega))
  ([3, 1, 4, 1].map fin) rfl 2 (by decide) 0 1 3 ([1, 3, 4, 6].map fin) rfl (by omega) (by simp) (by decide)
example := C101_uninit (rndMax roundDouble maxDouble) exWide _ exWide_holds exWide_fits 2 (exPaaBy 2) (exPaaBy_prepared 2 (by omega))
  ([3, 1, 4, 1].map fin) rfl 2 (by decide) 0 1 4 ([1, 3, 4, 6].map fin) rfl (by omega) (by simp) (by decide)
example := C101_zero_partial (rndMax roundDouble maxDouble) exWide _ exWide_holds exWide_fits 2 (exPaaBy 2) (exPaaBy_prepared 2 (by omega))
  ([3, 1, 4, 1].map fin) rfl 2 (by decide) 0 1 4 ([1, 3, 4, 6].map fin) rfl (by omega) (by simp)
example := C101_error_partial exWide exWideRows exWide_holds exWide_fits (by decide +kernel) 3 (exPaaBy 3) (exPaaBy_prepared 3 (by omega))
  [3, 1, 4, 1] rfl 3 (by decide) 1 1 4 [2, 2, 5, 5] rfl (by omega) (by simp) (by decide)
example : (exPaaBy 3).getPAAI (rndMax roundDouble maxDouble) none exWide 0 1 4 = .ok [fin (4878899596318037 / 2 ^ 50)] := by
  decide +kernel

/-- The search in `double` arithmetic. -/
example := @C101_search_partial ℚ _ _ _ (rndMax roundDouble maxDouble) exWide _ exWide_holds exWide_fits
  (machineArith (rndMax roundDouble maxDouble)) (exPaaBy 1) (exPaaBy_prepared 1 (by omega)) 4 (by omega) (by decide)
  (by
    intro x hx y hy
    obtain ⟨x, hx', rfl⟩ := List.mem_map.1 hx
    obtain ⟨y, hy', rfl⟩ := List.mem_map.1 hy
    have : ∀ x ∈ exWideRows, ∀ y ∈ x, roundDouble y = y ∧ |y| ≤ 2 ^ 480 := by decide +kernel
    exact double_stable (this x hx' y hy').1 (this x hx' y hy').2)
  (refAlgos (Cand.ltR roundDouble)) (1 / 2) [fin 3, fin 2]
  (by
    intro y hy
    obtain ⟨y, hy', rfl⟩ := List.mem_map.1 (show y ∈ [(3 : ℚ), 2].map fin from hy)
    have : ∀ y ∈ [(3 : ℚ), 2], roundDouble y = y ∧ |y| ≤ 2 ^ 480 := by decide +kernel
    exact double_stable (this y hy').1 (this y hy').2)
  (by simp) 2 "manhattan"

example := @C101_never ℚ _ _ _ (rndMax roundDouble maxDouble) exWide _ exWide_holds exWide_fits
  (machineArith (rndMax roundDouble maxDouble)) 2 (by omega) (exPaaBy 2) (exPaaBy_prepared 2 (by omega)) (by decide)
  (refAlgos (Cand.ltR roundDouble)) (1 / 2) [fin 3, fin 2] 2 "manhattan"

end Genex.Props
