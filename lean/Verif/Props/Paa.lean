import Verif.Lemmas.Paa
import Verif.Props.BruteForce

/-!
# C49-C51, C58, C59: piecewise aggregate approximation
-/

set_option linter.unusedSectionVars false

namespace Genex.Props

open Dbl Spec

variable {K : Type} [Field K] [LinearOrder K] [IsStrictOrderedRing K]

/-! ## C49 -/

/-- C49: the approximation of a series of at least one point consists of the means of its blocks.  Missing: the empty series,
see `C49_empty_false`. -/
theorem C49_partial (x : List K) (hx : 1 ≤ x.length) (b : ℕ) (hb : 1 ≤ b) :
    ∃ p, tsPAA (x.map fin) b = .ok (p.map fin) ∧ IsPaa b x p :=
  ⟨paaOf b x, tsPAA_ok hb x hx, paaOf_isPaa hb hx⟩

/-- Five points in blocks of two: the last block has one point. -/
example : tsPAA (K := ℚ) [fin 1, fin 3, fin 4, fin 6, fin 9] 2 = .ok [fin 2, fin 5, fin 9] := by decide +kernel
example := C49_partial (K := ℚ) [1, 3, 4, 6, 9] (by simp) 2 (by omega)

/-- C49 is false for the empty series: with any block size above one its approximation has a point, which is zero. -/
theorem C49_empty_false (b : ℕ) (hb : 2 ≤ b) :
    tsPAA ([] : List (Dbl K)) b = .ok [fin 0] ∧ ¬ IsPaa b ([] : List K) [0] := by
  constructor
  · unfold tsPAA
    rw [if_neg (by omega)]
    have h : ((([] : List (Dbl K)).length : Int) - 1).tdiv b = 0 := by
      rw [show ((([] : List (Dbl K)).length : Int) - 1) = -1 from rfl, Int.neg_tdiv,
        Int.tdiv_eq_zero_of_lt (by omega) (by omega)]
      rfl
    simp only [h]
    rfl
  · rintro ⟨h, -⟩
    simp only [List.length_singleton, List.length_nil, Nat.zero_add] at h
    rw [Nat.div_eq_of_lt (by omega)] at h
    omega

/-! ## C51 -/

theorem wrapper_rows {ds : Dataset K} {rows : List (List K)} (H : Holds ds (rows.map (·.map fin))) {w : Paa K}
    (h : Wrapper ds w) : w.mat.length = rows.length := by
  induction h with
  | created h =>
    obtain ⟨w', e, hl⟩ := paaCreate_ok H
    rw [h, Except.ok.injEq] at e
    rw [e]; exact hl
  | again b _ ih => exact (paaGenerate_cases H b ih).1

/-- C51: if the dataset has more series than `maxCol`, its row stride, preparing succeeds or throws a `GenexException`; it
succeeds exactly when the block size is positive and no series is shorter than series number `maxCol`.  Missing: datasets with
at most `maxCol` series, see `C51_false`. -/
theorem C51_partial (ds : Dataset K) (rows : List (List K)) (H : Holds ds (rows.map (·.map fin))) (w : Paa K)
    (hw : Wrapper ds w) (b : Int) (r0 : List K) (hr0 : rows[ds.maxCol.toNat]? = some r0) :
    ((w.generate ds b).2 = .ok () ↔ 1 ≤ b ∧ ∀ r ∈ rows, r0.length ≤ r.length) ∧
    ((w.generate ds b).2 ≠ .ok () → ∃ msg, (w.generate ds b).2 = .error (.genex msg)) := by
  have h0 : 0 ≤ ds.maxCol := holds_maxCol_nonneg H (fun h => by rw [h] at hr0; simp at hr0)
  obtain ⟨-, h1, -, h3⟩ := paaGenerate_cases H b (wrapper_rows H hw)
  by_cases hb : b < 1
  · rw [h1 hb]
    exact ⟨⟨fun h => (by cases h), fun h => absurd hb (by omega)⟩, fun _ => ⟨_, rfl⟩⟩
  · obtain ⟨g1, g2⟩ := h3 (by omega) h0 r0 hr0
    by_cases hL : ∀ r ∈ rows, r0.length ≤ r.length
    · rw [g1 hL]
      exact ⟨⟨fun _ => ⟨by omega, hL⟩, fun _ => rfl⟩, fun h => absurd rfl h⟩
    · have hL' : ∃ r ∈ rows, r.length < r0.length := by push Not at hL; exact hL
      obtain ⟨msg, e⟩ := g2 hL'
      rw [e]
      exact ⟨⟨fun h => (by cases h), fun h => absurd h.2 hL⟩, fun _ => ⟨_, rfl⟩⟩

/-- C51 is false: with at most `maxCol` series, the lengths are read outside their array.  Every dataset with at most as many
series as the longest has points is of this kind. -/
theorem C51_false (ds : Dataset K) (rows : List (List K)) (H : Holds ds (rows.map (·.map fin)))
    (h : (rows.length : Int) ≤ ds.maxCol) (w : Paa K) (hw : Wrapper ds w) (b : Int) (hb : 1 ≤ b) :
    (w.generate ds b).2 = .error (.ub "lengths index out of bounds") :=
  (paaGenerate_cases H b (wrapper_rows H hw)).2.2.1 hb (Or.inr h)

/-- A dataset with two series of up to three points cannot be prepared. -/
example : ∃ w, Paa.create exData = .ok w ∧ (w.generate exData 2).2 = .error (.ub "lengths index out of bounds") := by
  obtain ⟨w, h, -⟩ := paaCreate_ok (rows := [[7, 2, 3], [4, 12]]) exData_holds
  exact ⟨w, h, C51_false exData [[7, 2, 3], [4, 12]] exData_holds (by decide) w (.created h) 2 (by omega)⟩

/-- Five series of four points. -/
def exWideRows : List (List ℚ) := [[1, 3, 4, 6], [2, 2, 5, 5], [0, 1, 0, 1], [7, 8, 9, 9], [3, 1, 4, 1]]
def exWide : Dataset ℚ :=
  { data := some (exWideRows.flatten.map fin), names := [], lengths := [4, 4, 4, 4, 4], itemCount := 5, maxCol := 4,
    filePath := [], normalized := false }

/-- Reading the description of a dataset off a check of all its cells. -/
theorem holds_of_cells (ds : Dataset ℚ) (rows : List (List ℚ)) (h1 : ds.itemCount = rows.length)
    (h2 : ds.lengths = rows.map (fun r => (r.length : Int))) (h3 : ∀ r ∈ rows, (r.length : Int) ≤ ds.maxCol)
    (h4 : ∀ p ∈ rows.zipIdx, ∀ c ∈ p.1.zipIdx, ds.read ((p.2 : Int) * ds.maxCol + c.2) = .ok (fin c.1)) :
    Holds ds (rows.map (·.map fin)) := by
  refine ⟨by simpa using h1, by rw [h2]; simp, ?_, ?_⟩
  · intro i r hr
    rw [List.getElem?_map, Option.map_eq_some_iff] at hr
    obtain ⟨r, hr, rfl⟩ := hr
    rw [List.length_map]
    exact h3 r (List.mem_of_getElem? hr)
  · intro i r hr j x hx
    rw [List.getElem?_map, Option.map_eq_some_iff] at hr
    obtain ⟨r, hr, rfl⟩ := hr
    rw [List.getElem?_map, Option.map_eq_some_iff] at hx
    obtain ⟨x, hx, rfl⟩ := hx
    exact h4 (r, i) (List.mk_mem_zipIdx_iff_getElem?.2 hr) (x, j) (List.mk_mem_zipIdx_iff_getElem?.2 hx)

theorem exWide_holds : Holds exWide (exWideRows.map (·.map fin)) :=
  holds_of_cells _ _ (by decide) (by decide) (by decide) (by decide +kernel)

/-- The wrapper around `exWide`, with block size `b`. -/
def exPaa (b : Int) : Paa ℚ :=
  match Paa.create exWide with
  | .ok w => (w.generate exWide b).1
  | .error _ => ⟨none, []⟩

theorem exPaa_prepared (b : Int) (hb : 1 ≤ b) : Prepared exWide b (exPaa b) := by
  obtain ⟨w, h, -⟩ := paaCreate_ok exWide_holds
  refine ⟨w, .created h, ?_⟩
  have := ((C51_partial exWide exWideRows exWide_holds w (.created h) b [3, 1, 4, 1] rfl).1).2 ⟨hb, by decide⟩
  unfold exPaa
  rw [h]
  exact Prod.ext rfl this

/-! ## C50 -/

theorem prepared_done {ds : Dataset K} {rows : List (List K)} (H : Holds ds (rows.map (·.map fin))) {b : Int} {w : Paa K}
    (h : Prepared ds b w) : ∃ r0, rows[ds.maxCol.toNat]? = some r0 ∧ 1 ≤ b ∧ 0 ≤ ds.maxCol ∧
      (∀ r ∈ rows, r0.length ≤ r.length) ∧ w = paaDone r0.length (min b.toNat r0.length) rows := by
  obtain ⟨w0, hw, e⟩ := h
  obtain ⟨-, h1, h2, h3⟩ := paaGenerate_cases H b (wrapper_rows H hw)
  rw [e] at h1 h2 h3
  have hb : 1 ≤ b := by
    by_contra hb
    have := h1 (by omega)
    cases this
  have hm : ¬ (ds.maxCol < 0 ∨ (rows.length : Int) ≤ ds.maxCol) := by
    intro hm
    have := h2 hb hm
    cases this
  have hr0 := getElem?_getD' (show ds.maxCol.toNat < rows.length by omega) ([] : List K)
  have hL : ∀ r ∈ rows, (rows.getD ds.maxCol.toNat []).length ≤ r.length := by
    by_contra hL
    push Not at hL
    obtain ⟨msg, h⟩ := (h3 hb (by omega) _ hr0).2 hL
    cases h
  refine ⟨_, hr0, hb, by omega, hL, ?_⟩
  rw [paaGenerate_ok H hb (by omega) hr0 hL (wrapper_rows H hw), Prod.mk.injEq] at e
  exact e.1.symm

/-- C50: after a successful preparation with block size `b`, and where `L` is the length of series number `maxCol` (the shortest
one then) and `c` the smaller of `b` and `L`: for a part of a series that ends at `L` or before and whose length is a multiple
of `c`, the assembled approximation is the direct one.  Missing: other parts, see `C50_uninit` and `C50_long_false`. -/
theorem C50_partial (ds : Dataset K) (rows : List (List K)) (H : Holds ds (rows.map (·.map fin))) (b : Int) (w : Paa K)
    (hw : Prepared ds b w) (r0 : List K) (hr0 : rows[ds.maxCol.toNat]? = some r0) (c : ℕ) (hc : (c : Int) = min b r0.length)
    (i s e : ℕ) (r : List K) (hr : rows[i]? = some r) (hs : s < e) (he : e ≤ r0.length) (hd : c ∣ e - s) :
    ∃ p, w.getPAA none ds i s e = .ok (p.map fin) ∧ tsPAA (((r.drop s).take (e - s)).map fin) c = .ok (p.map fin) ∧
      IsPaa c ((r.drop s).take (e - s)) p := by
  obtain ⟨r0', h1, h2, h3, h4, rfl⟩ := prepared_done H hw
  rw [hr0, Option.some.injEq] at h1
  subst h1
  have hL := h4 r (List.mem_of_getElem? hr)
  have hcc : min b.toNat r0.length = c := by omega
  have hx : 1 ≤ (sub r s e).length := by rw [sub_length _ _ _ (by omega)]; omega
  rw [hcc]
  refine ⟨paaOf c (sub r s e), ?_, tsPAA_ok (by omega) _ hx, paaOf_isPaa (by omega) hx⟩
  rw [getPAA_eq H _ hr hs (by omega), assemble_ok H (by omega) hr hs he hL, if_pos hd]

/-- C50 is false: for a part whose length is not a multiple of the block size, an uninitialised variable is read. -/
theorem C50_uninit (ds : Dataset K) (rows : List (List K)) (H : Holds ds (rows.map (·.map fin))) (b : Int) (w : Paa K)
    (hw : Prepared ds b w) (r0 : List K) (hr0 : rows[ds.maxCol.toNat]? = some r0) (c : ℕ) (hc : (c : Int) = min b r0.length)
    (i s e : ℕ) (r : List K) (hr : rows[i]? = some r) (hs : s < e) (he : e ≤ r0.length) (hd : ¬ c ∣ e - s) :
    w.getPAA none ds i s e = .error (.ub "read of the uninitialised variable sum") := by
  obtain ⟨r0', h1, h2, h3, h4, rfl⟩ := prepared_done H hw
  rw [hr0, Option.some.injEq] at h1
  subst h1
  have hL := h4 r (List.mem_of_getElem? hr)
  have hcc : min b.toNat r0.length = c := by omega
  rw [hcc, getPAA_eq H _ hr hs (by omega), assemble_ok H (by omega) hr hs he hL, if_neg hd]

/-- C50 for a compiler that leaves zero in the uninitialised variable: the assembled approximation is the direct one for every
part that ends at `L` or before. -/
theorem C50_zero_partial (ds : Dataset K) (rows : List (List K)) (H : Holds ds (rows.map (·.map fin))) (b : Int) (w : Paa K)
    (hw : Prepared ds b w) (r0 : List K) (hr0 : rows[ds.maxCol.toNat]? = some r0) (c : ℕ) (hc : (c : Int) = min b r0.length)
    (i s e : ℕ) (r : List K) (hr : rows[i]? = some r) (hs : s < e) (he : e ≤ r0.length) :
    ∃ p, w.getPAA (some 0) ds i s e = .ok (p.map fin) ∧ tsPAA (((r.drop s).take (e - s)).map fin) c = .ok (p.map fin) ∧
      IsPaa c ((r.drop s).take (e - s)) p := by
  obtain ⟨r0', h1, h2, h3, h4, rfl⟩ := prepared_done H hw
  rw [hr0, Option.some.injEq] at h1
  subst h1
  have hL := h4 r (List.mem_of_getElem? hr)
  have hcc : min b.toNat r0.length = c := by omega
  have hx : 1 ≤ (sub r s e).length := by rw [sub_length _ _ _ (by omega)]; omega
  rw [hcc]
  refine ⟨paaOf c (sub r s e), ?_, tsPAA_ok (by omega) _ hx, paaOf_isPaa (by omega) hx⟩
  rw [getPAA_eq H _ hr hs (by omega), assemble_zero H (by omega) hr hs he hL]

/-- The two middle points of the first series, in one block that starts between the blocks of the matrix; three points leave a
rest. -/
example := C50_partial exWide exWideRows exWide_holds 2 (exPaa 2) (exPaa_prepared 2 (by omega)) [3, 1, 4, 1] rfl 2 (by decide)
  0 1 3 [1, 3, 4, 6] rfl (by omega) (by simp) (by decide)
example := C50_uninit exWide exWideRows exWide_holds 2 (exPaa 2) (exPaa_prepared 2 (by omega)) [3, 1, 4, 1] rfl 2 (by decide)
  0 1 4 [1, 3, 4, 6] rfl (by omega) (by simp) (by decide)
example := C50_zero_partial exWide exWideRows exWide_holds 2 (exPaa 2) (exPaa_prepared 2 (by omega)) [3, 1, 4, 1] rfl 2
  (by decide) 0 1 4 [1, 3, 4, 6] rfl (by omega) (by simp)
example : (exPaa 2).getPAA none exWide 0 1 3 = .ok [fin (7 / 2)] ∧
    (exPaa 2).getPAA (some 0) exWide 0 1 4 = .ok [fin (7 / 2), fin 6] := by decide +kernel

/-- Five series, the last one shorter. -/
def exRagged : Dataset ℚ :=
  { data := some ([1, 3, 4, 6, 2, 2, 5, 5, 0, 1, 0, 1, 7, 8, 9, 9, 3, 1, 4, 0].map fin), names := [], lengths := [4, 4, 4, 4, 3],
    itemCount := 5, maxCol := 4, filePath := [], normalized := false }

theorem exRagged_holds :
    Holds exRagged (([[1, 3, 4, 6], [2, 2, 5, 5], [0, 1, 0, 1], [7, 8, 9, 9], [3, 1, 4]] : List (List ℚ)).map (·.map fin)) :=
  holds_of_cells _ _ (by decide) (by decide) (by decide) (by decide +kernel)

/-- C50 is false for parts that end after `L`, whatever is left in the variable: the matrix was made from the first `L` points
of each series. -/
theorem C50_long_false : ∃ w0 w, Paa.create exRagged = .ok w0 ∧ w0.generate exRagged 2 = (w, .ok ()) ∧
    w.getPAA none exRagged 0 0 4 = .ok [fin 2, fin 4] ∧ tsPAA (K := ℚ) [fin 1, fin 3, fin 4, fin 6] 2 = .ok [fin 2, fin 5] := by
  refine ⟨⟨none, (List.range 5).map (fun i => [PaaTs.view ⟨4 * i, i, 0, if i = 4 then 3 else 4⟩])⟩, _, by decide +kernel,
    Prod.ext rfl ?_, ?_, ?_⟩ <;> decide +kernel

/-! ## C58, C59 -/

/-- C58: after preparing with block size one, where all series have the same length, not zero, a search with the approximation
does what exhaustive search does: the same result or the same exception. -/
theorem C58_same [HasSqrt K] (ds : Dataset K) (rows : List (List K)) (H : Holds ds (rows.map (·.map fin))) (w : Paa K)
    (hw : Prepared ds 1 w) (L : ℕ) (hL : 1 ≤ L) (hu : ∀ r ∈ rows, r.length = L) (A : Algos (Cand K)) [BandOps] (ratio : ℚ) (q : List K)
    (k : Int) (name : String) :
    w.search none A ratio ds (q.map fin) k name = bruteForce A ratio ds (q.map fin) k name := by
  obtain ⟨r0, h1, h2, h3, h4, rfl⟩ := prepared_done H hw
  have h0 := hu r0 (List.mem_of_getElem? h1)
  rw [h0, show min (1 : Int).toNat L = 1 by omega]
  exact search_one H h3 (List.getElem?_eq_some_iff.1 h1).1 hu none A ratio q k name

/-- C59 is false: with a block size of two or more, and if the shortest series has three points or more, no search returns. -/
theorem C59_false [HasSqrt K] (ds : Dataset K) (rows : List (List K)) (H : Holds ds (rows.map (·.map fin))) (b : Int)
    (hb : 2 ≤ b) (w : Paa K) (hw : Prepared ds b w) (hL : ∀ r ∈ rows, 3 ≤ r.length) (A : Algos (Cand K)) [BandOps] (ratio : ℚ)
    (q : List (Dbl K)) (k : Int) (name : String) (res : List (Cand K)) :
    w.search none A ratio ds q k name ≠ .ok res := by
  obtain ⟨r0, h1, h2, h3, h4, rfl⟩ := prepared_done H hw
  have h0 := hL r0 (List.mem_of_getElem? h1)
  have hg := H.getItemLength (holds_row _ _ h1)
  rw [Int.toNat_of_nonneg h3, List.length_map] at hg
  exact search_never H (fun h => by rw [h] at h1; simp at h1) (by omega) h0 h4 hg A ratio q k name res

/-- C59 in part: with block size one, series of one length and a query of at least one point, the search returns `min k` (number
of subsequences) candidates. -/
theorem C59_partial [HasSqrt K] (A : Algos (Cand K)) (hA : A.Lawful Cand.lt) (m : Metric)
    (hm : m ≠ .sorensen ∧ m ≠ .cosine) (hs : m = .euclidean → LawfulSqrt K) [BandOps] (ratio : ℚ) (hr : 0 ≤ ratio)
    (ds : Dataset K) (rows : List (List K)) (H : Holds ds (rows.map (·.map fin))) (w : Paa K) (hw : Prepared ds 1 w)
    (L : ℕ) (hL : 1 ≤ L) (hu : ∀ r ∈ rows, r.length = L) (q : List K) (hq : 1 ≤ q.length)
    (k : ℕ) (hk : 1 ≤ k) (hW : WellSpaced m ratio rows q) :
    ∃ res, w.search none A ratio ds (q.map fin) k (metricName m) = .ok res ∧ res.length = min k (subCount rows) := by
  obtain ⟨res, e, h, -⟩ := C25_topk A hA m hm hs ratio hr ds rows H q hq k hk hW
  exact ⟨res, by rw [C58_same ds rows H w hw L hL hu, e], h⟩

example := C58_same exWide exWideRows exWide_holds (exPaa 1) (exPaa_prepared 1 (by omega)) 4 (by omega) (by decide)
  (refAlgos Cand.lt) (1 / 2) [3, 2] 2 "manhattan"
example := C59_false exWide exWideRows exWide_holds 2 (by omega) (exPaa 2) (exPaa_prepared 2 (by omega)) (by decide)
  (refAlgos Cand.lt) (1 / 2) [fin 3, fin 2] 2 "manhattan"
example : (exPaa 2).search none (refAlgos Cand.lt) (1 / 2) exWide [fin 3, fin 2] 2 "manhattan" =
    .error (.ub "read of the uninitialised variable sum") := by decide +kernel

/-- Three series of two points, to which `C59_partial` applies. -/
def exSmall : Dataset ℚ :=
  { data := some ([4, 12, 3, 2, 7, 2].map fin), names := [], lengths := [2, 2, 2], itemCount := 3, maxCol := 2, filePath := [],
    normalized := false }
theorem exSmall_holds : Holds exSmall (([[4, 12], [3, 2], [7, 2]] : List (List ℚ)).map (·.map fin)) :=
  holds_of_cells _ _ (by decide) (by decide) (by decide) (by decide +kernel)
example : ∃ w, Prepared exSmall 1 w ∧ ∃ res, w.search none (refAlgos Cand.lt) (1 / 2) exSmall [fin 3, fin 2] (2 : ℕ) "manhattan"
    = .ok res ∧ res.length = 2 := by
  obtain ⟨w, h, hl⟩ := paaCreate_ok exSmall_holds
  have hg := paaGenerate_ok (b := 1) exSmall_holds (by omega) (r0 := [7, 2]) (by decide) rfl (by decide) hl
  refine ⟨_, ⟨w, .created h, hg⟩, ?_⟩
  have := C59_partial (refAlgos Cand.lt) (refAlgos_lawful _) .manhattan (by simp) (by simp) (1 / 2) (by norm_num) exSmall _
    exSmall_holds _ ⟨w, .created h, hg⟩ 2 (by omega) (by decide) [3, 2] (by simp) 2 (by omega)
    (wellSpaced_of_dists [fin (11 / 4), fin 0, fin 1] (by simp) (by norm_num) (by simp) (by decide +kernel) (by decide +kernel))
  exact this

end Genex.Props
