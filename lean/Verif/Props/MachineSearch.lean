import Verif.Lemmas.MachineSearch
import Verif.Props.Machine
import Verif.Props.KSearch

/-!
# C92: `int` of 32 bits in searching

Positions, lengths, the number still to be collected and the counter `extraTimeSeries`, which the k-best search adds to and
which nothing sets back.  The algorithms of the distances and of the standard library are not repeated.
-/

set_option linter.unusedSectionVars false

namespace Genex.Props

open Dbl Spec

variable {K : Type} [Field K] [LinearOrder K] [IsStrictOrderedRing K] [HasSqrt K]

/-! ## The best match -/

/-- C92, lengths: for a query not longer than the longest length the order of lengths is computed without overflow, if the lengths are
at most `2 ^ 30` and the product of the warping band with the longest is an `int`. -/
theorem C92_order [BandOps] (ratio : ℚ) (hr : 0 ≤ ratio) (N q : ℕ) (hN : N ≤ 2 ^ 30) (hb : ⌊BandOps.mul ratio N⌋ < 2 ^ 31) (hq : 1 ≤ q)
    (hqN : q ≤ N) : generateTraverseOrderI ratio q N = generateTraverseOrder ratio q N :=
  traverseI_eq hr hN hb (by omega) (by omega)

/-- C92, best match: no `int` overflows. Missing: the integers inside the distances, longer queries, larger data. -/
theorem C92_best_partial [Arith K] [PairwiseEvals K] [BandOps] (z : GSet K) (rows : List (List (Dbl K))) (ratio : ℚ) (hr : 0 ≤ ratio)
    (name : String) (t : Dbl K) (whole : Bool) (hz : Ready rows name t whole z) (hI : Fits32 z.ds) (hcols : z.ds.maxCol ≤ 2 ^ 30)
    (hb : ⌊BandOps.mul ratio z.ds.maxCol.toNat⌋ < 2 ^ 31) (query : List (Dbl K)) (hle : (query.length : Int) ≤ z.ds.maxCol) :
    z.getBestMatchI ratio query = z.getBestMatch ratio query := by
  obtain ⟨H, hmax, hpos, m', gs, SP, ABS, hname, hgs, U⟩ := hz.usable
  have S := U.spaces
  have hsz : (gs.spaces.length : Int) - 1 = z.ds.maxCol := by have := S.size; omega
  have hN : ((z.ds.maxCol.toNat : ℕ) : Int) = z.ds.maxCol := by omega
  unfold GSet.getBestMatchI GSet.getBestMatch
  simp only [hgs]
  refine bestMatchI_eq S H hI hpos ?_
  intro hq
  have := traverseI_eq hr (N := z.ds.maxCol.toNat) (by omega) hb (q := query.length) (by omega) (by omega)
  rw [hN] at this
  rw [hsz]; exact this

/-! ## The k best -/

section
variable (z : GSet K) (rows : List (List K)) [BandOps] (ratio : ℚ) (hr : 0 ≤ ratio) (m : Metric) (hm : m ≠ .sorensen ∧ m ≠ .cosine)
    (hs : m = .euclidean → LawfulSqrt K) (t : Dbl K) (whole : Bool)
    (hz : Ready (rows.map (·.map fin)) (metricName m) t whole z)
    (A : Algos (Cand K)) (hA : A.Lawful Cand.lt) (B : Algos (GIdx K)) (hB : B.Lawful GIdx.lt)
    (hI : Fits32 z.ds) (harea : z.ds.itemCount * z.ds.maxCol ≤ 2 ^ 30) (hcols : z.ds.maxCol ≤ 2 ^ 30)
    (hb : ⌊BandOps.mul ratio z.ds.maxCol.toNat⌋ < 2 ^ 31)

include hr hm hs hz hA hB hI harea hcols hb

/-- C92, k best: a call adds the size of one of the groups to the counter and subtracts what is asked for more than there is; if
the counter stays an `int` the answer is that of the unbounded model, otherwise the behaviour is undefined.  The group depends on
the query and `h` only.

Missing: as in C39; data of more than `2 ^ 30` values; the integers inside the distances. -/
theorem C92_counter_partial (q : List K) (hq : 1 ≤ q.length) (hle : (q.length : Int) ≤ z.ds.maxCol) (hwide : 2 ≤ z.ds.maxCol) (hW : WellSpaced m ratio rows q)
    (h : ℕ) (hh : 1 ≤ h) (hh' : h < 2 ^ 31) :
    ∃ gs M d, z.groups = some gs ∧ (M.length : Int) ≤ z.ds.itemCount * z.ds.maxCol ∧
      (M = [] ↔ available rows z.ds.maxCol whole ratio q.length = 0) ∧
      (M ≠ [] → IsGroup z.ds gs rows whole m ratio q M d) ∧
      ∀ k : ℕ, k ≤ h → ∃ res, z.getKBestMatches A B ratio (q.map fin) k h = .ok res ∧
        ∀ extra : Int, -2 ^ 31 ≤ extra → extra < 2 ^ 31 →
          z.getKBestMatchesI A B ratio (q.map fin) k h extra =
            if extra + M.length < 2 ^ 31 ∧ -2 ^ 31 ≤ extra + M.length -
                (if M = [] then 0 else h - available rows z.ds.maxCol whole ratio q.length : ℕ)
            then .ok (res, extra + M.length - (if M = [] then 0 else h - available rows z.ds.maxCol whole ratio q.length : ℕ))
            else .error (.ub "int overflow") :=
  counter_ok z rows ratio hr m t whole hz A hA.apart B hB hI harea hcols hb q (dists_exact m hm hs ratio hr q hq) hq hle hwide hW h hh hh'

/-- C92, session: as long as the sizes and the numbers asked for add up to less than `2 ^ 31`, calls of the k-best search, in any
order and with any queries, answer like the unbounded model. -/
theorem C92_session_partial (hwide : 2 ≤ z.ds.maxCol) : ∀ (calls : List (List K × ℕ × ℕ)) (extra : Int),
    (∀ c ∈ calls, 1 ≤ c.1.length ∧ (c.1.length : Int) ≤ z.ds.maxCol ∧ WellSpaced m ratio rows c.1 ∧ 1 ≤ c.2.2 ∧ c.2.1 ≤ c.2.2) →
    |extra| + (calls.map (fun c => z.ds.itemCount * z.ds.maxCol + c.2.2)).sum < 2 ^ 31 →
    ∃ answers extra', calls.mapM (fun c => z.getKBestMatches A B ratio (c.1.map fin) c.2.1 c.2.2) = .ok answers ∧
      z.sessionI A B ratio (calls.map (fun c => (c.1.map fin, (c.2.1 : Int), (c.2.2 : Int)))) extra = .ok (answers, extra') ∧
      |extra'| ≤ |extra| + (calls.map (fun c => z.ds.itemCount * z.ds.maxCol + c.2.2)).sum := by
  have hmax := hz.usable.2.1
  have hs0 : ∀ cs : List (List K × ℕ × ℕ), 0 ≤ (cs.map (fun c => (z.ds.itemCount : Int) * z.ds.maxCol + c.2.2)).sum := by
    intro cs
    apply List.sum_nonneg
    intro x hx
    obtain ⟨c, -, rfl⟩ := List.mem_map.1 hx
    positivity
  intro calls
  induction calls with
  | nil =>
    intro extra _ _
    exact ⟨[], extra, by simp [pure, Except.pure], by simp [GSet.sessionI], by simp⟩
  | cons c cs ih =>
    intro extra hc hsum
    rw [List.map_cons, List.sum_cons] at hsum
    have h0 := hs0 cs
    have ha0 : (0 : Int) ≤ z.ds.itemCount * z.ds.maxCol := by positivity
    have habs := abs_nonneg extra
    obtain ⟨c1, c2, c3, c4, c5⟩ := hc c List.mem_cons_self
    obtain ⟨gs, M, d, -, hlen, -, -, hk⟩ := C92_counter_partial z rows ratio hr m hm hs t whole hz A hA B hB hI harea hcols hb c.1 c1 c2 hwide c3
      c.2.2 c4 (by omega)
    obtain ⟨res, e1, e2⟩ := hk c.2.1 c5
    obtain ⟨hx1, hx2⟩ := abs_le.1 (le_refl |extra|)
    have hover : ((if M = [] then 0 else c.2.2 - available rows z.ds.maxCol whole ratio c.1.length : ℕ) : Int) ≤ c.2.2 := by
      split <;> omega
    have hover0 : (0 : Int) ≤ ((if M = [] then 0 else c.2.2 - available rows z.ds.maxCol whole ratio c.1.length : ℕ) : Int) := by positivity
    have e3 := e2 extra (by omega) (by omega)
    generalize ((if M = [] then 0 else c.2.2 - available rows z.ds.maxCol whole ratio c.1.length : ℕ) : Int) = over at *
    rw [if_pos ⟨by omega, by omega⟩] at e3
    have hnext : |extra + M.length - over| ≤ |extra| + (z.ds.itemCount * z.ds.maxCol + c.2.2) := by
      rw [abs_le]
      constructor <;> omega
    obtain ⟨answers, extra', a1, a2, a3⟩ := ih _ (fun c' h' => hc c' (List.mem_cons_of_mem _ h')) (by omega : |extra + M.length - over| + _ < 2 ^ 31)
    refine ⟨res :: answers, extra', ?_, ?_, ?_⟩
    · rw [List.mapM_cons, e1]
      simp only [bind, Except.bind, a1]; rfl
    · rw [List.map_cons]
      unfold GSet.sessionI
      simp only [e3, bind, Except.bind, a2]
    · rw [List.map_cons, List.sum_cons]
      omega

/-- C92: a search that can be answered in full cannot be repeated without end: the counter grows by the same number every time until
it overflows. -/
theorem C92_repeat_false (q : List K) (hq : 1 ≤ q.length) (hle : (q.length : Int) ≤ z.ds.maxCol) (hwide : 2 ≤ z.ds.maxCol) (hW : WellSpaced m ratio rows q)
    (k h : ℕ) (hh : 1 ≤ h) (hh' : h < 2 ^ 31) (hkh : k ≤ h) (hav : h ≤ available rows z.ds.maxCol whole ratio q.length) :
    ∃ s : ℕ, 0 < s ∧ (s : Int) ≤ z.ds.itemCount * z.ds.maxCol ∧ ∃ res, z.getKBestMatches A B ratio (q.map fin) k h = .ok res ∧
      ∀ n : ℕ, z.sessionI A B ratio (List.replicate n (q.map fin, (k : Int), (h : Int))) 0 =
        if n * s < 2 ^ 31 then .ok (List.replicate n res, n * s) else .error (.ub "int overflow") := by
  obtain ⟨gs, M, d, -, hlen, h0, -, hk⟩ := C92_counter_partial z rows ratio hr m hm hs t whole hz A hA B hB hI harea hcols hb q hq hle hwide hW
    h hh hh'
  obtain ⟨res, e1, e2⟩ := hk k hkh
  have hM : M ≠ [] := fun e => by have := h0.1 e; omega
  refine ⟨M.length, List.length_pos_iff.2 hM, hlen, res, e1, ?_⟩
  intro n
  have key := session_repeat (s := M.length) (res := res) (query := q.map fin) (k := k) (h := h) (z := z) (A := A) (B := B) (ratio := ratio) (by
    intro extra h1 h2
    rw [e2 extra h1 h2, if_neg hM, Nat.sub_eq_zero_of_le hav]
    simp only [Nat.cast_zero, sub_zero]
    by_cases hc : extra + (M.length : Int) < 2 ^ 31
    · rw [if_pos ⟨hc, by omega⟩, if_pos hc]
    · rw [if_neg (fun h => hc h.1), if_neg hc]) n 0 (by norm_num) (by norm_num)
  rw [key, zero_add]
  by_cases hc : n * M.length < 2 ^ 31
  · rw [if_pos hc, if_pos (by exact_mod_cast hc)]
  · rw [if_neg hc, if_neg (by exact_mod_cast hc)]

end

/-! ### Examples and the counter below -/

theorem exGrouped_fits : Fits32 exGrouped.1.ds := ⟨by decide +kernel, by decide +kernel, by decide +kernel, by decide +kernel⟩

example := C92_order (1 / 2) (by norm_num) 5 2 (by norm_num) (by decide +kernel) (by norm_num) (by norm_num)
example := C92_best_partial exGrouped.1 ([[7, 2, 3], [4, 12]].map (·.map fin)) (1 / 2) (by norm_num) _ (fin 10) false exGrouped_ready
  exGrouped_fits (by decide +kernel) (by decide +kernel) [fin 3, fin 2] (by decide +kernel)
example := C92_counter_partial exGrouped.1 [[7, 2, 3], [4, 12]] (1 / 2) (by norm_num) .manhattan (by simp) (by simp)
  (fin 10) false exGrouped_ready (refAlgos Cand.lt) (refAlgos_lawful _) (refAlgos GIdx.lt) (refAlgos_lawful _) exGrouped_fits
  (by decide +kernel) (by decide +kernel) (by decide +kernel) [3, 2] (by simp) (by decide +kernel) (by decide +kernel) exRows_spaced 3 (by norm_num) (by norm_num)
example := C92_session_partial exGrouped.1 [[7, 2, 3], [4, 12]] (1 / 2) (by norm_num) .manhattan (by simp) (by simp)
  (fin 10) false exGrouped_ready (refAlgos Cand.lt) (refAlgos_lawful _) (refAlgos GIdx.lt) (refAlgos_lawful _) exGrouped_fits
  (by decide +kernel) (by decide +kernel) (by decide +kernel) (by decide +kernel) [([3, 2], 1, 3), ([3, 2], 2, 40)] 0
  (by
    intro c hc
    simp only [List.mem_cons, List.not_mem_nil, or_false] at hc
    rcases hc with rfl | rfl
    · exact ⟨by simp, by decide +kernel, exRows_spaced, by norm_num, by norm_num⟩
    · exact ⟨by simp, by decide +kernel, exRows_spaced, by norm_num, by norm_num⟩)
  (by decide +kernel)
example := C92_repeat_false exGrouped.1 [[7, 2, 3], [4, 12]] (1 / 2) (by norm_num) .manhattan (by simp) (by simp)
  (fin 10) false exGrouped_ready (refAlgos Cand.lt) (refAlgos_lawful _) (refAlgos GIdx.lt) (refAlgos_lawful _) exGrouped_fits
  (by decide +kernel) (by decide +kernel) (by decide +kernel) [3, 2] (by simp) (by decide +kernel) (by decide +kernel) exRows_spaced 2 3 (by norm_num) (by norm_num)
  (by norm_num) (by decide +kernel)

/-- The counter of one call, and that it starts where the call before ended. -/
example : exGrouped.1.sessionI (refAlgos Cand.lt) (refAlgos GIdx.lt) (1 / 2) [([fin 3, fin 2], 1, 1), ([fin 3, fin 2], 1, 1)] 0 =
    .ok ([[.cand ⟨⟨0, 0, 0, 3⟩, fin (5 / 6)⟩], [.cand ⟨⟨0, 0, 0, 3⟩, fin (5 / 6)⟩]], 2) := by decide +kernel

/-- C92 is false of the counter: the same call, of which the first is answered, is undefined the second time. -/
theorem C92_counter_false : ∃ (z : GSet ℚ) (rows : List (List ℚ)) (q : List ℚ) (res : List (GSet.Entry ℚ)) (e : Int),
    Ready (rows.map (·.map fin)) "manhattan" (fin 10) false z ∧ Fits32 z.ds ∧ 2 ≤ q.length ∧ (q.length : Int) ≤ z.ds.maxCol ∧
    WellSpaced .manhattan (1 / 2) rows q ∧
    z.getKBestMatches (refAlgos Cand.lt) (refAlgos GIdx.lt) (1 / 2) (q.map fin) 1 (2 ^ 31 - 1) = .ok res ∧
    z.getKBestMatchesI (refAlgos Cand.lt) (refAlgos GIdx.lt) (1 / 2) (q.map fin) 1 (2 ^ 31 - 1) 0 = .ok (res, e) ∧
    z.getKBestMatchesI (refAlgos Cand.lt) (refAlgos GIdx.lt) (1 / 2) (q.map fin) 1 (2 ^ 31 - 1) e = .error (.ub "int overflow") := by
  have ha : available (K := ℚ) [[7, 2, 3], [4, 12]] exGrouped.1.ds.maxCol false (1 / 2) 2 = 4 := by decide +kernel
  have hl : (exGrouped.1.ds.itemCount : Int) * exGrouped.1.ds.maxCol = 6 := by decide +kernel
  obtain ⟨gs, M, d, -, h1, h2, -, h3⟩ := C92_counter_partial exGrouped.1 [[7, 2, 3], [4, 12]] (1 / 2) (by norm_num) .manhattan (by simp)
    (by simp) (fin 10) false exGrouped_ready (refAlgos Cand.lt) (refAlgos_lawful _) (refAlgos GIdx.lt) (refAlgos_lawful _) exGrouped_fits
    (by decide +kernel) (by decide +kernel) (by decide +kernel) [3, 2] (by simp) (by decide +kernel) (by decide +kernel) exRows_spaced (2 ^ 31 - 1)
    (by norm_num) (by norm_num)
  obtain ⟨res, h4, h5⟩ := h3 1 (by norm_num)
  have hM : M ≠ [] := fun e => by
    have := h2.1 e
    simp only [List.length_cons, List.length_nil] at this
    rw [ha] at this; cases this
  have hc : ((2 ^ 31 - 1 : ℕ) : Int) = 2 ^ 31 - 1 := by norm_num
  rw [hc] at h4
  simp only [List.length_cons, List.length_nil] at h5
  norm_num only [ha, if_neg hM] at h5
  rw [hl] at h1
  refine ⟨exGrouped.1, [[7, 2, 3], [4, 12]], [3, 2], res, M.length - 2147483643, exGrouped_ready, exGrouped_fits, by simp,
    by decide +kernel, exRows_spaced, h4, ?_, ?_⟩
  · have := h5 0 (by norm_num) (by norm_num)
    rw [if_pos (by constructor <;> omega), zero_add] at this
    norm_num only at this ⊢
    exact this
  · have := h5 (M.length - 2147483643) (by omega) (by omega)
    rw [if_neg (by omega)] at this
    norm_num only at this ⊢
    exact this

end Genex.Props
