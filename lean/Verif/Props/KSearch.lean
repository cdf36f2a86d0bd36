import Verif.Lemmas.KSearchAll

/-!
# C37-C40: k-best search of a grouped dataset
-/

set_option linter.unusedSectionVars false

namespace Genex.Props

open Dbl Spec

variable {K : Type} [Field K] [LinearOrder K] [IsStrictOrderedRing K] [HasSqrt K]

section
variable (z : GSet K) (rows : List (List K)) [BandOps] (ratio : ℚ) (hr : 0 ≤ ratio) (m : Metric) (hm : m ≠ .sorensen ∧ m ≠ .cosine)
    (hs : m = .euclidean → LawfulSqrt K) (t : Dbl K) (whole : Bool)
    (hz : Ready (rows.map (·.map fin)) (metricName m) t whole z)
    (A : Algos (Cand K)) (hA : A.Lawful Cand.lt) (B : Algos (GIdx K)) (hB : B.Lawful GIdx.lt)
    (q : List K) (hq : 1 ≤ q.length) (hle : (q.length : Int) ≤ z.ds.maxCol) (hwide : 2 ≤ z.ds.maxCol) (hW : WellSpaced m ratio rows q)

include hr hm hs hz hA hB hq hle hwide hW

/-! ## C37 -/

/-- C37: the search collects `min h available` different subsequences of the lengths considered with their exact distances;
a group of which something is collected does not have a representative farther than a group of which nothing is collected; at
most one group is collected in part, it has the farthest representative of all the groups collected, and the members
collected are nearest.

Missing: queries longer than the width of the dataset, for which this is false, see `C37_long_query_false`; datasets of
which no series has two points; distances closer than `1e-9` but different; the metrics sorensen and cosine. -/
theorem C37_partial (h : ℕ) (hh : 1 ≤ h) :
    ∃ gs res, z.groups = some gs ∧ gs.getKBestMatches A B z.ds ratio (q.map fin) h = .ok res ∧
      res.length = min h (available rows z.ds.maxCol whole ratio q.length) ∧
      (res.map Cand.view).Nodup ∧
      (∀ c ∈ res, IsFound rows z.ds.maxCol whole m ratio q c.view c.dist) ∧
      (∀ M d M' d', IsGroup z.ds gs rows whole m ratio q M d → IsGroup z.ds gs rows whole m ratio q M' d' →
        (∃ v ∈ M, v ∈ res.map Cand.view) → (∀ v ∈ M', v ∉ res.map Cand.view) → d ≤ d') ∧
      (∀ M d, IsGroup z.ds gs rows whole m ratio q M d → (∃ v ∈ M, v ∈ res.map Cand.view) →
        (∃ v ∈ M, v ∉ res.map Cand.view) →
        (∀ M' d', IsGroup z.ds gs rows whole m ratio q M' d' → (∃ v ∈ M', v ∈ res.map Cand.view) →
          d' ≤ d ∧ (M' = M ∨ ∀ v ∈ M', v ∈ res.map Cand.view)) ∧
        ∀ c ∈ res, c.view ∈ M → ∀ v ∈ M, v ∉ res.map Cand.view → ∀ e, IsFound rows z.ds.maxCol whole m ratio q v e →
          c.dist ≤ e) :=
  kbest_collect z rows ratio hr m t whole hz A hA.apart B hB q (dists_exact m hm hs ratio hr q hq) hq hle hwide hW h hh

/-- What the k-best search returns. -/
theorem kbest_result (k h : ℕ) (hh : 1 ≤ h) (hkh : k ≤ h) :
    ∃ res : List (Cand K), z.getKBestMatches A B ratio (q.map fin) k h =
        .ok (res.map GSet.Entry.cand ++ List.replicate (k - available rows z.ds.maxCol whole ratio q.length) .pad) ∧
      res.length = min k (available rows z.ds.maxCol whole ratio q.length) ∧
      (res.map Cand.view).Nodup ∧
      (∀ c ∈ res, IsFound rows z.ds.maxCol whole m ratio q c.view c.dist) ∧
      res.Pairwise (fun c c' => c.dist ≤ c'.dist) ∧
      (available rows z.ds.maxCol whole ratio q.length ≤ h → ∀ v d, IsFound rows z.ds.maxCol whole m ratio q v d →
        v ∉ res.map Cand.view → ∀ c ∈ res, c.dist ≤ d) :=
  kbest_return z rows ratio hr m t whole hz A hA.apart B hB q (dists_exact m hm hs ratio hr q hq) hq hle hwide hW k h hh hkh

/-! ## C38 -/

/-- C38: with a budget of at least the number of subsequences of comparable lengths and `k` at most that number, the search
returns the `k` nearest of them with exact distances in non-decreasing order.  Only for distances that are equal or at least
`1e-9` apart, the three metrics, and queries not longer than the width of the dataset. -/
theorem C38_exhaustive_partial (k h : ℕ) (hh : 1 ≤ h) (hk : k ≤ available rows z.ds.maxCol whole ratio q.length)
    (hav : available rows z.ds.maxCol whole ratio q.length ≤ h) :
    ∃ res : List (Cand K), z.getKBestMatches A B ratio (q.map fin) k h = .ok (res.map GSet.Entry.cand) ∧
      res.length = k ∧
      (res.map Cand.view).Nodup ∧
      (∀ c ∈ res, IsFound rows z.ds.maxCol whole m ratio q c.view c.dist) ∧
      res.Pairwise (fun c c' => c.dist ≤ c'.dist) ∧
      (∀ v d, IsFound rows z.ds.maxCol whole m ratio q v d → v ∉ res.map Cand.view → ∀ c ∈ res, c.dist ≤ d) := by
  obtain ⟨res, h1, h2, h3, h4, h5, h6⟩ := kbest_result z rows ratio hr m hm hs t whole hz A hA B hB q hq hle hwide hW k h hh (by omega)
  refine ⟨res, ?_, by omega, h3, h4, h5, h6 hav⟩
  rw [h1, show k - available rows z.ds.maxCol whole ratio q.length = 0 by omega, List.replicate_zero, List.append_nil]

/-! ## C39 -/

/-- C39, as far as it holds: the entries returned are subsequences with their exact distances in non-decreasing order, none
twice, followed by as many default-constructed entries as `k` exceeds the number of subsequences of comparable lengths.

Missing: that there are no such entries, which is false, see `C39_false`. -/
theorem C39_partial (k h : ℕ) (hh : 1 ≤ h) (hkh : k ≤ h) :
    ∃ res : List (Cand K), z.getKBestMatches A B ratio (q.map fin) k h =
        .ok (res.map GSet.Entry.cand ++ List.replicate (k - available rows z.ds.maxCol whole ratio q.length) .pad) ∧
      res.length = min k (available rows z.ds.maxCol whole ratio q.length) ∧
      (res.map Cand.view).Nodup ∧
      (∀ c ∈ res, IsFound rows z.ds.maxCol whole m ratio q c.view c.dist) ∧
      res.Pairwise (fun c c' => c.dist ≤ c'.dist) := by
  obtain ⟨res, h1, h2, h3, h4, h5, -⟩ := kbest_result z rows ratio hr m hm hs t whole hz A hA B hB q hq hle hwide hW k h hh hkh
  exact ⟨res, h1, h2, h3, h4, h5⟩

end

/-! ## C40 -/

/-- C40: the best match of a grouped dataset is not nearer than the first result of the exhaustive search, if distances are
equal or at least `1e-9` apart.  Missing: other distances, where it is false, see `C40_false`. -/
theorem C40_partial (z : GSet K) (rows : List (List K)) [BandOps] (ratio : ℚ) (hr : 0 ≤ ratio) (m : Metric)
    (hm : m ≠ .sorensen ∧ m ≠ .cosine) (hs : m = .euclidean → LawfulSqrt K) (t : Dbl K) (whole : Bool)
    (hz : Ready (rows.map (·.map fin)) (metricName m) t whole z) (A : Algos (Cand K)) (hA : A.Lawful Cand.lt) (q : List K) (hW : WellSpaced m ratio rows q)
    (c : Cand K) (hc : z.getBestMatch ratio (q.map fin) = .ok c) (k : ℕ) (hk : 1 ≤ k) :
    ∃ b res, bruteForce A ratio z.ds (q.map fin) k (metricName m) = .ok (b :: res) ∧ b.dist ≤ c.dist := by
  obtain ⟨H, hmax, -, m', gs, SP, ABS, hname, hgs, U⟩ := hz.usable
  obtain rfl := metricName_inj hname
  have hq : 2 ≤ q.length := by
    by_contra h
    have hoth := (best_other (s := z) ratio _ U.warped U.spaces.size (q.map fin)).1
    rw [List.length_map] at hoth
    obtain ⟨msg, e⟩ := hoth (by omega)
    simp only [GSet.getBestMatch, hgs] at hc
    rw [e] at hc; cases hc
  have hle : (q.length : Int) ≤ z.ds.maxCol := by
    by_contra h
    have hoth := (best_other (s := z) ratio _ U.warped U.spaces.size (q.map fin)).2
    rw [List.length_map] at hoth
    simp only [GSet.getBestMatch, hgs] at hc
    rcases hoth hq (by omega) with e | e <;> rw [e] at hc <;> cases hc
  obtain ⟨ℓ, i, p, y, x, hcon, hy, hv, -, hd, hx⟩ :=
    C34_best_match z rows ratio hr m hm hs t whole hz q c hc
  have h2 := considered_two hq hle hcon
  obtain ⟨r, hr', hl, rfl⟩ := hy
  have hsub : IsSub rows i p (p + ℓ) ((r.drop p).take ℓ) := ⟨r, hr', by omega, hl, by rw [Nat.add_sub_cancel_left]⟩
  obtain ⟨res, e, hlen, -, hreal, hpw, hrest⟩ :=
    C25_topk A hA m hm hs ratio hr z.ds rows H q (by omega) k hk hW
  have hcount : 1 ≤ subCount rows := by
    unfold subCount
    have hmem : r.length * (r.length - 1) / 2 ∈ rows.map (fun r => r.length * (r.length - 1) / 2) :=
      List.mem_map_of_mem (f := fun r : List K => r.length * (r.length - 1) / 2) (List.mem_of_getElem? hr')
    have h3 := List.single_le_sum (fun _ _ => Nat.zero_le _) _ hmem
    have h4 : 2 * 1 ≤ r.length * (r.length - 1) := Nat.mul_le_mul (by omega) (by omega)
    omega
  cases res with
  | nil => simp only [List.length_nil] at hlen; omega
  | cons b res =>
    refine ⟨b, res, e, ?_⟩
    by_cases hex : ∃ c' ∈ b :: res, c'.view.index = i ∧ c'.view.start = p ∧ c'.view.stop = ((p + ℓ : ℕ) : Int)
    · obtain ⟨c', hc', e1, e2, e3⟩ := hex
      obtain ⟨i', p', e', x', ⟨r', g1, g2, g3, rfl⟩, f1, f2, f3, -, hd'⟩ := hreal c' hc'
      have hi : i' = i := by omega
      have hp' : p' = p := by omega
      have he : e' = p + ℓ := by omega
      subst hi hp' he
      rw [hr', Option.some.injEq] at g1
      subst g1
      rw [Nat.add_sub_cancel_left] at hd'
      replace hd' := dtw_unique hd hd'
      rw [hd']
      rcases List.mem_cons.1 hc' with rfl | h
      · rw [← hd', hx]
        exact Dbl.le_refl (by simp)
      · exact (List.pairwise_cons.1 hpw).1 c' h
    · push Not at hex
      refine hrest i p (p + ℓ) _ c.dist hsub hd ?_ b (by simp)
      intro c' hc' ⟨h1, h2, h3⟩
      exact hex c' hc' h1 h2 h3

/-! ### Examples and the cases where the claims are false -/

/-- The hypotheses are met: a budget of three leaves out one subsequence of the four. -/
example := C37_partial exGrouped.1 [[7, 2, 3], [4, 12]] (1 / 2) (by norm_num) .manhattan (by simp) (by simp)
  (fin 10) false exGrouped_ready (refAlgos Cand.lt) (refAlgos_lawful _)
  (refAlgos GIdx.lt) (refAlgos_lawful _) [3, 2] (by simp) (by decide +kernel) (by decide +kernel) exRows_spaced 3 (by norm_num)
example := C38_exhaustive_partial exGrouped.1 [[7, 2, 3], [4, 12]] (1 / 2) (by norm_num) .manhattan (by simp) (by simp)
  (fin 10) false exGrouped_ready (refAlgos Cand.lt)
  (refAlgos_lawful _) (refAlgos GIdx.lt) (refAlgos_lawful _) [3, 2] (by simp) (by decide +kernel) (by decide +kernel) exRows_spaced 2 4
  (by norm_num) (by decide +kernel) (by decide +kernel)
example := C39_partial exGrouped.1 [[7, 2, 3], [4, 12]] (1 / 2) (by norm_num) .manhattan (by simp) (by simp)
  (fin 10) false exGrouped_ready (refAlgos Cand.lt) (refAlgos_lawful _)
  (refAlgos GIdx.lt) (refAlgos_lawful _) [3, 2] (by simp) (by decide +kernel) (by decide +kernel) exRows_spaced 2 3 (by norm_num) (by norm_num)
example := C40_partial exGrouped.1 [[7, 2, 3], [4, 12]] (1 / 2) (by norm_num) .manhattan (by simp) (by simp)
  (fin 10) false exGrouped_ready (refAlgos Cand.lt) (refAlgos_lawful _)
  [3, 2] exRows_spaced ⟨⟨0, 0, 0, 3⟩, fin (5 / 6)⟩ (by decide +kernel) 1 (by norm_num)

/-- A query with one point: the three subsequences with two points have comparable lengths. -/
theorem exRows_spaced_one : WellSpaced (K := ℚ) .manhattan (1 / 2) [[7, 2, 3], [4, 12]] [3] :=
  wellSpaced_of_dists [fin (5 / 4), fin (1 / 4), fin (5 / 6), fin (5 / 2)] (by simp) (by norm_num) (by simp) (by decide +kernel) (by decide +kernel)

example := C37_partial exGrouped.1 [[7, 2, 3], [4, 12]] (1 / 2) (by norm_num) .manhattan (by simp) (by simp)
  (fin 10) false exGrouped_ready (refAlgos Cand.lt) (refAlgos_lawful _)
  (refAlgos GIdx.lt) (refAlgos_lawful _) [3] (by simp) (by decide +kernel) (by decide +kernel) exRows_spaced_one 2 (by norm_num)
example := C38_exhaustive_partial exGrouped.1 [[7, 2, 3], [4, 12]] (1 / 2) (by norm_num) .manhattan (by simp) (by simp)
  (fin 10) false exGrouped_ready (refAlgos Cand.lt)
  (refAlgos_lawful _) (refAlgos GIdx.lt) (refAlgos_lawful _) [3] (by simp) (by decide +kernel) (by decide +kernel) exRows_spaced_one 2 3
  (by norm_num) (by decide +kernel) (by decide +kernel)
example : exGrouped.1.getKBestMatches (refAlgos Cand.lt) (refAlgos GIdx.lt) (1 / 2) [fin 3] 2 3 =
    .ok [.cand ⟨⟨0, 0, 1, 3⟩, fin (1 / 4)⟩, .cand ⟨⟨0, 0, 0, 2⟩, fin (5 / 4)⟩] := by decide +kernel

/-- With a budget of one the search finds the only member of the group with the nearest representative, although there is a
nearer subsequence. -/
example : exGrouped.1.getKBestMatches (refAlgos Cand.lt) (refAlgos GIdx.lt) (1 / 2) [fin 3, fin 2] 1 1 =
    .ok [.cand ⟨⟨0, 0, 0, 3⟩, fin (5 / 6)⟩] := by decide +kernel

/-- C37 is false for a query with more points than the longest series. -/
theorem C37_long_query_false : ∃ (s : GSet ℚ) (rows : List (List ℚ)) (out : GSet ℚ × Res Int) (N : Int) (q : List ℚ),
    Holds s.ds (rows.map (·.map fin)) ∧
    GSet.GroupAll (1 / 10) (fun _ => false) "manhattan" (fin 10) false 1 s out ∧ out.2 = .ok N ∧
    out.1.getKBestMatches (refAlgos Cand.lt) (refAlgos GIdx.lt) (1 / 10) (q.map fin) 1 1 =
      .error (.ub "localLengthGroupSpace index out of bounds") :=
  ⟨exSet, [[7, 2, 3], [4, 12]], exGrouped, 3, [1, 2, 3, 4], exSet_holds, exGrouped_run, exGrouped_ok, by decide +kernel⟩

/-- A budget of zero reads the front of an empty vector. -/
theorem C37_zero_budget : exGrouped.1.getKBestMatches (refAlgos Cand.lt) (refAlgos GIdx.lt) (1 / 2) [fin 3, fin 2] 0 0 =
    .error (.ub "front() of an empty vector") := by decide +kernel

/-- C39 is false: five results are asked for, there are four subsequences, and the fifth entry is not one. -/
theorem C39_false : ∃ (s : GSet ℚ) (rows : List (List ℚ)) (out : GSet ℚ × Res Int) (N : Int) (q : List ℚ)
    (res : List (GSet.Entry ℚ)), Holds s.ds (rows.map (·.map fin)) ∧
    GSet.GroupAll (1 / 10) (fun _ => false) "manhattan" (fin 10) false 1 s out ∧ out.2 = .ok N ∧
    out.1.getKBestMatches (refAlgos Cand.lt) (refAlgos GIdx.lt) (1 / 2) (q.map fin) 5 5 = .ok res ∧ .pad ∈ res := by
  refine ⟨exSet, [[7, 2, 3], [4, 12]], exGrouped, 3, [3, 2], [.cand ⟨⟨0, 0, 1, 3⟩, fin (1 / 2)⟩,
    .cand ⟨⟨0, 0, 0, 3⟩, fin (5 / 6)⟩, .cand ⟨⟨0, 0, 0, 2⟩, fin 1⟩, .cand ⟨⟨3, 1, 0, 2⟩, fin (11 / 4)⟩, .pad],
    exSet_holds, exGrouped_run, exGrouped_ok, by decide +kernel, by simp⟩

/-- Two series whose distances from `0 0` differ by less than `1e-9`. -/
def exNear : GSet ℚ := ⟨⟨some [fin (1 / 10 ^ 10), fin 0, fin 0, fin 0], [], [2, 2], 2, 2, [], false⟩, none⟩

def exNearGrouped : GSet ℚ × Res Int :=
  exNear.groupAllLengths (GSpace.group exNear.ds (1 / 10) (fun _ => false) "manhattan" (fin 10) false)
    (fun _ => (GSpace.fresh, .ok 0)) 1

theorem exNear_holds : Holds exNear.ds [[fin (1 / 10 ^ 10), fin 0], [fin 0, fin 0]] := by
  refine ⟨rfl, rfl, ?_, ?_⟩
  · intro i r hr
    match i, hr with
    | 0, hr => simp at hr; subst hr; decide
    | 1, hr => simp at hr; subst hr; decide
  · intro i r hr j x hx
    match i, hr with
    | 0, hr =>
      simp at hr; subst hr
      match j, hx with
      | 0, hx => simp at hx; subst hx; decide +kernel
      | 1, hx => simp at hx; subst hx; decide +kernel
    | 1, hr =>
      simp at hr; subst hr
      match j, hx with
      | 0, hx => simp at hx; subst hx; decide +kernel
      | 1, hx => simp at hx; subst hx; decide +kernel

/-- C40 is false: the exhaustive search keeps the first of two series whose distances differ by less than `1e-9`, the
grouped search finds the nearer one. -/
theorem C40_false : ∃ (s : GSet ℚ) (rows : List (List ℚ)) (out : GSet ℚ × Res Int) (N : Int) (q : List ℚ) (b c : Cand ℚ),
    Holds s.ds (rows.map (·.map fin)) ∧
    GSet.GroupAll (1 / 10) (fun _ => false) "manhattan" (fin 10) false 1 s out ∧ out.2 = .ok N ∧
    out.1.getBestMatch (1 / 10) (q.map fin) = .ok c ∧
    bruteForce (refAlgos Cand.lt) (1 / 10) out.1.ds (q.map fin) 1 "manhattan" = .ok [b] ∧ c.dist < b.dist :=
  ⟨exNear, [[1 / 10 ^ 10, 0], [0, 0]], exNearGrouped, 1, [0, 0], ⟨⟨0, 0, 0, 2⟩, fin (1 / 40000000000)⟩,
    ⟨⟨2, 1, 0, 2⟩, fin 0⟩, exNear_holds, ⟨(GSpace.fresh, .ok 0), fun h => absurd h (by decide), rfl⟩, by decide +kernel,
    by decide +kernel, by decide +kernel, by decide +kernel⟩

/-- C38 is false for distances closer than `1e-9`: with a budget that covers everything the one result asked for is not the nearest, and
two results are not in order. -/
theorem C38_close_false : ∃ (s : GSet ℚ) (rows : List (List ℚ)) (out : GSet ℚ × Res Int) (N : Int) (q : List ℚ) (c c' : Cand ℚ),
    Holds s.ds (rows.map (·.map fin)) ∧
    GSet.GroupAll (1 / 10) (fun _ => false) "manhattan" (fin 10) false 1 s out ∧ out.2 = .ok N ∧
    out.1.getKBestMatches (refAlgos Cand.lt) (refAlgos GIdx.lt) (1 / 10) (q.map fin) 1 2 = .ok [.cand c] ∧
    out.1.getKBestMatches (refAlgos Cand.lt) (refAlgos GIdx.lt) (1 / 10) (q.map fin) 2 2 = .ok [.cand c, .cand c'] ∧ c'.dist < c.dist :=
  ⟨exNear, [[1 / 10 ^ 10, 0], [0, 0]], exNearGrouped, 1, [0, 0], ⟨⟨0, 0, 0, 2⟩, fin (1 / 40000000000)⟩,
    ⟨⟨2, 1, 0, 2⟩, fin 0⟩, exNear_holds, ⟨(GSpace.fresh, .ok 0), fun h => absurd h (by decide), rfl⟩, by decide +kernel,
    by decide +kernel, by decide +kernel, by decide +kernel⟩

end Genex.Props
