import Verif.Props.MachineRun
import Verif.Model.MachineBrute

/-!
# C97: from the file to the k best matches on the machine
-/

set_option linter.unusedSectionVars false

namespace Genex.Props

open Dbl Spec Genex.Registry

section

variable {K : Type} [Field K] [LinearOrder K] [HasSqrt K] [IsStrictOrderedRing K]

/-- C97: one k-best search with `int`s of 32 bits, rounded, and with a greatest number computes the answer and the counter that it would
compute with distances that are rounded only.  Missing: cosine and Sorensen; data that is longer or greater. -/
theorem C97_double_partial [BandOps] (rd : K → K) (hrd : Spec.Rounding rd) (X B : K) (hX : rd X = X) (hX1 : 1 ≤ X) (hB : 0 ≤ B) (L : ℕ) (m : Metric)
    (hs : m = .euclidean → LawfulSqrt K) (hN : NoOverflow rd X B (2 * L) m) (ratio : ℚ) (hr : 0 ≤ ratio) (z : GSet K)
    (rows : List (List (Dbl K))) (t : Dbl K) (whole : Bool)
    (hz : @Ready K _ _ (overflowArith (rndMax rd X)) rows (metricName m) t whole z) (hd : DataBelow B z.ds) (hL : DataSize L z.ds)
    (hb : ⌊BandOps.mul ratio L⌋ < 2 ^ 31) (hlim : L < lengthLimit (if m = .euclidean then .cascade else .warped m))
    (A : Algos (Cand K)) (A' : Algos (GIdx K)) (query : List (Dbl K)) (hqB : ∀ x ∈ query, Below B x) (hqL : query.length ≤ L)
    (k h extra : Int) :
    @GSet.getKBestMatchesI K _ (machineArith (rndMax rd X)) A A' _ ratio z query k h extra =
      @GSet.getKBestMatchesI K _ (roundedArith rd) A A' _ ratio z query k h extra := by
  obtain ⟨m', gs, hname, hgs, hin, hwarp⟩ := @ready_in K _ _ _ _ rows _ t whole z (overflowArith (rndMax rd X)) (overflow_evals _) hz
    (fun pts => (∀ x ∈ pts, Below B x) ∧ pts.length ≤ L)
  have hm : m' = m := by
    cases m <;> cases m' <;> first | rfl | (exfalso; revert hname; decide)
  subst hm
  unfold GSet.getKBestMatchesI
  rw [hgs]
  simp only
  rw [kbestI_congr (A₁ := machineArith (rndMax rd X)) (A₂ := roundedArith rd) A A' (points_below hd hL) ⟨hqB, hqL⟩ hin]
  intro w hw
  rw [hwarp] at hw
  cases hw
  intro a b d ha hb'
  refine (machine_agree hr hb _ _ hlim a b d ha.2 hb'.2).trans (agrees rd hrd X B hX hX1 hB L m' hs hN ratio hr ?_ a b d ha hb')
  split
  · rename_i h; rw [h]; rfl
  · rfl

end

section

variable {K : Type} [Field K] [LinearOrder K] [IsStrictOrderedRing K] [FloorRing K] [HasSqrt K] [BandOps]

/-- C97: loading a file, normalising it or not, grouping it and asking for `k` matches among `h` members has no `int` overflow, in the
counter of left out members neither, and no other undefined behaviour, and throws nothing.  The answer are `k` of the parts of the lines
of a length comparable with the query, or all of them and entries without a series, nearest first, each with its DTW distance up to the
error of rounding; if all may be examined no other is nearer by more than that error.  Missing: computed distances must be equal or more
than `1e-9` apart. -/
theorem C97_run_partial (parse : Text → Parsed K) (j : Job K) (log : ℕ → Bool) (st W : ℕ) (file : List (List K))
    (hf : Manageable parse j log st W file) (A : Algos (Cand K)) (hA : A.Lawful (Cand.ltR roundDouble)) (B : Algos (GIdx K))
    (hB : B.Lawful GIdx.lt) (m : Metric) (hm : m ≠ .sorensen ∧ m ≠ .cosine) (hs : m = .euclidean → LawfulSqrt K)
    (hname : j.distance = metricName m) (τ : K) (ht : j.threshold = fin τ) (hw : j.whole = false)
    (ratio : ℚ) (hr : 0 ≤ ratio) (hband : ⌊BandOps.mul ratio ((linesOf j.content).length * W : ℕ)⌋ < 2 ^ 31)
    (i p n : ℕ) (line : List K) (hi : file[i]? = some line) (hn : 2 ≤ n) (hpn : p + n ≤ line.length)
    (hidx : j.index = i) (hstart : j.start = p) (hstop : j.stop = (p + n : ℕ))
    (e : K) (he : 12 * ((n : K) + W) ≤ e * 2 ^ 53) (he1 : e ≤ 1) (k h : ℕ) (hh : 1 ≤ h) (hkh : k ≤ h) (extra : Int)
    (hextra : |extra| + file.length * W + h < 2 ^ 31) :
    ∃ rows q, (j.norm = false → rows = file) ∧ (j.norm = true → Scaled roundDouble file rows) ∧ SubOf rows n i p q ∧
      (SpacedFor (Computed roundDouble m ratio q) rows →
        ∃ (res : List (Cand K)) (extra' : Int), j.kbestI (rndMax roundDouble maxDouble) parse A B ratio log k h extra =
            .ok (res.map GSet.Entry.cand ++ List.replicate (k - partCount rows ratio n) .pad, extra') ∧
          |extra'| ≤ |extra| + file.length * W + h ∧
          res.length = min k (partCount rows ratio n) ∧
          (res.map (fun c => (c.view.index, c.view.start, c.view.stop))).Nodup ∧
          (∀ c ∈ res, ∃ i p ℓ y, Names c i p ℓ ∧ SubOf rows ℓ i p y ∧ 2 ≤ ℓ ∧ Comparable ratio n ℓ ∧
            NearDtw m ratio e (4 * (1 / 2 ^ 537)) q y c.dist ∧
            (partCount rows ratio n ≤ h → ∀ i' p' ℓ' y' D', SubOf rows ℓ' i' p' y' → 2 ≤ ℓ' → Comparable ratio n ℓ' →
              Dtw m ratio q y' (fin D') → (∀ c ∈ res, ¬ Names c i' p' ℓ') →
              ∃ D, Dtw m ratio q y (fin D) ∧ (1 - e) * D ≤ (1 + e) * D' + 8 * (1 / 2 ^ 537))) ∧
          res.Pairwise (fun c c' => c.dist ≤ c'.dist)) := by
  have hne : ∃ r ∈ file, r ≠ [] := ⟨line, List.mem_of_getElem? hi, fun e => by rw [e] at hpn; simp at hpn; omega⟩
  obtain ⟨ds, rows, hd, P⟩ := dataI_ok hf.toReadable hne
  obtain ⟨r, hir, hrl⟩ : ∃ r, rows[i]? = some r ∧ r.length = line.length := by
    have := congrArg (·[i]?) P.lens
    simp only [List.getElem?_map, hi] at this
    cases hr' : rows[i]? with
    | none => rw [hr'] at this; cases this
    | some r => rw [hr'] at this; exact ⟨r, rfl, by simpa using this⟩
  obtain ⟨z, hz, hds, R1, R2⟩ := groupI_ok (ratio := ratio) hf P ⟨r, List.mem_of_getElem? hir, fun e => by rw [e] at hrl; simp at hrl; omega⟩
    hm hs τ hname ht hw
  have hsl : (sub r p (p + n)).length = n := by rw [sub_length r p (p + n) (by omega)]; omega
  have hq : SubOf rows n i p (sub r p (p + n)) := ⟨r, hir, by omega, by unfold sub; congr 1; omega⟩
  refine ⟨rows, sub r p (p + n), P.plain, P.scaled, hq, fun hsp => ?_⟩
  obtain ⟨h1, h2⟩ := P.holds.view_points hir (show p < p + n by omega) (by omega)
  obtain ⟨h3, h4⟩ := C91_access_partial ds _ P.holds P.fits i p (p + n : ℕ)
  have hsz := hf.size
  have hmaxW : z.ds.maxCol ≤ W := by rw [hds, P.width]; omega
  have hFl : ∀ r ∈ rows, Floats roundDouble r := fun r hr => (P.values r hr).1
  have hFq : Floats roundDouble (sub r p (p + n)) := fun x hx =>
    hFl r (List.mem_of_getElem? hir) x (List.mem_of_mem_drop (List.mem_of_mem_take hx))
  have hpos : 0 < file.length := List.length_pos_iff.2 hf.has.some
  have hlines : file.length ≤ (linesOf j.content).length := by
    have := congrArg List.length hf.has.numbers
    have h5 := firstLines_le j.maxNumRow j.content
    simp at this
    omega
  have hW1 : W ≤ (linesOf j.content).length * W := Nat.le_mul_of_pos_left W (by omega)
  have hrW : (r.length : Int) ≤ ds.maxCol := by
    have := P.holds.fits i (r.map fin) (by rw [List.getElem?_map, hir]; rfl)
    simpa using this
  have hcount : z.ds.itemCount = file.length := by
    rw [hds, P.holds.count, List.length_map]
    simpa using congrArg List.length P.lens
  have hmax0 : 0 ≤ z.ds.maxCol := by rw [hds]; exact P.fits.nonneg
  have harea : (z.ds.itemCount : Int) * z.ds.maxCol ≤ (file.length * W : ℕ) := by
    rw [hcount]
    push_cast
    exact mul_le_mul_of_nonneg_left hmaxW (by omega)
  have harea' : file.length * W ≤ (linesOf j.content).length * W := Nat.mul_le_mul_right W hlines
  have hlim : (linesOf j.content).length * W < lengthLimit (if m = .euclidean then .cascade else .warped m) := by
    split
    · exact hsz
    · exact lt_of_lt_of_le hsz (by unfold lengthLimit; norm_num)
  have hextra' : |extra| + (file.length * W : ℕ) + h < 2 ^ 31 := by push_cast; exact hextra
  have hqB : ∀ x ∈ (sub r p (p + n)).map (fin : K → Dbl K), Below (2 ^ 480) x :=
    map_below (fun x hx => (P.values r (List.mem_of_getElem? hir)).2 x (List.mem_of_mem_drop (List.mem_of_mem_take hx)))
  obtain ⟨res, r0, r1, r2, r3, r4⟩ := kbest_parts hA hB m hm hs (fin τ) ratio hr z R2 hFl hmaxW (sub r p (p + n)) hFq (by omega)
    ⟨r, List.mem_of_getElem? hir, by omega⟩ e (by rw [hsl]; exact he) he1 k h hh hkh hsp
  rw [hsl] at r0 r1 r3
  obtain ⟨gs, M, d, -, hlen, -, -, hk⟩ := @counter_ok K _ _ _ _ (roundedArith roundDouble)
    (@rounded_evals K _ _ _ roundDouble _ (roundedArith roundDouble) _ (fun _ _ _ _ _ => rfl)) _ _ z rows _ ratio hr m (fin τ) false R2
    A (hA.apartR roundDouble_rounding eps_double) B hB (by rw [hds]; exact P.fits) (by omega) (by omega)
    (lt_of_le_of_lt (Int.floor_le_floor (BandOps.mono ratio _ _ hr (by omega))) hband) (sub r p (p + n))
    (@dists_rounded K _ _ _ roundDouble _ (roundedArith roundDouble) _ (fun _ _ _ _ _ => rfl) roundDouble_rounding m hm hs ratio hr _ (by omega))
    (by omega) (by rw [hsl, hds]; omega) (by rw [hds]; omega) hsp h hh (by have := abs_nonneg extra; omega)
  obtain ⟨res', e1, e2⟩ := hk k hkh
  rw [r0] at e1
  rw [Except.ok.injEq] at e1
  subst e1
  obtain ⟨hx1, hx2⟩ := abs_le.1 (le_refl |extra|)
  have hover : ((if M = [] then 0 else h - available rows z.ds.maxCol false ratio (sub r p (p + n)).length : ℕ) : Int) ≤ h := by
    split <;> omega
  have hover0 : (0 : Int) ≤ ((if M = [] then 0 else h - available rows z.ds.maxCol false ratio (sub r p (p + n)).length : ℕ) : Int) := by
    positivity
  have e3 := e2 extra (by omega) (by omega)
  generalize ((if M = [] then 0 else h - available rows z.ds.maxCol false ratio (sub r p (p + n)).length : ℕ) : Int) = over at *
  rw [if_pos ⟨by omega, by omega⟩] at e3
  refine ⟨res, extra + M.length - over, ?_, ?_, r1, r2, r3, r4⟩
  · unfold Job.kbestI
    rw [hidx, hstart, hstop]
    simp only [hd, hz, bind, Except.bind]
    rw [hds, h3, h1]
    simp only
    rw [(h4 _ h1).1, h2]
    simp only
    rw [← e3]
    refine C97_double_partial roundDouble roundDouble_rounding maxDouble (2 ^ 480) max_fixed one_le_max (by positivity)
      ((linesOf j.content).length * W) m hs (C87_double m hm _ (by norm_num; omega)) ratio hr z _ (fin τ) false R1 (by rw [hds]; exact P.below)
      (by rw [hds]; exact P.size) hband hlim A B _ hqB ?_ k h extra
    rw [List.length_map, hsl]
    rw [hds] at hmaxW
    omega
  · have : |extra + M.length - over| ≤ |extra| + (file.length * W : ℕ) + h := by
      rw [abs_le]
      constructor <;> omega
    push_cast at this
    exact this

end

/-! ## Examples -/

example (norm : Bool) := C97_run_partial exParse (exJob norm) (fun _ => false) 0 4 _ (exJob_manageable norm) (refAlgos (Cand.ltR roundDouble))
  (refAlgos_lawful _) (refAlgos GIdx.lt) (refAlgos_lawful _) .chebyshev (by decide) (fun h => by cases h) rfl 10 rfl rfl (1 / 2) (by norm_num)
  (by decide +kernel +revert) 0 0 2 [7, 2, 3] rfl (by decide) (by decide) rfl rfl rfl (1 / 2 ^ 40) (by norm_num) (by norm_num) 3 4 (by decide)
  (by decide) 0 (by decide)

/-- Three matches of the first two points of the first line; the distances are apart (`exJob_spaced`). -/
example : (exJob false).kbestI (rndMax roundDouble maxDouble) exParse (refAlgos Cand.lt) (refAlgos GIdx.lt) (1 / 2) (fun _ => false) 3 4 0 =
    .ok ([.cand ⟨⟨0, 0, 0, 2⟩, fin 0⟩, .cand ⟨⟨0, 0, 0, 3⟩, fin 1⟩, .cand ⟨⟨0, 0, 1, 3⟩, fin 5⟩], 1) := by decide +kernel

end Genex.Props
