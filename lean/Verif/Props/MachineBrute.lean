import Verif.Lemmas.MachineBrute
import Verif.Props.MachineRun

/-!
# C96: the exhaustive search on the machine
-/

set_option linter.unusedSectionVars false

namespace Genex.Props

open Dbl Spec Genex.Registry

section

variable {K : Type} [Field K] [LinearOrder K] [HasSqrt K]

/-- C96: the loops of the exhaustive search do not overflow, whatever the arithmetic of the distances, if the number of places of the
buffer and one more than the number of columns are `int`s.  Missing: larger data, see `C96_longest`. -/
theorem C96_same_partial [Arith K] (A : Algos (Cand K)) (ratio : ℚ) (ds : Dataset K) (rows : List (List (Dbl K))) (H : Holds ds rows)
    (hI : Fits32 ds) (query : List (Dbl K)) (k : Int) (name : String) :
    bruteForceI A ratio ds query k name = bruteForce A ratio ds query k name :=
  bruteI_eq A ratio query H hI k name

/-- C96 is false of a series of `2 ^ 31 - 1` points, the greatest length there is: the counter of lengths overflows after the last of
them, so the search never returns. -/
theorem C96_longest [Arith K] (A : Algos (Cand K)) (ratio : ℚ) (ds : Dataset K) (i : ℕ) (hi : i < ds.itemCount)
    (len : Int) (hlen : ds.getItemLength i = .ok len) (hl : 2 ^ 31 - 1 ≤ len) (query : List (Dbl K)) (k : Int) (name : String) (res : List (Cand K)) :
    bruteForceI A ratio ds query k name ≠ .ok res := by
  intro h
  unfold bruteForceI at h
  split at h
  · cases h
  simp only [bind, Except.bind] at h
  cases hd : getDistanceFromName (name ++ "_dtw") with
  | error e => rw [hd] at h; cases h
  | ok dist =>
    rw [hd] at h
    simp only at h
    split at h
    · cases h
    rename_i st hst
    obtain ⟨s1, t1, h1⟩ := foldlM_all_ok hst i (List.mem_range.2 hi)
    split at h1
    · cases h1
    rename_i st' hst'
    unfold lengthsI at hst'
    simp only [hlen, bind, Except.bind] at hst'
    obtain ⟨s2, t2, h2⟩ := foldlM_all_ok hst' (len.toNat - 2) (List.mem_range.2 (by omega))
    split at h2
    · cases h2
    rw [int32_over (by omega)] at h2
    cases h2

variable [IsStrictOrderedRing K]

/-- C96: with distances computed with `int`s of 32 bits, rounded, and with a greatest number, the search returns what it would return in
arithmetic that rounds only.  Missing: cosine and Sorensen; data that is longer or greater. -/
theorem C96_double_partial [BandOps] (rd : K → K) (hrd : Spec.Rounding rd) (X B : K) (hX : rd X = X) (hX1 : 1 ≤ X) (hB : 0 ≤ B) (L : ℕ) (m : Metric)
    (hs : m = .euclidean → LawfulSqrt K) (hN : NoOverflow rd X B (2 * L) m) (ratio : ℚ) (hr : 0 ≤ ratio)
    (hb : ⌊BandOps.mul ratio L⌋ < 2 ^ 31) (hlim : L < 2 ^ 30) (A : Algos (Cand K)) (ds : Dataset K) (rows : List (List (Dbl K)))
    (H : Holds ds rows) (hI : Fits32 ds) (hd : DataBelow B ds) (hL : DataSize L ds) (query : List (Dbl K))
    (hqB : ∀ x ∈ query, Below B x) (hqL : query.length ≤ L) (k : Int) :
    @bruteForceI K _ (machineArith (rndMax rd X)) A ratio ds query k (metricName m) =
      @bruteForce K _ (roundedArith rd) A ratio ds query k (metricName m) := by
  rw [@C96_same_partial K _ _ _ (machineArith (rndMax rd X)) A ratio ds rows H hI]
  rw [bruteForce_congr (A₂ := overflowArith (rndMax rd X)) A (points_size hL) hqL (fun p hp => ?_) k]
  · exact (C87_search_partial rd hrd X B hX hX1 hB L m hs hN ratio hr query hqB hqL).1 ds A k hd hL
  · rw [lookup_warped] at hp
    cases hp
    exact machine_agree hr hb _ _ (lt_of_lt_of_le hlim (by unfold lengthLimit; norm_num))

end

section

variable {K : Type} [Field K] [LinearOrder K] [IsStrictOrderedRing K] [FloorRing K] [HasSqrt K] [BandOps]

/-- C96: loading a file, normalising it or not and searching it exhaustively has no `int` overflow and no other undefined behaviour and
throws nothing; the answer are `k` parts of the lines, nearest first, each with its DTW distance up to the error of rounding, and no other
part is nearer by more than that error.  Missing: computed distances must be equal or more than `1e-9` apart. -/
theorem C96_run_partial (parse : Text → Parsed K) (j : Job K) (st W : ℕ) (file : List (List K)) (h : Readable parse j st W file)
    (A : Algos (Cand K)) (hA : A.Lawful (Cand.ltR roundDouble)) (m : Metric) (hm : m ≠ .sorensen ∧ m ≠ .cosine)
    (hs : m = .euclidean → LawfulSqrt K) (hname : j.distance = metricName m)
    (ratio : ℚ) (hr : 0 ≤ ratio) (hband : ⌊BandOps.mul ratio ((linesOf j.content).length * W : ℕ)⌋ < 2 ^ 31)
    (i p n : ℕ) (line : List K) (hi : file[i]? = some line) (hn : 1 ≤ n) (hpn : p + n ≤ line.length)
    (hidx : j.index = i) (hstart : j.start = p) (hstop : j.stop = (p + n : ℕ))
    (e : K) (he : 12 * ((n : K) + W) ≤ e * 2 ^ 53) (he1 : e ≤ 1) (k : ℕ) (hk : 1 ≤ k) :
    ∃ rows q, (j.norm = false → rows = file) ∧ (j.norm = true → Scaled roundDouble file rows) ∧ SubOf rows n i p q ∧
      (SpacedFor (Computed roundDouble m ratio q) rows →
        ∃ res, j.bruteI (rndMax roundDouble maxDouble) parse A ratio k = .ok res ∧ res.length = min k (subCount rows) ∧
          (res.map (fun c => (c.view.index, c.view.start, c.view.stop))).Nodup ∧
          (∀ c ∈ res, ∃ i p l x, IsSub rows i p l x ∧ Names c i p (l - p) ∧ NearDtw m ratio e (4 * (1 / 2 ^ 537)) q x c.dist ∧
            ∀ i' p' l' y D', IsSub rows i' p' l' y → Dtw m ratio q y (fin D') → (∀ c ∈ res, ¬ Names c i' p' (l' - p')) →
              ∃ D, Dtw m ratio q x (fin D) ∧ (1 - e) * D ≤ (1 + e) * D' + 8 * (1 / 2 ^ 537)) ∧
          res.Pairwise (fun c c' => c.dist ≤ c'.dist)) := by
  have hne : ∃ r ∈ file, r ≠ [] := ⟨line, List.mem_of_getElem? hi, fun e => by rw [e] at hpn; simp at hpn; omega⟩
  obtain ⟨ds, rows, hd, P⟩ := dataI_ok h hne
  obtain ⟨r, hir, hrl⟩ : ∃ r, rows[i]? = some r ∧ r.length = line.length := by
    have := congrArg (·[i]?) P.lens
    simp only [List.getElem?_map, hi] at this
    cases hr' : rows[i]? with
    | none => rw [hr'] at this; cases this
    | some r => rw [hr'] at this; exact ⟨r, rfl, by simpa using this⟩
  have hsl : (sub r p (p + n)).length = n := by rw [sub_length r p (p + n) (by omega)]; omega
  have hq : SubOf rows n i p (sub r p (p + n)) := ⟨r, hir, by omega, by unfold sub; congr 1; omega⟩
  refine ⟨rows, sub r p (p + n), P.plain, P.scaled, hq, fun hsp => ?_⟩
  obtain ⟨h1, h2⟩ := P.holds.view_points hir (show p < p + n by omega) (by omega)
  obtain ⟨h3, h4⟩ := C91_access_partial ds _ P.holds P.fits i p (p + n : ℕ)
  have hsz := h.size
  have hmaxW : ds.maxCol ≤ W := by rw [P.width]; omega
  have hFl : ∀ r ∈ rows, Floats roundDouble r := fun r hr => (P.values r hr).1
  have hFq : Floats roundDouble (sub r p (p + n)) := fun x hx =>
    hFl r (List.mem_of_getElem? hir) x (List.mem_of_mem_drop (List.mem_of_mem_take hx))
  have hpos : 0 < file.length := List.length_pos_iff.2 h.has.some
  have hlines : file.length ≤ (linesOf j.content).length := by
    have := congrArg List.length h.has.numbers
    have h5 := firstLines_le j.maxNumRow j.content
    simp at this
    omega
  have hW1 : W ≤ (linesOf j.content).length * W := Nat.le_mul_of_pos_left W (by omega)
  have hrW : (r.length : Int) ≤ ds.maxCol := by
    have := P.holds.fits i (r.map fin) (by rw [List.getElem?_map, hir]; rfl)
    simpa using this
  obtain ⟨res, r0, r1, r2, r3, r4⟩ := @C74_topk K _ _ _ _ roundDouble _ _ e (roundedArith roundDouble) _ (fun _ _ _ _ _ => rfl)
    roundDouble_ops m hm hs ratio hr eps_double A hA ds rows P.holds hFl (sub r p (p + n)) hFq (by omega)
    (error_le hmaxW (by rw [hsl]; exact he)) he1 k hk hsp
  refine ⟨res, ?_, r1, r2, ?_, r4⟩
  · unfold Job.bruteI
    rw [hidx, hstart, hstop, hname]
    simp only [hd, bind, Except.bind]
    rw [h3, h1]
    simp only
    rw [(h4 _ h1).1, h2]
    simp only
    rw [← r0]
    refine C96_double_partial roundDouble roundDouble_rounding maxDouble (2 ^ 480) max_fixed one_le_max (by positivity)
      ((linesOf j.content).length * W) m hs (C87_double m hm _ (by norm_num; omega)) ratio hr hband (by omega) A ds _ P.holds P.fits P.below
      P.size _ ?_ ?_ k
    · exact map_below (fun x hx => (P.values r (List.mem_of_getElem? hir)).2 x (List.mem_of_mem_drop (List.mem_of_mem_take hx)))
    · rw [List.length_map, hsl]; omega
  · intro c hc
    obtain ⟨i, p, l, x, g, g3, g4, g5, -, g6, g7⟩ := r3 c hc
    have hpj := g
    obtain ⟨-, -, hpj, -⟩ := hpj
    refine ⟨i, p, l, x, g, ⟨g3, g4, by rw [g5]; omega⟩, g6, ?_⟩
    intro i' p' j' y D' hy hD' hn
    refine g7 i' p' j' y D' hy hD' ?_
    rintro c hc ⟨g3, g4, g5⟩
    refine hn c hc ⟨g3, g4, ?_⟩
    obtain ⟨-, -, hpe, -⟩ := hy
    rw [g5]
    omega

end

/-! ## Examples -/

example := C96_same_partial (refAlgos Cand.lt) (1 / 10) exData _ exData_holds exData_fits [fin 1, fin 2] 2 "manhattan"

/-- A dataset with one series of the greatest length. -/
example := C96_longest (K := ℚ) (refAlgos Cand.lt) (1 / 10) { (Dataset.fresh : Dataset ℚ) with itemCount := 1, lengths := [2 ^ 31 - 1] } 0
  (by decide) _ rfl le_rfl [fin 1, fin 2] 2 "manhattan"

example (norm : Bool) := C96_run_partial exParse (exJob norm) 0 4 _ (exJob_manageable norm).toReadable (refAlgos (Cand.ltR roundDouble))
  (refAlgos_lawful _) .chebyshev (by decide) (fun h => by cases h) rfl (1 / 2) (by norm_num) (by decide +kernel +revert) 0 0 2 [7, 2, 3] rfl
  (by decide) (by decide) rfl rfl rfl (1 / 2 ^ 40) (by norm_num) (by norm_num) 3 (by decide)

/-- Its distances are apart. -/
theorem exJob_spaced : SpacedFor (Computed (K := ℚ) roundDouble .chebyshev (1 / 2) [7, 2]) [[7, 2, 3], [4, 12]] :=
  computed_spaced [fin 0, fin 5, fin 1, fin 10] (by decide +kernel) (by decide +kernel)

/-- The two nearest parts of the first two points of the first line. -/
example : (exJob false).bruteI (rndMax roundDouble maxDouble) exParse (refAlgos Cand.lt) (1 / 2) 2 =
    .ok [⟨⟨0, 0, 0, 2⟩, fin 0⟩, ⟨⟨0, 0, 0, 3⟩, fin 1⟩] := by decide +kernel

end Genex.Props
