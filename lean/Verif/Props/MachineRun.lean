import Verif.Lemmas.MachineRun

/-!
# C94: from the file to the answer on the machine

Every `int` has 32 bits, every operation on numbers is rounded to a `double` and overflows beyond the greatest, from the text of the file
to the answer, in one program (`Job.runI`).
-/

set_option linter.unusedSectionVars false

namespace Genex.Props

open Dbl Spec Genex.Registry

section

variable {K : Type} [Field K] [LinearOrder K] [IsStrictOrderedRing K] [FloorRing K] [HasSqrt K] [BandOps]

/-- C94: on a file of manageable size the run has no `int` overflow and no other undefined behaviour, throws nothing, and its answer is a
part of a line of the file (or of the normalised data) of a length comparable with the query, with its DTW distance up to the error
of rounding; and, for the euclidean and the chebyshev distance, no part of the data of a comparable length is nearer by more than
`τ / 4` or `τ / 2`, up to the error of rounding. -/
theorem C94_run (parse : Text → Parsed K) (j : Job K) (log : ℕ → Bool) (st W : ℕ) (file : List (List K))
    (h : Manageable parse j log st W file) (m : Metric) (hm : m ≠ .sorensen ∧ m ≠ .cosine) (hs : m = .euclidean → LawfulSqrt K)
    (hname : j.distance = metricName m) (τ : K) (hτ : 0 ≤ τ) (ht : j.threshold = fin τ) (hw : j.whole = false)
    (ratio : ℚ) (hr : 0 ≤ ratio) (hband : ⌊BandOps.mul ratio ((linesOf j.content).length * W : ℕ)⌋ < 2 ^ 31)
    (i p n : ℕ) (line : List K) (hi : file[i]? = some line) (hn : 2 ≤ n) (hpn : p + n ≤ line.length)
    (hidx : j.index = i) (hstart : j.start = p) (hstop : j.stop = (p + n : ℕ))
    (e : K) (he : 12 * ((n : K) + W) ≤ e * 2 ^ 53) (he1 : e < 1) :
    ∃ rows q c, (j.norm = false → rows = file) ∧ (j.norm = true → Scaled roundDouble file rows) ∧ SubOf rows n i p q ∧
      j.runI (rndMax roundDouble maxDouble) parse ratio log = .ok c ∧
      ∃ i' p' ℓ' y' x D, Names c i' p' ℓ' ∧ SubOf rows ℓ' i' p' y' ∧ Comparable ratio n ℓ' ∧ c.dist = fin x ∧
        Dtw m ratio q y' (fin D) ∧ |x - D| ≤ e * D + 4 * (1 / 2 ^ 537) ∧
        (m ≠ .manhattan → ∀ ℓ i p y E, 2 ≤ ℓ → SubOf rows ℓ i p y → Comparable ratio n ℓ → Dtw m ratio q y (fin E) →
          (1 - e) ^ 2 * D ≤ (1 + e) ^ 2 * (E + (τ + 8 * (1 / 2 ^ 537)) / ((if m = .euclidean then 4 else 2) * (1 - e))) +
            16 * (1 / 2 ^ 537)) := by
  have hne : ∃ r ∈ file, r ≠ [] := ⟨line, List.mem_of_getElem? hi, fun e => by rw [e] at hpn; simp at hpn; omega⟩
  obtain ⟨ds, rows, hd, P⟩ := dataI_ok h.toReadable hne
  obtain ⟨r, hir, hrl⟩ : ∃ r, rows[i]? = some r ∧ r.length = line.length := by
    have := congrArg (·[i]?) P.lens
    simp only [List.getElem?_map, hi] at this
    cases hr' : rows[i]? with
    | none => rw [hr'] at this; cases this
    | some r => rw [hr'] at this; exact ⟨r, rfl, by simpa using this⟩
  obtain ⟨z, hz, hds, R1, R2⟩ := groupI_ok (ratio := ratio) h P ⟨r, List.mem_of_getElem? hir, fun e => by rw [e] at hrl; simp at hrl; omega⟩
    hm hs τ hname ht hw
  have hans := answerI_eq hr h.toReadable P hm hs hband hds R1 hir (e := p + n) (by omega) (by omega) hidx hstart hstop
  have hsl : (sub r p (p + n)).length = n := by rw [sub_length r p (p + n) (by omega)]; omega
  have hmaxW : z.ds.maxCol ≤ W := by rw [hds, P.width]; omega
  have he' : 12 * (((sub r p (p + n)).length : K) + W) ≤ e * 2 ^ 53 := by rw [hsl]; exact he
  have hFl : ∀ r ∈ rows, Floats roundDouble r := fun r hr => (P.values r hr).1
  have hFq : Floats roundDouble (sub r p (p + n)) := fun x hx =>
    hFl r (List.mem_of_getElem? hir) x (List.mem_of_mem_drop (List.mem_of_mem_take hx))
  obtain ⟨c, hc⟩ := @C74_returns K _ _ _ _ roundDouble (roundedArith roundDouble) _ (fun _ _ _ _ _ => rfl) m hm hs ratio hr z rows (fin τ) false R2
    (sub r p (p + n)) roundDouble_rounding (by omega) (.inl ⟨rfl, r, List.mem_of_getElem? hir, by omega⟩)
  have hq : SubOf rows n i p (sub r p (p + n)) := ⟨r, hir, by omega, by unfold sub; congr 1; omega⟩
  refine ⟨rows, sub r p (p + n), c, P.plain, P.scaled, hq, ?_, ?_⟩
  · unfold Job.runI
    simp only [hd, hz, bind, Except.bind, hans, hc]
  obtain ⟨gs, -, ℓ', i', p', y', x, D, h1, h2, h3, -, h4, h5, h6, -⟩ := @C74_best K _ _ _ _ roundDouble _ _ e (roundedArith roundDouble) _
    (fun _ _ _ _ _ => rfl) roundDouble_ops m hm hs ratio hr z rows (fin τ) false R2 (sub r p (p + n)) hFl hFq (error_le hmaxW he') he1.le c hc
  refine ⟨i', p', ℓ', y', x, D, by rw [Names, h3]; exact ⟨rfl, rfl, rfl⟩, h2, by have := h1.2; rwa [hsl] at this, h4, h5, h6, ?_⟩
  intro hman ℓ i₁ p₁ y E hℓ hy hcom hE
  have hcon : Considered z.ds.maxCol false ratio (sub r p (p + n)).length ℓ := by
    refine ⟨⟨?_, by simpa using hℓ⟩, by rw [hsl]; exact hcom⟩
    obtain ⟨r₁, hr1, hr2, -⟩ := hy
    have := P.holds.fits i₁ (r₁.map fin) (by rw [List.getElem?_map, hr1]; rfl)
    rw [List.length_map, ← hds] at this
    omega
  have same : ∀ ℓ₂ i₂ p₂ y₂ D₂, SubOf rows ℓ₂ i₂ p₂ y₂ → c.view = subView z.ds.maxCol i₂ p₂ ℓ₂ → Dtw m ratio (sub r p (p + n)) y₂ (fin D₂) →
      2 ≤ ℓ₂ → D₂ = D := by
    intro ℓ₂ i₂ p₂ y₂ D₂ k1 k2 k3 k4
    have hv : i₂ = i' ∧ p₂ = p' ∧ ℓ₂ = ℓ' := by
      rw [h3] at k2
      simp only [subView, View.mk.injEq] at k2
      omega
    obtain ⟨rfl, rfl, rfl⟩ := hv
    obtain ⟨ra, a1, -, a2⟩ := k1
    obtain ⟨rb, b1, -, b2⟩ := h2
    rw [a1] at b1
    cases b1
    rw [a2] at k3
    rw [b2] at h5
    have := dtw_unique k3 h5
    simpa using this
  cases m with
  | sorensen => exact absurd rfl hm.1
  | cosine => exact absurd rfl hm.2
  | manhattan => exact absurd rfl hman
  | euclidean =>
    have := hs rfl
    obtain ⟨ℓ₂, i₂, p₂, y₂, x₂, D₂, k1, k2, k3, k4, k5, k6, k7⟩ := @C75_euclidean K _ _ _ _ roundDouble _ _ e (roundedArith roundDouble) _
      (fun _ _ _ _ _ => rfl) roundDouble_ops this z rows ratio hr τ hτ false R2 (sub r p (p + n)) hFl hFq (error_le hmaxW he') he1 c hc
      ℓ i₁ p₁ y hcon hy E hE
    rw [same ℓ₂ i₂ p₂ y₂ D₂ k2 k3 k5 (by simpa using k1.1.2)] at k7
    simpa using k7
  | chebyshev =>
    obtain ⟨ℓ₂, i₂, p₂, y₂, x₂, D₂, k1, k2, k3, k4, k5, k6, k7⟩ := @C75_chebyshev K _ _ _ _ roundDouble _ _ e (roundedArith roundDouble) _
      (fun _ _ _ _ _ => rfl) roundDouble_ops z rows ratio hr τ hτ false R2 (sub r p (p + n)) hFl hFq (error_le hmaxW he') he1 c hc
      ℓ i₁ p₁ y hcon hy E hE
    rw [same ℓ₂ i₂ p₂ y₂ D₂ k2 k3 k5 (by simpa using k1.1.2)] at k7
    simpa using k7

end

/-! ## Examples -/

/-- Two lines with names, of three and two numbers; the first two points of the first line are looked for. -/
def exJob (norm : Bool) : Job ℚ :=
  { content := "a 7 2 3\nb 4 12\n".toList, path := [], maxNumRow := 0, startCol := 0, sep := [' '], hasName := true, norm := norm,
    distance := "chebyshev", threshold := fin 10, whole := false, index := 0, start := 0, stop := 2 }

theorem exJob_manageable (norm : Bool) : Manageable exParse (exJob norm) (fun _ => false) 0 4 [[7, 2, 3], [4, 12]] where
  has := ⟨by decide, by decide +kernel +revert, by decide +kernel +revert⟩
  col := rfl
  widest := by
    have h : (linesOf (exJob norm).content).map (fun l => (columns (exJob norm).sep l).length) = [4, 3] := by decide +kernel +revert
    constructor
    · have : 4 ∈ (linesOf (exJob norm).content).map (fun l => (columns (exJob norm).sep l).length) := by rw [h]; decide
      obtain ⟨l, hl, e⟩ := List.mem_map.1 this
      exact ⟨l, hl, e.symm⟩
    · rintro n ⟨l, hl, rfl⟩
      have : (columns (exJob norm).sep l).length ∈ (linesOf (exJob norm).content).map (fun l => (columns (exJob norm).sep l).length) :=
        List.mem_map.2 ⟨l, hl, rfl⟩
      rw [h] at this
      simp at this
      omega
  size := by decide +kernel +revert
  lines := by decide +kernel +revert
  groups := by decide +kernel +revert
  logged := by simp
  values := by
    have key : ∀ r ∈ [[(7 : ℚ), 2, 3], [4, 12]], Floats roundDouble r ∧ ∀ x ∈ r, |x| ≤ 2 ^ 480 := by decide +kernel
    exact key

example (norm : Bool) := C94_run exParse (exJob norm) (fun _ => false) 0 4 _ (exJob_manageable norm) .chebyshev (by decide) (fun h => by cases h)
  rfl 10 (by norm_num) rfl rfl (1 / 2) (by norm_num) (by decide +kernel +revert) 0 0 2 [7, 2, 3] rfl (by decide) (by decide) rfl rfl rfl
  (1 / 2 ^ 40) (by norm_num) (by norm_num)

/-- With the product of the warping band rounded to a `double`, too. -/
example (norm : Bool) := @C94_run ℚ _ _ _ _ _ doubleBand exParse (exJob norm) (fun _ => false) 0 4 _ (exJob_manageable norm) .chebyshev
  (by decide) (fun h => by cases h) rfl 10 (by norm_num) rfl rfl (1 / 2) (by norm_num) (by decide +kernel +revert) 0 0 2 [7, 2, 3] rfl
  (by decide) (by decide) rfl rfl rfl (1 / 2 ^ 40) (by norm_num) (by norm_num)

/-- The runs of the two jobs. -/
example : (exJob false).runI (rndMax roundDouble maxDouble) exParse (1 / 2) (fun _ => false) = .ok ⟨⟨0, 0, 0, 2⟩, fin 0⟩ := by decide +kernel
example : (exJob true).runI (rndMax roundDouble maxDouble) exParse (1 / 2) (fun _ => false) = .ok ⟨⟨0, 0, 0, 2⟩, fin 0⟩ := by decide +kernel

end Genex.Props
