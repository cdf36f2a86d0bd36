import Verif.Model.Rounded
import Verif.Lemmas.Float
import Verif.Lemmas.LowerBounds
import Verif.Lemmas.Pairwise

/-! Distances in rounded arithmetic: laws of the metrics, lower bounds. -/

set_option linter.unusedSectionVars false

namespace Genex

open Dbl Spec

variable {K : Type} [Field K] [LinearOrder K] [IsStrictOrderedRing K] {rd : K → K}

theorem Spec.Rounding.zero (h : Rounding rd) : rd 0 = 0 := by
  have := h.neg 0
  rw [neg_zero] at this
  linarith

theorem Spec.Rounding.nonneg (h : Rounding rd) {x : K} (hx : 0 ≤ x) : 0 ≤ rd x := by
  have := h.mono _ _ hx
  rwa [h.zero] at this

theorem Spec.Rounding.abs (h : Rounding rd) (x : K) : |rd x| = rd |x| := by
  rcases le_total 0 x with hx | hx
  · rw [abs_of_nonneg hx, abs_of_nonneg (h.nonneg hx)]
  · rw [abs_of_nonpos hx, h.neg, abs_of_nonpos]
    have := h.nonneg (neg_nonneg.2 hx)
    rw [h.neg] at this
    linarith

/-- Adding something non-negative does not decrease a rounded number. -/
theorem Spec.Rounding.add_le (h : Rounding rd) {s q : K} (hs : rd s = s) (hq : 0 ≤ q) : s ≤ rd (s + q) := by
  have := h.mono _ _ (le_add_of_nonneg_right hq : s ≤ s + q)
  rwa [hs] at this

@[simp] theorem rnd_fin (x : K) : rnd rd (fin x) = fin (rd x) := rfl

/-- The rounded square of the rounded difference. -/
def sqR (rd : K → K) (x y : K) : K := rd (rd (x - y) * rd (x - y))

theorem eucDistR_fin (x y : K) : eucDistR rd (fin x) (fin y) = fin (sqR rd x y) := by simp [eucDistR, sqR]

theorem sqR_nonneg (h : Rounding rd) (x y : K) : 0 ≤ sqR rd x y := h.nonneg (mul_self_nonneg _)

theorem sqR_symm (h : Rounding rd) (x y : K) : sqR rd x y = sqR rd y x := by
  unfold sqR
  rw [← neg_sub y x, h.neg, neg_mul_neg]

theorem sqR_mono (h : Rounding rd) {x y x' y' : K} (hle : |x - y| ≤ |x' - y'|) : sqR rd x y ≤ sqR rd x' y' := by
  unfold sqR
  apply h.mono
  rw [← abs_mul_abs_self, ← abs_mul_abs_self (rd (x' - y')), h.abs, h.abs]
  exact mul_self_le_mul_self (h.nonneg (abs_nonneg _)) (h.mono _ _ hle)

/-! ## The laws -/

/-- Laws for `Euclidean`. -/
noncomputable def growEuclideanR [HasSqrt K] [LawfulSqrt K] (hr : Rounding rd) {m n : ℕ} (h : 1 ≤ max m n) :
    Grow (euclideanR rd) m n where
  dom := fun _ _ => True
  all := fun _ _ => trivial
  ok := fun s => ∃ x : K, 0 ≤ x ∧ rd x = x ∧ s = fin x
  val := fun s => rd (rd (HasSqrt.sqrt (Dbl.toFin s)) / ((2 * max m n : ℕ) : K))
  ok_first := fun x y _ => ⟨rd (0 + sqR rd x y), hr.nonneg (by have := sqR_nonneg hr x y; linarith), hr.idem _, by
    simp [euclideanR, eucDistR_fin, zero_def]⟩
  ok_step := by
    rintro s x y - ⟨t, ht, -, rfl⟩
    exact ⟨rd (t + sqR rd x y), hr.nonneg (add_nonneg ht (sqR_nonneg hr _ _)), hr.idem _, by simp [euclideanR, eucDistR_fin]⟩
  norm_val := by
    rintro s ⟨t, ht, -, rfl⟩
    simp only [euclideanR, eucNormDTWR, Dbl.ofNat, sqrt_fin ht, Dbl.toFin_fin, rnd_fin]
    rw [fin_div_fin (ne_of_gt (maxlen_pos h)), rnd_fin]
  infl := by
    rintro s x y ⟨t, ht, hf, rfl⟩
    simp only [euclideanR, eucDistR_fin, fin_add_fin, rnd_fin, Dbl.toFin_fin]
    have h1 := sqR_nonneg hr x y
    have h2 := hr.add_le hf h1
    refine hr.mono _ _ (div_le_div_of_nonneg_right (hr.mono _ _ ?_) (le_of_lt (maxlen_pos h)))
    exact (sqrt_le_sqrt_iff ht (le_trans ht h2)).2 h2

/-- Laws for `Manhattan`. -/
def growManhattanR (hr : Rounding rd) {m n : ℕ} (h : 1 ≤ max m n) : Grow (manhattanR rd) m n where
  dom := fun _ _ => True
  all := fun _ _ => trivial
  ok := fun s => ∃ x : K, 0 ≤ x ∧ rd x = x ∧ s = fin x
  val := fun s => rd (Dbl.toFin s / ((2 * max m n : ℕ) : K))
  ok_first := fun x y _ => ⟨rd (0 + |rd (x - y)|), hr.nonneg (by have := abs_nonneg (rd (x - y)); linarith), hr.idem _, by
    simp [manhattanR, abs_fin, zero_def]⟩
  ok_step := by
    rintro s x y - ⟨t, ht, -, rfl⟩
    exact ⟨rd (t + |rd (x - y)|), hr.nonneg (add_nonneg ht (abs_nonneg _)), hr.idem _, by simp [manhattanR, abs_fin]⟩
  norm_val := by
    rintro s ⟨t, ht, -, rfl⟩
    simp only [manhattanR, Dbl.ofNat, Dbl.toFin_fin]
    rw [fin_div_fin (ne_of_gt (maxlen_pos h)), rnd_fin]
  infl := by
    rintro s x y ⟨t, ht, hf, rfl⟩
    simp only [manhattanR, fin_sub_fin, rnd_fin, abs_fin, fin_add_fin, Dbl.toFin_fin]
    exact hr.mono _ _ (div_le_div_of_nonneg_right (hr.add_le hf (abs_nonneg _)) (le_of_lt (maxlen_pos h)))

/-- Laws for `Chebyshev`: nothing but the differences is rounded. -/
def monoChebyshevR {m n : ℕ} : Mono (chebyshevR rd) m n where
  dom := fun _ _ => True
  all := fun _ _ => trivial
  ok := fun s => ∃ x : K, s = fin x
  val := fun s => Dbl.toFin s
  ok_first := fun x y _ => ⟨|rd (x - y)|, by simp [chebyshevR, abs_fin, stdMax]⟩
  ok_step := by
    rintro s x y - ⟨t, rfl⟩
    exact ⟨max t |rd (x - y)|, by simp [chebyshevR, abs_fin, stdMax_fin]⟩
  norm_val := by
    rintro s ⟨t, rfl⟩
    rfl
  infl := by
    rintro s x y ⟨t, rfl⟩
    simp only [chebyshevR, fin_sub_fin, rnd_fin, abs_fin, stdMax_fin, Dbl.toFin_fin]
    exact le_max_left _ _
  mono := by
    rintro s s' x y ⟨t, rfl⟩ ⟨t', rfl⟩ hle
    simp only [chebyshevR, fin_sub_fin, rnd_fin, abs_fin, stdMax_fin, Dbl.toFin_fin] at hle ⊢
    exact max_le_max_right _ hle

/-- The value without a bound is that of an allowed alignment, or infinity. -/
theorem warped_attain_safe {M : DM K} {a b : List K} {r : ℕ} [BandOps] {ratio : ℚ} (L : Safe M a.length b.length) (hD : InDom a b L)
    (hr : band ratio (max a.length b.length : ℕ) = (r : Int)) (hm : 1 ≤ a.length) (hn : 1 ≤ b.length) :
    (∃ p, PathTo (a.length - 1, b.length - 1) p ∧ (∀ c ∈ p, Allowed a.length b.length r c.1 c.2) ∧
      warpedValue M ratio (a.map fin) (b.map fin) .inf = .ok (fin (L.val (pathAcc M a b p)))) ∨
    (warpedValue M ratio (a.map fin) (b.map fin) .inf = .ok .inf ∧
      ¬ ∃ p, PathTo (a.length - 1, b.length - 1) p ∧ ∀ c ∈ p, Allowed a.length b.length r c.1 c.2) := by
  by_cases hmn : a.length = 1 ∧ b.length = 1
  · left
    have ha : at' (a.map fin) 0 = fin (a.getD 0 0) := at'_map a 0 (by omega)
    have hb : at' (b.map fin) 0 = fin (b.getD 0 0) := at'_map b 0 (by omega)
    have h11 : (a.length - 1, b.length - 1) = (0, 0) := by rw [hmn.1, hmn.2]
    refine ⟨[(0, 0)], by rw [h11]; exact PathTo.single, by simp [Allowed, inB], ?_⟩
    unfold warpedValue warpedDistance
    simp only [List.length_map, if_pos hmn, ha, hb]
    rw [L.norm_val _ (L.ok_first _ _ (hD _ _ (by omega) (by omega)))]
    rfl
  · obtain ⟨mtF, f1, f2, -⟩ := warped_run L hD hr hm hn hmn
    have e1 : warpedValue M ratio (a.map fin) (b.map fin) .inf = .ok (mtF.ncost (a.length - 1) (b.length - 1)) := by
      unfold warpedValue; rw [f2]; rfl
    by_cases hal : Allowed a.length b.length r (a.length - 1) (b.length - 1)
    · left
      obtain ⟨p, h1, h2, h3, h4⟩ := attain f1 (a.length - 1) (b.length - 1) (by omega) (by omega) hal
      exact ⟨p, h1, h2, by rw [e1, h4]⟩
    · right
      refine ⟨by rw [e1, f1.corner hal], ?_⟩
      rintro ⟨p, k1, k2⟩
      exact hal (k2 _ (List.mem_of_getLast? k1.last))

theorem warped_attain {M : DM K} {a b : List K} {r : ℕ} [BandOps] {ratio : ℚ} (L : Grow M a.length b.length)
    (hr : band ratio (max a.length b.length : ℕ) = (r : Int)) (hm : 1 ≤ a.length) (hn : 1 ≤ b.length) :
    (∃ p, PathTo (a.length - 1, b.length - 1) p ∧ (∀ c ∈ p, Allowed a.length b.length r c.1 c.2) ∧
      warpedValue M ratio (a.map fin) (b.map fin) .inf = .ok (fin (L.val (pathAcc M a b p)))) ∨
    (warpedValue M ratio (a.map fin) (b.map fin) .inf = .ok .inf ∧
      ¬ ∃ p, PathTo (a.length - 1, b.length - 1) p ∧ ∀ c ∈ p, Allowed a.length b.length r c.1 c.2) :=
  warped_attain_safe L.toSafe (fun _ _ _ _ => L.all _ _) hr hm hn

/-! ## Lower bounds -/

section
variable [HasSqrt K]

/-- The accumulated cost of a path. -/
def accR (rd : K → K) (a b : List K) (p : List (ℕ × ℕ)) : K :=
  p.foldl (fun s c => rd (s + sqR rd (a.getD c.1 0) (b.getD c.2 0))) 0

theorem accR_snoc (a b : List K) (p : List (ℕ × ℕ)) (c : ℕ × ℕ) :
    accR rd a b (p ++ [c]) = rd (accR rd a b p + sqR rd (a.getD c.1 0) (b.getD c.2 0)) := by
  simp [accR]

theorem pathAcc_euclideanR (a b : List K) (p : List (ℕ × ℕ)) :
    pathAcc (euclideanR rd) a b p = fin (accR rd a b p) := by
  induction p using List.reverseRecOn with
  | nil => rfl
  | append_singleton p c ih =>
    rw [pathAcc_snoc, ih, accR_snoc]
    simp [euclideanR, eucDistR_fin]

theorem accR_fixed (hr : Rounding rd) (a b : List K) (p : List (ℕ × ℕ)) :
    0 ≤ accR rd a b p ∧ rd (accR rd a b p) = accR rd a b p := by
  induction p using List.reverseRecOn with
  | nil => exact ⟨le_refl _, hr.zero⟩
  | append_singleton p c ih =>
    rw [accR_snoc]
    exact ⟨hr.nonneg (add_nonneg ih.1 (sqR_nonneg hr _ _)), hr.idem _⟩

theorem accR_swap (hr : Rounding rd) (a b : List K) (p : List (ℕ × ℕ)) :
    accR rd b a (p.map Prod.swap) = accR rd a b p := by
  induction p using List.reverseRecOn with
  | nil => rfl
  | append_singleton p c ih =>
    rw [List.map_append, List.map_singleton, accR_snoc, accR_snoc, ih, sqR_symm hr]
    rfl

/-- Every path pays for its first pair. -/
theorem PathTo.firstR (hr : Rounding rd) {c : ℕ × ℕ} {p : List (ℕ × ℕ)} (h : PathTo c p) (a b : List K) :
    sqR rd (a.getD 0 0) (b.getD 0 0) ≤ accR rd a b p := by
  induction h using PathTo.rec' with
  | base =>
    have : accR rd a b [(0, 0)] = rd (0 + sqR rd (a.getD 0 0) (b.getD 0 0)) := rfl
    rw [this, zero_add]
    unfold sqR
    rw [hr.idem]
  | step c d p hp hs ih =>
    rw [accR_snoc]
    exact le_trans ih (hr.add_le (accR_fixed hr a b p).2 (sqR_nonneg hr _ _))

/-- A path with two cells at least pays for the first and the last pair. -/
theorem PathTo.endsR (hr : Rounding rd) {c : ℕ × ℕ} {p : List (ℕ × ℕ)} (h : PathTo c p) (hc : c ≠ (0, 0)) (a b : List K) :
    rd (sqR rd (a.getD 0 0) (b.getD 0 0) + sqR rd (a.getD c.1 0) (b.getD c.2 0)) ≤ accR rd a b p := by
  rcases h.cases with ⟨e, -⟩ | ⟨q, d, rfl, hq, -⟩
  · exact absurd e hc
  · rw [accR_snoc]
    have := hq.firstR hr a b
    exact hr.mono _ _ (by linarith)

/-- Rounded sum of `g` over a list of indices. -/
def sumR (rd : K → K) (g : ℕ → K) (is : List ℕ) (s : K) : K := is.foldl (fun s i => rd (s + g i)) s

theorem sumR_snoc (g : ℕ → K) (is : List ℕ) (i : ℕ) (s : K) : sumR rd g (is ++ [i]) s = rd (sumR rd g is s + g i) := by
  simp [sumR]

theorem sumR_mono (hr : Rounding rd) (g : ℕ → K) (is : List ℕ) {s t : K} (h : s ≤ t) : sumR rd g is s ≤ sumR rd g is t := by
  induction is generalizing s t with
  | nil => exact h
  | cons i is ih => exact ih (hr.mono _ _ (by linarith))

theorem sumR_le (hr : Rounding rd) (g : ℕ → K) (hg : ∀ i, 0 ≤ g i) (is : List ℕ) {s : K} (hs : rd s = s) : s ≤ sumR rd g is s := by
  induction is generalizing s with
  | nil => exact le_refl _
  | cons i is ih => exact le_trans (hr.add_le hs (hg i)) (ih (hr.idem _))

/-- Every column of a path pays at least once. -/
theorem PathTo.sum_colsR (hr : Rounding rd) {c : ℕ × ℕ} {p : List (ℕ × ℕ)} (h : PathTo c p) (a b : List K) (g : ℕ → K) (L : ℕ)
    (hg : ∀ x ∈ p, x.2 < L → g x.2 ≤ sqR rd (a.getD x.1 0) (b.getD x.2 0)) :
    sumR rd g (List.range (min L (c.2 + 1))) 0 ≤ accR rd a b p := by
  induction h using PathTo.rec' with
  | base =>
    by_cases hL : L = 0
    · subst hL
      simp only [Nat.zero_min, List.range_zero]
      exact (accR_fixed hr a b _).1
    · have : min L ((0 : ℕ) + 1) = 1 := by omega
      simp only [this, List.range_one]
      have := hg (0, 0) (by simp) (by simp only; omega)
      exact hr.mono _ _ (by simp only at this; linarith)
  | step c d p hp hs ih =>
    rw [accR_snoc]
    have ih := ih (fun x hx => hg x (by simp [hx]))
    have hsq := hr.add_le (accR_fixed hr a b p).2 (sqR_nonneg hr (a.getD d.1 0) (b.getD d.2 0))
    have hcol : d.2 = c.2 ∨ d.2 = c.2 + 1 := by rcases hs with h | h | h <;> simp [h]
    rcases hcol with e | e
    · rw [e]; rw [e] at hsq; exact le_trans ih hsq
    · by_cases hL : d.2 < L
      · have e1 : min L (d.2 + 1) = c.2 + 1 + 1 := by omega
        have e2 : min L (c.2 + 1) = c.2 + 1 := by omega
        rw [e1, List.range_succ, sumR_snoc]
        rw [e2] at ih
        have := hg d (by simp) hL
        rw [← e] at ih ⊢
        exact hr.mono _ _ (by linarith)
      · have e1 : min L (d.2 + 1) = min L (c.2 + 1) := by omega
        rw [e1]; exact le_trans ih hsq

/-- What the loop of `keoghLowerBound` adds. -/
def excessR (rd : K → K) (lo up x : K) : K := if up < x then sqR rd x up else if x < lo then sqR rd x lo else 0

theorem excessR_nonneg (hr : Rounding rd) (lo up x : K) : 0 ≤ excessR rd lo up x := by
  unfold excessR
  split_ifs
  · exact sqR_nonneg hr _ _
  · exact sqR_nonneg hr _ _
  · exact le_refl _

theorem excessR_le (hr : Rounding rd) {lo up x y : K} (h1 : lo ≤ y) (h2 : y ≤ up) : excessR rd lo up x ≤ sqR rd y x := by
  unfold excessR
  split_ifs with h3 h4
  · rw [sqR_symm hr y x]
    apply sqR_mono hr
    rw [abs_of_pos (by linarith), abs_of_pos (by linarith)]
    linarith
  · apply sqR_mono hr
    rw [abs_of_neg (by linarith), abs_of_pos (by linarith)]
    linarith
  · exact sqR_nonneg hr _ _

theorem keoghLoopR_ok (hr : Rounding rd) {lower upper : OutArr K} {lo up : ℕ → K} {b : List K} {idrop : Dbl K} (is : List ℕ)
    (h : ∀ i ∈ is, lower i = some (fin (lo i)) ∧ upper i = some (fin (up i)) ∧ i < b.length) : ∀ lb : K, rd lb = lb → 0 ≤ lb →
    ∃ x, keoghLoopR rd lower upper (b.map fin) idrop is (fin lb) = .ok (fin x) ∧ 0 ≤ x ∧
      x ≤ sumR rd (fun i => excessR rd (lo i) (up i) (b.getD i 0)) is lb := by
  induction is with
  | nil => intro lb _ h0; exact ⟨lb, rfl, h0, le_refl _⟩
  | cons i is ih =>
    intro lb hf h0
    obtain ⟨h1, h2, h3⟩ := h i (by simp)
    have hb := at'_map b i h3
    unfold keoghLoopR
    by_cases hlt : fin lb < idrop
    · simp only [hlt, if_true, outGet, h1, h2, bind, Except.bind, hb, fin_lt_fin]
      have key : ∀ e, e = excessR rd (lo i) (up i) (b.getD i 0) →
          ∃ x, keoghLoopR rd lower upper (b.map fin) idrop is (fin (rd (lb + e))) = .ok (fin x) ∧ 0 ≤ x ∧
          x ≤ sumR rd (fun i => excessR rd (lo i) (up i) (b.getD i 0)) (i :: is) lb := by
        rintro e rfl
        exact ih (fun j hj => h j (by simp [hj])) _ (hr.idem _) (hr.nonneg (add_nonneg h0 (excessR_nonneg hr _ _ _)))
      by_cases c1 : up i < b.getD i 0
      · simp only [c1, if_true, eucDistR_fin, fin_add_fin, rnd_fin]
        exact key _ (by unfold excessR; rw [if_pos c1])
      · simp only [c1, if_false]
        by_cases c2 : b.getD i 0 < lo i
        · simp only [c2, if_true, eucDistR_fin, fin_add_fin, rnd_fin]
          exact key _ (by unfold excessR; rw [if_neg c1, if_pos c2])
        · simp only [c2, if_false]
          have := key 0 (by unfold excessR; rw [if_neg c1, if_neg c2])
          rw [add_zero, hf] at this
          exact this
    · simp only [hlt, if_false]
      exact ⟨lb, rfl, h0, sumR_le hr _ (fun i => excessR_nonneg hr _ _ _) _ hf⟩

theorem keoghR_ok (hrd : Rounding rd) [BandOps] {ratio : ℚ} (hr : 0 ≤ ratio) (a b : List K) (ha : 1 ≤ a.length) (d : Dbl K) :
    ∃ (lo up : ℕ → K) (x : K), (∀ i < a.length,
        IsLeast (window a (min (bandWidth ratio (max a.length b.length)) (a.length - 1)) i) (lo i) ∧
        IsGreatest (window a (min (bandWidth ratio (max a.length b.length)) (a.length - 1)) i) (up i)) ∧
      keoghLowerBoundR rd ratio (a.map fin) (b.map fin) d = .ok (eucNormDTWR rd (fin x) a.length b.length) ∧ 0 ≤ x ∧
      x ≤ sumR rd (fun i => excessR rd (lo i) (up i) (b.getD i 0)) (List.range (min a.length b.length)) 0 := by
  have hbw := band_eq_bandWidth hr (len := max a.length b.length) (by omega)
  set w := bandWidth ratio (max a.length b.length) with hw
  have hmin : min (band ratio (max a.length b.length : ℕ)) (((a.map fin).length : Int) - 1) =
      ((min w (a.length - 1) : ℕ) : Int) := by
    rw [hbw]; simp only [List.length_map]; omega
  obtain ⟨lower, upper, e, henv⟩ := envelope_fin false a (min w (a.length - 1)) (by omega)
  choose! lo up h1 h2 h3 h4 using henv
  obtain ⟨x, x1, x2, x3⟩ := keoghLoopR_ok hrd (lower := lower) (upper := upper) (lo := lo) (up := up) (b := b)
    (idrop := rnd rd (rnd rd (rnd rd (d * Dbl.ofNat 2) * Dbl.ofNat (max a.length b.length)) *
      rnd rd (rnd rd (d * Dbl.ofNat 2) * Dbl.ofNat (max a.length b.length))))
    (List.range (min a.length b.length))
    (fun i hi => by
      rw [List.mem_range] at hi
      exact ⟨h1 i (by omega), h2 i (by omega), by omega⟩) 0 hrd.zero (le_refl _)
  refine ⟨lo, up, x, fun i hi => ⟨h3 i hi, h4 i hi⟩, ?_, x2, x3⟩
  unfold keoghLowerBoundR keoghLU
  simp only [List.length_map] at hmin ⊢
  simp only [hmin, e, bind, Except.bind]
  rw [zero_def, x1]

theorem keoghR_le (hrd : Rounding rd) [BandOps] {ratio : ℚ} {a b : List K} {lo up : ℕ → K} (hm : 1 ≤ a.length) (hn : 1 ≤ b.length)
    (h : ∀ i < a.length,
        IsLeast (window a (min (bandWidth ratio (max a.length b.length)) (a.length - 1)) i) (lo i) ∧
        IsGreatest (window a (min (bandWidth ratio (max a.length b.length)) (a.length - 1)) i) (up i))
    (p : List (ℕ × ℕ)) (hp : PathTo (a.length - 1, b.length - 1) p)
    (hal : ∀ c ∈ p, Allowed a.length b.length (bandWidth ratio (max a.length b.length)) c.1 c.2) :
    sumR rd (fun i => excessR rd (lo i) (up i) (b.getD i 0)) (List.range (min a.length b.length)) 0 ≤ accR rd a b p := by
  set w := bandWidth ratio (max a.length b.length) with hw
  have hex : ∀ i k, i < a.length → k < a.length → i ≤ k + w → k ≤ i + w →
      excessR rd (lo i) (up i) (b.getD i 0) ≤ sqR rd (a.getD k 0) (b.getD i 0) := by
    intro i k hi hk h1 h2
    have hmem : a.getD k 0 ∈ window a (min w (a.length - 1)) i :=
      ⟨k, by simp [List.getD, hk], by omega, by omega⟩
    exact excessR_le hrd ((h i hi).1.2 hmem) ((h i hi).2.2 hmem)
  by_cases hone : a.length = 1 ∨ b.length = 1
  · have e : min a.length b.length = 1 := by omega
    rw [e]
    simp only [List.range_one]
    refine le_trans ?_ (hp.firstR hrd a b)
    have := hex 0 0 (by omega) (by omega) (by omega) (by omega)
    have h2 : sumR rd (fun i => excessR rd (lo i) (up i) (b.getD i 0)) [0] 0 = rd (0 + excessR rd (lo 0) (up 0) (b.getD 0 0)) := rfl
    rw [h2, zero_add]
    have h3 : rd (sqR rd (a.getD 0 0) (b.getD 0 0)) = sqR rd (a.getD 0 0) (b.getD 0 0) := hrd.idem _
    rw [← h3]
    exact hrd.mono _ _ this
  · have := hp.sum_colsR hrd a b (fun i => excessR rd (lo i) (up i) (b.getD i 0)) (min a.length b.length) (fun x hx hxl => by
      have hb := hp.bound x hx
      have ha := hal x hx
      simp only at hb
      have : x.1 ≤ x.2 + w ∧ x.2 ≤ x.1 + w := by
        unfold Allowed inB at ha; omega
      exact hex x.2 x.1 (by omega) (by omega) this.2 this.1)
    have e : min (min a.length b.length) ((a.length - 1, b.length - 1).2 + 1) = min a.length b.length := by
      simp only; omega
    rw [e] at this
    exact this

theorem eucNormDTWR_mono [LawfulSqrt K] (hr : Rounding rd) {x y : K} (hx : 0 ≤ x) (h : x ≤ y) {m n : ℕ} (hm : 1 ≤ max m n) :
    ∃ u v, eucNormDTWR rd (fin x) m n = fin u ∧ eucNormDTWR rd (fin y) m n = fin v ∧ u ≤ v := by
  have hN := maxlen_pos (K := K) hm
  refine ⟨rd (rd (HasSqrt.sqrt x) / ((2 * max m n : ℕ) : K)), rd (rd (HasSqrt.sqrt y) / ((2 * max m n : ℕ) : K)), ?_, ?_, ?_⟩
  · simp only [eucNormDTWR, Dbl.ofNat, sqrt_fin hx, rnd_fin]
    rw [fin_div_fin (ne_of_gt hN), rnd_fin]
  · simp only [eucNormDTWR, Dbl.ofNat, sqrt_fin (le_trans hx h), rnd_fin]
    rw [fin_div_fin (ne_of_gt hN), rnd_fin]
  · exact hr.mono _ _ (div_le_div_of_nonneg_right (hr.mono _ _ ((sqrt_le_sqrt_iff hx (le_trans hx h)).2 h)) (le_of_lt hN))

/-- Anything below all path costs is below the distance. -/
theorem boundR_le [LawfulSqrt K] (hrd : Rounding rd) [BandOps] {ratio : ℚ} (hr : 0 ≤ ratio) {a b : List K} (ha : 1 ≤ a.length)
    (hb : 1 ≤ b.length) {D : Dbl K} (hD : warpedValue (euclideanR rd) ratio (a.map fin) (b.map fin) .inf = .ok D) {x : K} (hx : 0 ≤ x)
    (h : ∀ p, PathTo (a.length - 1, b.length - 1) p →
      (∀ c ∈ p, Allowed a.length b.length (bandWidth ratio (max a.length b.length)) c.1 c.2) → x ≤ accR rd a b p) :
    eucNormDTWR rd (fin x) a.length b.length ≤ D := by
  have hbw := band_eq_bandWidth hr (len := max a.length b.length) (by omega)
  rcases warped_attain (growEuclideanR hrd (by omega)) hbw ha hb with ⟨p, p1, p2, e⟩ | ⟨e, -⟩
  · rw [hD, Except.ok.injEq] at e
    subst e
    have hv := (growEuclideanR hrd (m := a.length) (n := b.length) (by omega)).norm_val _ (pathAcc_ok (a := a) (b := b) p1)
    rw [← hv, pathAcc_euclideanR]
    obtain ⟨u, v, h1, h2, h3⟩ := eucNormDTWR_mono hrd hx (h p p1 p2) (m := a.length) (n := b.length) (by omega)
    change _ ≤ eucNormDTWR rd _ _ _
    rw [h1, h2, fin_le_fin]
    exact h3
  · rw [hD, Except.ok.injEq] at e
    subst e
    obtain ⟨u, v, h1, -⟩ := eucNormDTWR_mono hrd hx (le_refl x) (m := a.length) (n := b.length) (by omega)
    rw [h1]; simp

end

/-! ## With exact arithmetic nothing changes -/

theorem rnd_id (x : Dbl K) : rnd (fun x => x) x = x := by cases x <;> rfl

theorem dmR_id [HasSqrt K] (m : Metric) : m.dmR (fun x : K => x) = m.dm K := by
  have h : eucNormDTWR (fun x : K => x) = eucNormDTW := by
    funext t l1 l2
    simp only [eucNormDTWR, eucNormDTW, rnd_id]
  cases m <;> simp only [Metric.dmR, Metric.dm, euclideanR, manhattanR, chebyshevR, cosineR, sorensenR, euclidean, manhattan, chebyshev,
    cosine, sorensen, eucDistR, rnd_id, eucDist, h]

theorem keoghLoopR_id [HasSqrt K] (lower upper : OutArr K) (b : List (Dbl K)) (idropout : Dbl K) (is : List ℕ) (lb : Dbl K) :
    keoghLoopR (fun x : K => x) lower upper b idropout is lb = keoghLoop lower upper b idropout is lb := by
  induction is generalizing lb with
  | nil => rfl
  | cons i is ih => simp only [keoghLoopR, keoghLoop, ih, rnd_id, eucDistR, eucDist]

theorem keoghR_id [HasSqrt K] [BandOps] (ratio : ℚ) (a b : List (Dbl K)) (d : Dbl K) :
    keoghLowerBoundR (fun x : K => x) ratio a b d = keoghLowerBound ratio a b d := by
  simp only [keoghLowerBoundR, keoghLowerBound, keoghLoopR_id, rnd_id, eucNormDTWR, eucNormDTW]

theorem evalR_id [HasSqrt K] [BandOps] (ratio : ℚ) (f : DistRef) (a b : List (Dbl K)) (d : Dbl K) :
    f.evalR (fun x : K => x) ratio a b d = f.eval ratio a b d := by
  cases f with
  | pairwise m => simp only [DistRef.evalR, DistRef.eval, dmR_id]
  | warped m => simp only [DistRef.evalR, DistRef.eval, dmR_id]
  | cascade =>
    have h : kimLowerBoundR (fun x : K => x) a b = kimLowerBound a b := by
      simp only [kimLowerBoundR, kimLowerBound, eucDistR, eucDist, rnd_id, eucNormDTWR, eucNormDTW]
    have h2 : crossKeoghLowerBoundR (fun x : K => x) ratio a b d = crossKeoghLowerBound ratio a b d := by
      simp only [crossKeoghLowerBoundR, crossKeoghLowerBound, keoghR_id]
    have h3 : euclideanR (fun x : K => x) = euclidean K := dmR_id .euclidean
    simp only [DistRef.evalR, DistRef.eval, cascadeValue, cascadeDistanceR, cascadeDistance, h, h2, h3]
    rfl

/-! ## Pairwise -/

theorem dropR_manhattan (hr : Rounding rd) (a b : List K) (hl : a.length = b.length) (d : Dbl K) :
    ∃ F, pairwiseDistance (manhattanR rd) (a.map fin) (b.map fin) .inf = .ok F ∧
      (pairwiseDistance (manhattanR rd) (a.map fin) (b.map fin) d = .ok F ∨
        (d < F ∧ pairwiseDistance (manhattanR rd) (a.map fin) (b.map fin) d = .ok .inf)) := by
  refine pairwise_dropExact _ a b hl d (fun t => decide_eq_false (inf_lt _).1)
    (fun s => ∃ x : K, rd x = x ∧ s = fin x) leFin (fun _ => Or.inl rfl) leFin_trans ⟨0, hr.zero, rfl⟩ ?_ ?_ ?_
  · rintro s x y ⟨t, -, rfl⟩
    exact ⟨rd (t + |rd (x - y)|), hr.idem _, by simp [manhattanR, abs_fin]⟩
  · rintro s x y ⟨t, ht, rfl⟩
    right
    simp only [manhattanR, fin_sub_fin, rnd_fin, abs_fin, fin_add_fin, fin_le_fin]
    exact hr.add_le ht (abs_nonneg _)
  · rintro s u hp ⟨t, -, rfl⟩ ⟨v, -, rfl⟩ hle h
    have hn : (0 : K) < (a.length : K) := by exact_mod_cast hp
    replace h : d < rnd rd (fin t / Dbl.ofNat (max a.length b.length)) := of_decide_eq_true h
    change d < rnd rd (fin v / Dbl.ofNat (max a.length b.length))
    rw [← hl, max_self, Dbl.ofNat, fin_div_fin (ne_of_gt hn), rnd_fin] at h ⊢
    refine Dbl.lt_of_lt_of_le h ?_
    rw [fin_le_fin]
    exact hr.mono _ _ (div_le_div_of_nonneg_right (leFin_fin hle) (le_of_lt hn))

theorem dropR_chebyshev (a b : List K) (hl : a.length = b.length) (d : Dbl K) :
    ∃ F, pairwiseDistance (chebyshevR rd) (a.map fin) (b.map fin) .inf = .ok F ∧
      (pairwiseDistance (chebyshevR rd) (a.map fin) (b.map fin) d = .ok F ∨
        (d < F ∧ pairwiseDistance (chebyshevR rd) (a.map fin) (b.map fin) d = .ok .inf)) := by
  refine pairwise_dropExact _ a b hl d (fun t => decide_eq_false (inf_lt _).1)
    (fun s => s = .ninf ∨ ∃ x : K, s = fin x) leFin (fun _ => Or.inl rfl) leFin_trans (Or.inl rfl) ?_ ?_ ?_
  · rintro s x y (rfl | ⟨t, rfl⟩)
    · exact Or.inr ⟨|rd (x - y)|, by simp [chebyshevR, abs_fin, stdMax]⟩
    · exact Or.inr ⟨max t |rd (x - y)|, by simp [chebyshevR, abs_fin, stdMax_fin]⟩
  · rintro s x y (rfl | ⟨t, rfl⟩)
    · right
      simp [chebyshevR, abs_fin, stdMax, le_def]
    · right
      simp only [chebyshevR, fin_sub_fin, rnd_fin, abs_fin, stdMax_fin, fin_le_fin]
      exact le_max_left _ _
  · intro s u hp hs hu hle h
    change Dbl K at s u
    replace h : d < s := of_decide_eq_true h
    change d < u
    rcases hle with rfl | hle
    · exact h
    · exact Dbl.lt_of_lt_of_le h hle

end Genex
