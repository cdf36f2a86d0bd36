import Verif.Spec.Units
import Verif.Lemmas.Moved
import Verif.Spec.EndToEnd

/-!
# Lemmas: numbers in other units
-/

set_option linter.unusedSectionVars false

namespace Genex

open Spec HasSqrt Registry

variable {K : Type} [Field K] [LinearOrder K] [IsStrictOrderedRing K]

theorem Spec.ConvertedAll.map {s c : K} {rows rows' : List (List K)} (h : ConvertedAll s c rows rows') :
    rows' = rows.map (·.map fun x => s * x + c) := by
  induction h with
  | nil => rfl
  | cons hx _ ih => rw [List.map_cons, ← ih, hx]

theorem diffs_converted {s c : K} {a b : List K} {p : List (ℕ × ℕ)} (hp : Alignment a.length b.length p) (ha : 1 ≤ a.length) (hb : 1 ≤ b.length) :
    diffs (a.map fun x => s * x + c) (b.map fun x => s * x + c) p = (diffs a b p).map (s * ·) := by
  unfold diffs
  rw [List.map_map]
  refine List.map_congr_left fun x hx => ?_
  have := (alignment_iff.1 hp).bound x hx
  have h1 : x.1 < a.length := by simp only at this; omega
  have h2 : x.2 < b.length := by simp only at this; omega
  simp only [List.getD_eq_getElem?_getD, List.getElem?_map, List.getElem?_eq_getElem h1, List.getElem?_eq_getElem h2, Option.map_some,
    Option.getD_some, Function.comp_def]
  ring

theorem sq_scaled (s : K) (u : List K) : ((u.map (s * ·)).map fun d => d ^ 2).sum = |s| * |s| * (u.map fun d => d ^ 2).sum := by
  rw [abs_mul_abs_self]
  induction u with
  | nil => simp
  | cons x u ih =>
    simp only [List.map_cons, List.sum_cons, ih]
    ring

theorem abs_scaled (s : K) (u : List K) : ((u.map (s * ·)).map fun d => |d|).sum = |s| * (u.map fun d => |d|).sum := by
  induction u with
  | nil => simp
  | cons x u ih =>
    simp only [List.map_cons, List.sum_cons, ih, abs_mul]
    ring

theorem max_scaled (s : K) (u : List K) : ((u.map (s * ·)).map fun d => |d|).foldr max 0 = |s| * (u.map fun d => |d|).foldr max 0 := by
  induction u with
  | nil => simp
  | cons x u ih => simp only [List.map_cons, List.foldr_cons, ih, abs_mul, mul_max_of_nonneg _ _ (abs_nonneg s)]

theorem leastCost_scaled [BandOps] {ratio : ℚ} {a b a' b' : List K} {cost cost' : List (ℕ × ℕ) → K} {d d' : Dbl K} {t : K} (ht : 0 ≤ t)
    (hla : a.length = a'.length) (hlb : b.length = b'.length) (h : LeastCost ratio a b cost d) (h' : LeastCost ratio a' b' cost' d')
    (h1 : ∀ p, Alignment a.length b.length p → cost' p = t * cost p) :
    (d = .inf ∧ d' = .inf) ∨ ∃ x, d = .fin x ∧ d' = .fin (t * x) := by
  unfold LeastCost at h h'
  rw [← hla, ← hlb] at h'
  dsimp only at h h'
  rcases h with ⟨x, rfl, ⟨p, hp, hb, rfl⟩, hx⟩ | ⟨rfl, he⟩ <;> rcases h' with ⟨x', rfl, ⟨p', hp', hb', rfl⟩, hx'⟩ | ⟨rfl, he'⟩
  · refine .inr ⟨_, rfl, ?_⟩
    have g1 := hx ⟨p', hp', hb', rfl⟩
    have g2 := hx' ⟨p, hp, hb, rfl⟩
    rw [h1 p hp] at g2
    rw [h1 p' hp'] at g2 ⊢
    exact congrArg Dbl.fin (le_antisymm g2 (mul_le_mul_of_nonneg_left g1 ht))
  · exact absurd (show cost' p ∈ bandedCosts _ _ _ cost' from ⟨p, hp, hb, rfl⟩) (by rw [he']; simp)
  · exact absurd (show cost p' ∈ bandedCosts _ _ _ cost from ⟨p', hp', hb', rfl⟩) (by rw [he]; simp)
  · exact .inl ⟨rfl, rfl⟩

theorem dtw_converted [HasSqrt K] {m : Metric} (hs : m = .euclidean → LawfulSqrt K) [BandOps] {ratio : ℚ} {a b a' b' : List K} {d d' : Dbl K}
    {s c : K} (ha : Converted s c a a') (hb : Converted s c b b') (ha1 : 1 ≤ a.length) (hb1 : 1 ≤ b.length) (h : Dtw m ratio a b d)
    (h' : Dtw m ratio a' b' d') : (d = .inf ∧ d' = .inf) ∨ ∃ x, d = .fin x ∧ d' = .fin (|s| * x) := by
  unfold Converted at ha hb
  subst ha hb
  have la : a.length = (a.map fun x => s * x + c).length := by simp
  have lb : b.length = (b.map fun x => s * x + c).length := by simp
  cases m with
  | euclidean =>
    have := hs rfl
    refine leastCost_scaled (abs_nonneg s) la lb h h' fun p hp => ?_
    rw [← la, ← lb, sqCost, diffs_converted hp ha1 hb1, sq_scaled, sqrt_mul_sq (abs_nonneg s) (List.sum_nonneg (by
      simp only [List.mem_map]
      rintro _ ⟨x, -, rfl⟩
      exact sq_nonneg x)), mul_div_assoc]
    rfl
  | manhattan =>
    refine leastCost_scaled (abs_nonneg s) la lb h h' fun p hp => ?_
    rw [← la, ← lb, absCost, diffs_converted hp ha1 hb1, abs_scaled, mul_div_assoc]
    rfl
  | chebyshev =>
    refine leastCost_scaled (abs_nonneg s) la lb h h' fun p hp => ?_
    rw [maxCost, diffs_converted hp ha1 hb1, max_scaled]
    rfl
  | cosine => exact h.elim
  | sorensen => exact h.elim

theorem least_converted {s c : K} (hs : 0 < s) {raw : List (List K)} {lo : K} (hl : IsLeast {x | ∃ r ∈ raw, x ∈ r} lo) :
    IsLeast {x | ∃ r ∈ raw.map (·.map fun x => s * x + c), x ∈ r} (s * lo + c) := by
  obtain ⟨⟨r, hr, hx⟩, h⟩ := hl
  refine ⟨⟨_, List.mem_map_of_mem hr, List.mem_map_of_mem hx⟩, ?_⟩
  rintro _ ⟨_, hr', hx'⟩
  obtain ⟨r', hr'', rfl⟩ := List.mem_map.1 hr'
  obtain ⟨x, hx'', rfl⟩ := List.mem_map.1 hx'
  have := mul_le_mul_of_nonneg_left (h ⟨r', hr'', hx''⟩) hs.le
  linarith

theorem greatest_converted {s c : K} (hs : 0 < s) {raw : List (List K)} {hi : K} (hl : IsGreatest {x | ∃ r ∈ raw, x ∈ r} hi) :
    IsGreatest {x | ∃ r ∈ raw.map (·.map fun x => s * x + c), x ∈ r} (s * hi + c) := by
  obtain ⟨⟨r, hr, hx⟩, h⟩ := hl
  refine ⟨⟨_, List.mem_map_of_mem hr, List.mem_map_of_mem hx⟩, ?_⟩
  rintro _ ⟨_, hr', hx'⟩
  obtain ⟨r', hr'', rfl⟩ := List.mem_map.1 hr'
  obtain ⟨x, hx'', rfl⟩ := List.mem_map.1 hx'
  have := mul_le_mul_of_nonneg_left (h ⟨r', hr'', hx''⟩) hs.le
  linarith

theorem scale_converted {s c lo hi x : K} (hs : 0 < s) :
    (if s * lo + c = s * hi + c then 0 else (s * x + c - (s * lo + c)) / (s * hi + c - (s * lo + c))) =
      if lo = hi then 0 else (x - lo) / (hi - lo) := by
  by_cases e : lo = hi
  · rw [if_pos e, if_pos (by rw [e])]
  · rw [if_neg e, if_neg (fun h => e (mul_left_cancel₀ hs.ne' (add_right_cancel h)))]
    rw [show s * x + c - (s * lo + c) = s * (x - lo) by ring, show s * hi + c - (s * lo + c) = s * (hi - lo) by ring,
      mul_div_mul_left _ _ hs.ne']

theorem scales_converted {s c : K} (hs : 0 < s) {raw raw' rows : List (List K)} (h : ConvertedAll s c raw raw') (hr : Scales raw rows) :
    Scales raw' rows := by
  obtain ⟨lo, hi, h1, h2, rfl⟩ := hr
  rw [h.map]
  refine ⟨s * lo + c, s * hi + c, least_converted hs h1, greatest_converted hs h2, ?_⟩
  simp only [List.map_map, Function.comp_def, scale_converted hs]

theorem Spec.ConvertedAll.sub {s c : K} {rows rows' : List (List K)} (h : ConvertedAll s c rows rows') {ℓ i p : ℕ} {y : List K}
    (hy : SubOf rows ℓ i p y) : ∃ y', SubOf rows' ℓ i p y' ∧ Converted s c y y' := by
  obtain ⟨r, hr, hle, rfl⟩ := hy
  refine ⟨_, ⟨r.map fun x => s * x + c, by rw [h.map]; simp [hr], by simpa using hle, rfl⟩, ?_⟩
  simp [Converted, List.map_take, List.map_drop]

theorem Spec.ConvertedAll.sub' {s c : K} {rows rows' : List (List K)} (h : ConvertedAll s c rows rows') {ℓ i p : ℕ} {y' : List K}
    (hy : SubOf rows' ℓ i p y') : ∃ y, SubOf rows ℓ i p y ∧ Converted s c y y' := by
  obtain ⟨r, hr, hle, rfl⟩ := hy
  rw [h.map, List.getElem?_map, Option.map_eq_some_iff] at hr
  obtain ⟨r, hr, rfl⟩ := hr
  refine ⟨_, ⟨r, hr, by simpa using hle, rfl⟩, ?_⟩
  simp [Converted, List.map_take, List.map_drop]

theorem zip_abs_converted (s c : K) (a b : List K) :
    List.zipWith (fun x y => |x - y|) (a.map fun x => s * x + c) (b.map fun x => s * x + c) = (List.zipWith (fun x y => |x - y|) a b).map (|s| * ·) := by
  induction a generalizing b with
  | nil => simp
  | cons x a ih =>
    cases b with
    | nil => simp
    | cons y b => 
      simp only [List.map_cons, List.zipWith_cons_cons, ih, ← abs_mul]
      rw [show s * x + c - (s * y + c) = s * (x - y) by ring]

theorem zip_sq_converted (s c : K) (a b : List K) :
    (List.zipWith (fun x y => (x - y) ^ 2) (a.map fun x => s * x + c) (b.map fun x => s * x + c)).sum =
      |s| * |s| * (List.zipWith (fun x y => (x - y) ^ 2) a b).sum := by
  rw [abs_mul_abs_self]
  induction a generalizing b with
  | nil => simp
  | cons x a ih =>
    cases b with
    | nil => simp
    | cons y b =>
      simp only [List.map_cons, List.zipWith_cons_cons, List.sum_cons, ih]
      ring

theorem sum_mul_left' (t : K) (u : List K) : (u.map (t * ·)).sum = t * u.sum := by
  induction u with
  | nil => simp
  | cons x u ih => simp only [List.map_cons, List.sum_cons, ih]; ring

theorem foldr_max_scaled {t : K} (ht : 0 ≤ t) (u : List K) : (u.map (t * ·)).foldr max 0 = t * u.foldr max 0 := by
  induction u with
  | nil => simp
  | cons x u ih => simp only [List.map_cons, List.foldr_cons, ih, mul_max_of_nonneg _ _ ht]

end Genex
