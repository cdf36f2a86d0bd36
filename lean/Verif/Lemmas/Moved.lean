import Verif.Spec.Moved
import Verif.Lemmas.RoundedError
import Verif.Lemmas.MetricLaws

/-!
# Lemmas: numbers that are changed a little
-/

set_option linter.unusedSectionVars false

namespace Genex

open Spec HasSqrt

variable {K : Type} [Field K] [LinearOrder K] [IsStrictOrderedRing K]

theorem Spec.Moved.symm {δ : K} {a a' : List K} (h : Moved δ a a') : Moved δ a' a := by
  refine List.Forall₂.flip ?_
  exact h.imp fun x y hxy => by
    show |x - y| ≤ δ
    rw [abs_sub_comm]
    exact hxy

theorem Spec.Moved.length {δ : K} {a a' : List K} (h : Moved δ a a') : a.length = a'.length := List.Forall₂.length_eq h

theorem Spec.Moved.getD {δ : K} (hδ : 0 ≤ δ) {a a' : List K} (h : Moved δ a a') (i : ℕ) : |a'.getD i 0 - a.getD i 0| ≤ δ := by
  induction h generalizing i with
  | nil => simpa using hδ
  | cons hx _ ih =>
    cases i with
    | zero => simpa using hx
    | succ i => simpa using ih i

theorem Spec.Moved.slice {δ : K} {a a' : List K} (h : Moved δ a a') (s l : ℕ) : Moved δ ((a.drop s).take l) ((a'.drop s).take l) :=
  List.forall₂_take l (List.forall₂_drop s h)

/-- The differences along an alignment move by at most twice as much. -/
theorem diffs_moved {δ : K} (hδ : 0 ≤ δ) {a a' b b' : List K} (ha : Moved δ a a') (hb : Moved δ b b') (p : List (ℕ × ℕ)) :
    List.Forall₂ (fun x y => |y - x| ≤ 2 * δ) (diffs a b p) (diffs a' b' p) := by
  unfold diffs
  rw [List.forall₂_map_left_iff, List.forall₂_map_right_iff]
  refine List.forall₂_same.2 fun c _ => ?_
  have h1 := ha.getD hδ c.1
  have h2 := hb.getD hδ c.2
  have : a'.getD c.1 0 - b'.getD c.2 0 - (a.getD c.1 0 - b.getD c.2 0) = (a'.getD c.1 0 - a.getD c.1 0) - (b'.getD c.2 0 - b.getD c.2 0) := by ring
  rw [this]
  have := abs_sub (a'.getD c.1 0 - a.getD c.1 0) (b'.getD c.2 0 - b.getD c.2 0)
  linarith

theorem sum_abs_moved {η : K} {u v : List K} (h : List.Forall₂ (fun x y => |y - x| ≤ η) u v) :
    (v.map fun d => |d|).sum ≤ (u.map fun d => |d|).sum + u.length * η := by
  induction h with
  | nil => simp
  | @cons x y u v hx _ ih =>
    simp only [List.map_cons, List.sum_cons, List.length_cons, Nat.cast_succ]
    have : |y| ≤ |x| + |y - x| := by
      have := abs_add_le x (y - x)
      rwa [add_sub_cancel] at this
    linarith

theorem max_abs_moved {η : K} (hη : 0 ≤ η) {u v : List K} (h : List.Forall₂ (fun x y => |y - x| ≤ η) u v) :
    (v.map fun d => |d|).foldr max 0 ≤ (u.map fun d => |d|).foldr max 0 + η := by
  induction h with
  | nil => simpa using hη
  | @cons x y u v hx _ ih =>
    simp only [List.map_cons, List.foldr_cons]
    have : |y| ≤ |x| + |y - x| := by
      have := abs_add_le x (y - x)
      rwa [add_sub_cancel] at this
    refine max_le ?_ ?_
    · exact le_trans (by linarith) (add_le_add_left (le_max_left _ _) η)
    · exact le_trans ih (add_le_add_left (le_max_right _ _) η)

theorem sum_sq_moved [HasSqrt K] [LawfulSqrt K] {η : K} (hη : 0 ≤ η) {u v : List K} (h : List.Forall₂ (fun x y => |y - x| ≤ η) u v) :
    sqrt (v.map fun d => d ^ 2).sum ≤ sqrt (u.map fun d => d ^ 2).sum + u.length * η := by
  have hl : u.length = v.length := h.length_eq
  have z : ∀ l : List K, (List.zipWith (fun x y => (x - y) ^ 2) (List.replicate l.length (0 : K)) l).sum = (l.map fun d => d ^ 2).sum := by
    intro l
    induction l with
    | nil => rfl
    | cons x l ih => simp [List.replicate_succ, ih]
  have t := sumsq_triangle (a := List.replicate u.length (0 : K)) (b := u) (c := v) (by simp) hl
  rw [z u] at t
  rw [hl, z v] at t
  rw [hl]
  refine le_trans t (add_le_add_right ?_ _)
  have b0 := sumsq_nonneg u v
  have : (List.zipWith (fun x y => (x - y) ^ 2) u v).sum ≤ (v.length : K) * η * ((v.length : K) * η) := by
    have h1 : (List.zipWith (fun x y => (x - y) ^ 2) u v).sum ≤ (v.length : K) * (η * η) := by
      clear t b0 hl
      induction h with
      | nil => simp
      | @cons x y u v hx _ ih =>
        simp only [List.zipWith_cons_cons, List.sum_cons, List.length_cons, Nat.cast_succ]
        have : (x - y) ^ 2 ≤ η * η := by
          rw [← sq_abs, abs_sub_comm, sq]
          exact mul_le_mul hx hx (abs_nonneg _) hη
        linarith
    refine le_trans h1 ?_
    have h2 : (v.length : K) * (η * η) ≤ (v.length : K) * (v.length : K) * (η * η) := by
      refine mul_le_mul_of_nonneg_right ?_ (mul_nonneg hη hη)
      have := Nat.le_mul_self v.length
      exact_mod_cast this
    linarith
  refine le_of_sq_le (mul_nonneg (Nat.cast_nonneg _) hη) ?_
  rw [LawfulSqrt.mul_self b0]
  exact this

theorem leastCost_moved [BandOps] {ratio : ℚ} {a b a' b' : List K} {cost cost' : List (ℕ × ℕ) → K} {d d' : Dbl K} {η : K}
    (hla : a.length = a'.length) (hlb : b.length = b'.length) (h : LeastCost ratio a b cost d) (h' : LeastCost ratio a' b' cost' d')
    (h1 : ∀ p, Alignment a.length b.length p → cost' p ≤ cost p + η) (h2 : ∀ p, Alignment a.length b.length p → cost p ≤ cost' p + η) :
    (d = .inf ∧ d' = .inf) ∨ ∃ x x', d = .fin x ∧ d' = .fin x' ∧ |x' - x| ≤ η := by
  unfold LeastCost at h h'
  rw [← hla, ← hlb] at h'
  dsimp only at h h'
  rcases h with ⟨x, rfl, ⟨p, hp, hb, rfl⟩, hx⟩ | ⟨rfl, he⟩ <;> rcases h' with ⟨x', rfl, ⟨p', hp', hb', rfl⟩, hx'⟩ | ⟨rfl, he'⟩
  · refine .inr ⟨_, _, rfl, rfl, ?_⟩
    have g1 := hx ⟨p', hp', hb', rfl⟩
    have g2 := hx' ⟨p, hp, hb, rfl⟩
    have g3 := h1 p hp
    have g4 := h2 p' hp'
    rw [abs_le]
    constructor <;> linarith
  · exact absurd (show cost' p ∈ bandedCosts _ _ _ cost' from ⟨p, hp, hb, rfl⟩) (by rw [he']; simp)
  · exact absurd (show cost p' ∈ bandedCosts _ _ _ cost from ⟨p', hp', hb', rfl⟩) (by rw [he]; simp)
  · exact .inl ⟨rfl, rfl⟩

theorem dtw_moved [HasSqrt K] {m : Metric} (hs : m = .euclidean → LawfulSqrt K) [BandOps] {ratio : ℚ} {a b a' b' : List K} {d d' : Dbl K} {δ : K}
    (hδ : 0 ≤ δ) (ha : Moved δ a a') (hb : Moved δ b b') (ha1 : 1 ≤ a.length) (hb1 : 1 ≤ b.length) (h : Dtw m ratio a b d)
    (h' : Dtw m ratio a' b' d') : (d = .inf ∧ d' = .inf) ∨ ∃ x x', d = .fin x ∧ d' = .fin x' ∧ |x' - x| ≤ 2 * δ := by
  have hη : 0 ≤ 2 * δ := by linarith
  have hlen : ∀ p, Alignment a.length b.length p → (p.length : K) ≤ ((2 * max a.length b.length : ℕ) : K) := by
    intro p hp
    have := (alignment_iff.1 hp).length_le
    have h3 : p.length ≤ 2 * max a.length b.length := by
      simp only at this
      omega
    exact_mod_cast h3
  have h0 : (0 : K) < ((2 * max a.length b.length : ℕ) : K) := by
    have : 0 < 2 * max a.length b.length := by omega
    exact_mod_cast this
  have key : ∀ (x y : K) (n : ℕ), (n : K) ≤ ((2 * max a.length b.length : ℕ) : K) → y ≤ x + n * (2 * δ) →
      y / ((2 * max a.length b.length : ℕ) : K) ≤ x / ((2 * max a.length b.length : ℕ) : K) + 2 * δ := by
    intro x y n hn hxy
    rw [div_add' _ _ _ h0.ne', div_le_div_iff_of_pos_right h0]
    have := mul_le_mul_of_nonneg_right hn hη
    linarith
  have d1 : ∀ p, (diffs a b p).length = p.length := fun p => by simp [diffs]
  have d2 : ∀ p, (diffs a' b' p).length = p.length := fun p => by simp [diffs]
  cases m with
  | euclidean =>
    have := hs rfl
    refine leastCost_moved ha.length hb.length h h' (fun p hp => ?_) (fun p hp => ?_) <;> rw [← ha.length, ← hb.length]
    · have := sum_sq_moved hη (diffs_moved hδ ha hb p)
      rw [d1] at this
      exact key _ _ _ (hlen p hp) this
    · have := sum_sq_moved hη (diffs_moved hδ ha.symm hb.symm p)
      rw [d2] at this
      exact key _ _ _ (hlen p hp) this
  | manhattan =>
    refine leastCost_moved ha.length hb.length h h' (fun p hp => ?_) (fun p hp => ?_) <;> rw [← ha.length, ← hb.length]
    · have := sum_abs_moved (diffs_moved hδ ha hb p)
      rw [d1] at this
      exact key _ _ _ (hlen p hp) this
    · have := sum_abs_moved (diffs_moved hδ ha.symm hb.symm p)
      rw [d2] at this
      exact key _ _ _ (hlen p hp) this
  | chebyshev =>
    exact leastCost_moved ha.length hb.length h h' (fun p _ => max_abs_moved hη (diffs_moved hδ ha hb p))
      (fun p _ => max_abs_moved hη (diffs_moved hδ ha.symm hb.symm p))
  | cosine => exact h.elim
  | sorensen => exact h.elim

theorem Spec.MovedAll.sub {δ : K} {rows rows' : List (List K)} (h : MovedAll δ rows rows') {ℓ i s : ℕ} {y : List K} (hy : SubOf rows ℓ i s y) :
    ∃ y', SubOf rows' ℓ i s y' ∧ Moved δ y y' := by
  obtain ⟨r, h1, h2, rfl⟩ := hy
  obtain ⟨hl, hg⟩ := List.forall₂_iff_get.1 h
  obtain ⟨hi, e⟩ := List.getElem?_eq_some_iff.1 h1
  have hm := hg i hi (hl ▸ hi)
  simp only [List.get_eq_getElem, e] at hm
  exact ⟨_, ⟨_, List.getElem?_eq_getElem (hl ▸ hi), by rw [← hm.length]; exact h2, rfl⟩, hm.slice s ℓ⟩

theorem Spec.MovedAll.symm {δ : K} {rows rows' : List (List K)} (h : MovedAll δ rows rows') : MovedAll δ rows' rows :=
  List.Forall₂.flip (h.imp fun _ _ hxy => hxy.symm)

/-- A row has its counterpart. -/
theorem Spec.MovedAll.mem {δ : K} {raw raw' : List (List K)} (h : MovedAll δ raw raw') {x : K} (hx : ∃ r ∈ raw, x ∈ r) :
    ∃ x', (∃ r ∈ raw', x' ∈ r) ∧ |x' - x| ≤ δ := by
  induction h with
  | nil => obtain ⟨r, hr, -⟩ := hx; cases hr
  | cons hrr _ ih =>
    obtain ⟨r, hr, hx⟩ := hx
    rcases List.mem_cons.1 hr with rfl | hr
    · clear ih hr
      induction hrr with
      | nil => cases hx
      | cons hab _ ih' =>
        rcases List.mem_cons.1 hx with rfl | hx
        · exact ⟨_, ⟨_, List.mem_cons_self .., List.mem_cons_self ..⟩, hab⟩
        · obtain ⟨x', ⟨r', hr', hx'⟩, hd⟩ := ih' hx
          rcases List.mem_cons.1 hr' with rfl | hr'
          · exact ⟨x', ⟨_, List.mem_cons_self .., List.mem_cons_of_mem _ hx'⟩, hd⟩
          · exact ⟨x', ⟨r', List.mem_cons_of_mem _ hr', hx'⟩, hd⟩
    · obtain ⟨x', ⟨r', hr', hx'⟩, hd⟩ := ih ⟨r, hr, hx⟩
      exact ⟨x', ⟨r', List.mem_cons_of_mem _ hr', hx'⟩, hd⟩

/-- The least and the greatest number move at most as the numbers do. -/
theorem least_moved {δ : K} {raw raw' : List (List K)} (h : MovedAll δ raw raw') {lo lo' : K} (hl : IsLeast {x | ∃ r ∈ raw, x ∈ r} lo)
    (hl' : IsLeast {x | ∃ r ∈ raw', x ∈ r} lo') : |lo' - lo| ≤ δ := by
  obtain ⟨x', k1, k2⟩ := h.mem hl.1
  obtain ⟨y, j1, j2⟩ := h.symm.mem hl'.1
  have e1 := hl'.2 k1
  have e2 := hl.2 j1
  rw [abs_le] at *
  constructor <;> linarith [k2.1, k2.2, j2.1, j2.2]

theorem greatest_moved {δ : K} {raw raw' : List (List K)} (h : MovedAll δ raw raw') {lo lo' : K} (hl : IsGreatest {x | ∃ r ∈ raw, x ∈ r} lo)
    (hl' : IsGreatest {x | ∃ r ∈ raw', x ∈ r} lo') : |lo' - lo| ≤ δ := by
  obtain ⟨x', k1, k2⟩ := h.mem hl.1
  obtain ⟨y, j1, j2⟩ := h.symm.mem hl'.1
  have e1 := hl'.2 k1
  have e2 := hl.2 j1
  rw [abs_le] at *
  constructor <;> linarith [k2.1, k2.2, j2.1, j2.2]

/-- One number, scaled. -/
theorem scaled_moved {δ lo hi lo' hi' x x' : K} (hR : lo < hi) (hlo : |lo' - lo| ≤ δ) (hhi : |hi' - hi| ≤ δ) (hx : |x' - x| ≤ δ)
    (h1 : lo' ≤ x') (h2 : x' ≤ hi') :
    |(if lo' = hi' then 0 else (x' - lo') / (hi' - lo')) - (x - lo) / (hi - lo)| ≤ 2 * δ / (hi - lo) := by
  have hpos : 0 < hi - lo := sub_pos.2 hR
  obtain ⟨y, hy0, hy1, hy, hyx⟩ : ∃ y : K, 0 ≤ y ∧ y ≤ 1 ∧ (if lo' = hi' then 0 else (x' - lo') / (hi' - lo')) = y ∧
      x' = (1 - y) * lo' + y * hi' := by
    by_cases e : lo' = hi'
    · refine ⟨0, le_rfl, zero_le_one, if_pos e, ?_⟩
      have : x' = lo' := le_antisymm (e ▸ h2) h1
      rw [this]; ring
    · have hp : 0 < hi' - lo' := sub_pos.2 (lt_of_le_of_ne (le_trans h1 h2) e)
      refine ⟨(x' - lo') / (hi' - lo'), div_nonneg (sub_nonneg.2 h1) hp.le, (div_le_one hp).2 (by linarith), if_neg e, ?_⟩
      have : (x' - lo') / (hi' - lo') * (hi' - lo') = x' - lo' := div_mul_cancel₀ _ hp.ne'
      rw [show (1 - (x' - lo') / (hi' - lo')) * lo' + (x' - lo') / (hi' - lo') * hi' = lo' + (x' - lo') / (hi' - lo') * (hi' - lo') by ring, this]
      ring
  rw [hy]
  rw [le_div_iff₀ hpos]
  have e1 : |y - (x - lo) / (hi - lo)| * (hi - lo) = |y * (hi - lo) - (x - lo)| := by
    rw [← abs_of_pos hpos, ← abs_mul, abs_of_pos hpos, sub_mul, div_mul_cancel₀ _ hpos.ne']
  rw [e1, show y * (hi - lo) - (x - lo) = (x' - x) - (1 - y) * (lo' - lo) - y * (hi' - hi) by rw [hyx]; ring]
  have a1 : |(1 - y) * (lo' - lo)| ≤ (1 - y) * δ := by
    rw [abs_mul, abs_of_nonneg (sub_nonneg.2 hy1)]
    exact mul_le_mul_of_nonneg_left hlo (sub_nonneg.2 hy1)
  have a2 : |y * (hi' - hi)| ≤ y * δ := by
    rw [abs_mul, abs_of_nonneg hy0]
    exact mul_le_mul_of_nonneg_left hhi hy0
  rw [abs_le] at *
  constructor <;> linarith [a1.1, a1.2, a2.1, a2.2, hx.1, hx.2]

/-- All numbers, scaled. -/
theorem scales_moved {δ : K} {raw raw' : List (List K)} (h : MovedAll δ raw raw') {lo hi lo' hi' : K}
    (hlo : IsLeast {x | ∃ r ∈ raw, x ∈ r} lo) (hhi : IsGreatest {x | ∃ r ∈ raw, x ∈ r} hi)
    (hlo' : IsLeast {x | ∃ r ∈ raw', x ∈ r} lo') (hhi' : IsGreatest {x | ∃ r ∈ raw', x ∈ r} hi') (hR : lo < hi) :
    MovedAll (2 * δ / (hi - lo)) (raw.map (·.map fun x => if lo = hi then 0 else (x - lo) / (hi - lo)))
      (raw'.map (·.map fun x => if lo' = hi' then 0 else (x - lo') / (hi' - lo'))) := by
  have hl := least_moved h hlo hlo'
  have hg := greatest_moved h hhi hhi'
  have hb : ∀ r ∈ raw', ∀ x ∈ r, lo' ≤ x ∧ x ≤ hi' := fun r hr x hx => ⟨hlo'.2 ⟨r, hr, hx⟩, hhi'.2 ⟨r, hr, hx⟩⟩
  clear hlo hhi hlo' hhi'
  unfold MovedAll at *
  rw [List.forall₂_map_left_iff, List.forall₂_map_right_iff]
  induction h with
  | nil => exact .nil
  | cons hrr _ ih =>
    refine .cons ?_ (ih fun r hr => hb r (List.mem_cons_of_mem _ hr))
    have hb' := hb _ (List.mem_cons_self ..)
    clear ih hb
    unfold Moved at *
    rw [List.forall₂_map_left_iff, List.forall₂_map_right_iff]
    induction hrr with
    | nil => exact .nil
    | cons hab _ ih' =>
      refine .cons ?_ (ih' fun x hx => hb' x (List.mem_cons_of_mem _ hx))
      rw [if_neg hR.ne]
      obtain ⟨k1, k2⟩ := hb' _ (List.mem_cons_self ..)
      exact scaled_moved hR hl hg hab k1 k2

end Genex
