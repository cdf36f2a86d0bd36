import Verif.Model.Traverse
import Verif.Lemmas.DtwMore
import Mathlib.Algebra.Order.Floor.Ring

/-! `generateTraverseOrder` visits the comparable lengths. -/

namespace Genex

open Spec

/-- `h - band h` does not decrease: a longer series tolerates at most one more position per point. -/
theorem band_step [BandOps] {ratio : ℚ} (hr : 0 ≤ ratio) (h : ℕ) (h1 : 1 ≤ h) :
    bandWidth ratio (h + 1) ≤ bandWidth ratio h + 1 := by
  unfold bandWidth
  have h2 := BandOps.step ratio h hr h1
  rw [← Int.natCast_floor_eq_floor (BandOps.nonneg ratio h hr),
    ← Int.natCast_floor_eq_floor (BandOps.nonneg ratio (h + 1) hr)] at h2
  omega

theorem band_diff_mono [BandOps] {ratio : ℚ} (hr : 0 ≤ ratio) {h h' : ℕ} (h1 : 1 ≤ h) (hh : h ≤ h') :
    h + bandWidth ratio h' ≤ h' + bandWidth ratio h := by
  induction h', hh using Nat.le_induction with
  | base => omega
  | succ k hk ih =>
    have := band_step hr k (by omega)
    omega

section
variable [BandOps] {ratio : ℚ} {q N : ℕ}

/-- Loop invariant. -/
structure TInv [BandOps] (ratio : ℚ) (q N : ℕ) (s : Trav) : Prop where
  low_lt : s.low < q
  high_gt : (q : Int) < s.high
  low_ge : 0 ≤ s.low
  high_le : s.high ≤ N + 1
  order : ∀ x, x ∈ s.order ↔ (s.low < x ∧ x < s.high)
  nodup : s.order.Nodup
  first : s.order.head? = some (q : Int)
  lowOk : ∀ x, s.low < x → x < q → 2 ≤ x ∧ (q : Int) ≤ x + band ratio q
  highOk : ∀ x, (q : Int) < x → x < s.high → x ≤ N ∧ x ≤ q + band ratio x
  lowEnd : s.lowStop = true → ¬ (2 ≤ s.low ∧ (q : Int) ≤ s.low + band ratio q)
  highEnd : s.highStop = true → ¬ (s.high ≤ N ∧ s.high ≤ q + band ratio s.high)

/-- Termination measure. -/
def tmeas (N : ℕ) (s : Trav) : ℕ :=
  (if s.lowStop then 0 else s.low.toNat + 1) + (if s.highStop then 0 else (N + 1 - s.high).toNat + 1)

theorem TInv.tests {s : Trav} (I : TInv ratio q N s) : TInv ratio q N (s.tests N) := by
  refine ⟨I.low_lt, I.high_gt, I.low_ge, I.high_le, I.order, I.nodup, I.first, I.lowOk, I.highOk, ?_, ?_⟩
  · intro h
    simp only [Trav.tests, Bool.or_eq_true, decide_eq_true_eq] at h ⊢
    rcases h with h | h
    · exact I.lowEnd h
    · omega
  · intro h
    simp only [Trav.tests, Bool.or_eq_true, decide_eq_true_eq] at h ⊢
    rcases h with h | h
    · exact I.highEnd h
    · omega

theorem TInv.goLow {s : Trav} (I : TInv ratio q N s) (h : s.lowStop = false → 2 ≤ s.low) :
    TInv ratio q N (s.goLow ratio q) := by
  unfold Trav.goLow
  split
  · exact I
  · rename_i hl
    have hl := h (by simpa using hl)
    split
    · rename_i hb
      have g1 := I.low_lt
      have g2 := I.high_gt
      refine ⟨by simp only; omega, g2, by simp only; omega, I.high_le, ?_, ?_, ?_, ?_, I.highOk, ?_, I.highEnd⟩
      · intro x
        simp only [List.mem_append, List.mem_singleton, I.order]
        omega
      · rw [List.nodup_append]
        refine ⟨I.nodup, by simp, ?_⟩
        intro a ha b hb'
        simp only [List.mem_singleton] at hb'
        have := (I.order a).1 ha
        omega
      · simp only [List.head?_append, I.first]; rfl
      · intro x h1 h2
        simp only at h1
        by_cases hx : x = s.low
        · subst hx; exact ⟨hl, hb⟩
        · exact I.lowOk x (by omega) h2
      · intro hs
        simp_all
    · rename_i hb
      exact ⟨I.low_lt, I.high_gt, I.low_ge, I.high_le, I.order, I.nodup, I.first, I.lowOk, I.highOk,
        fun _ hc => hb hc.2, I.highEnd⟩

theorem TInv.goHigh {s : Trav} (I : TInv ratio q N s) (h : s.highStop = false → s.high ≤ N) :
    TInv ratio q N (s.goHigh ratio q) := by
  unfold Trav.goHigh
  split
  · exact I
  · rename_i hl
    have hl := h (by simpa using hl)
    split
    · rename_i hb
      have g1 := I.low_lt
      have g2 := I.high_gt
      refine ⟨g1, by simp only; omega, I.low_ge, by simp only; omega, ?_, ?_, ?_, I.lowOk, ?_, I.lowEnd, ?_⟩
      · intro x
        simp only [List.mem_append, List.mem_singleton, I.order]
        omega
      · rw [List.nodup_append]
        refine ⟨I.nodup, by simp, ?_⟩
        intro a ha b hb'
        simp only [List.mem_singleton] at hb'
        have := (I.order a).1 ha
        omega
      · simp only [List.head?_append, I.first]; rfl
      · intro x h1 h2
        simp only at h2
        by_cases hx : x = s.high
        · subst hx; exact ⟨hl, hb⟩
        · exact I.highOk x h1 (by omega)
      · intro hs
        simp_all
    · rename_i hb
      exact ⟨I.low_lt, I.high_gt, I.low_ge, I.high_le, I.order, I.nodup, I.first, I.lowOk, I.highOk,
        I.lowEnd, fun _ hc => hb hc.2⟩

theorem goLow_high (s : Trav) : (s.goLow ratio q).highStop = s.highStop ∧ (s.goLow ratio q).high = s.high := by
  unfold Trav.goLow; split_ifs <;> simp

theorem tmeas_step {s : Trav} (I : TInv ratio q N s) (h : ¬ (s.lowStop && s.highStop) = true) :
    tmeas N (((s.tests N).goLow ratio q).goHigh ratio q) < tmeas N s := by
  obtain ⟨low, high, ls, hs, order⟩ := s
  have h1 := I.low_ge
  have h2 := I.high_le
  simp only at h1 h2
  unfold Trav.tests Trav.goLow Trav.goHigh tmeas
  cases ls <;> cases hs <;> simp only [Bool.false_or, Bool.true_or, Bool.and_true, Bool.and_false, Bool.false_eq_true,
    not_false_eq_true, not_true_eq_false, if_true, if_false, decide_eq_true_eq] at h ⊢
  all_goals (split_ifs <;> simp_all <;> omega)

theorem loop_ok (fuel : ℕ) : ∀ s : Trav, TInv ratio q N s → tmeas N s ≤ fuel →
    ∃ s', Trav.loop ratio q N fuel s = .ok s'.order ∧ TInv ratio q N s' ∧ s'.lowStop = true ∧ s'.highStop = true := by
  induction fuel with
  | zero =>
    intro s I hm
    have : s.lowStop = true ∧ s.highStop = true := by
      unfold tmeas at hm
      cases h1 : s.lowStop <;> cases h2 : s.highStop <;> simp [h1, h2] at hm ⊢
    refine ⟨s, ?_, I, this.1, this.2⟩
    unfold Trav.loop
    simp [this.1, this.2]
  | succ n ih =>
    intro s I hm
    unfold Trav.loop
    split
    · rename_i h
      simp only [Bool.and_eq_true] at h
      exact ⟨s, rfl, I, h.1, h.2⟩
    · rename_i h
      have hlt := tmeas_step I h
      have I1 := I.tests
      have I2 := I1.goLow (fun hh => by
        simp only [Trav.tests, Bool.or_eq_false_iff, decide_eq_false_iff_not] at hh ⊢; omega)
      have I3 := I2.goHigh (fun hh => by
        obtain ⟨e1, e2⟩ := goLow_high (ratio := ratio) (q := q) (s.tests N)
        rw [e1] at hh; rw [e2]
        simp only [Trav.tests, Bool.or_eq_false_iff, decide_eq_false_iff_not] at hh ⊢; omega)
      exact ih _ I3 (by omega)

/-- The result for a query no longer than the longest series. -/
theorem traverse_ok (hr : 0 ≤ ratio) (h1 : 1 ≤ q) (hN : q ≤ N) : ∃ l : List Int,
    generateTraverseOrder ratio q N = .ok l ∧ l.head? = some (q : Int) ∧ l.Nodup ∧
    ∀ x : Int, x ∈ l ↔ x = q ∨ (2 ≤ x ∧ x ≤ N ∧ ∃ y : ℕ, x = y ∧ q ≤ y + bandWidth ratio (max q y) ∧
      y ≤ q + bandWidth ratio (max q y)) := by
  have I0 : TInv ratio q N { low := q - 1, high := q + 1, lowStop := false, highStop := false, order := [(q : Int)] } :=
    ⟨by simp only; omega, by simp only; omega, by simp only; omega, by simp only; omega,
      by intro x; simp only [List.mem_singleton]; omega, by simp, by simp,
      by intro x a b; simp only at a; omega, by intro x a b; simp only at b; omega, by simp, by simp⟩
  obtain ⟨s, e, I, hl, hh⟩ := loop_ok ((q : Int).toNat + (N : Int).toNat + 2) _ I0 (by
    simp only [tmeas, Bool.false_eq_true, if_false]; omega)
  refine ⟨s.order, e, I.first, I.nodup, fun x => ?_⟩
  rw [I.order]
  have hlow := I.lowEnd hl
  have hhigh := I.highEnd hh
  have g1 := I.low_lt
  have g2 := I.high_gt
  have g3 := I.low_ge
  have g4 := I.high_le
  have bq := band_eq_bandWidth hr (len := q) h1
  constructor
  · rintro ⟨a, b⟩
    rcases lt_trichotomy x (q : Int) with c | c | c
    · obtain ⟨u, v⟩ := I.lowOk x a c
      right
      refine ⟨u, by omega, x.toNat, by omega, ?_, by omega⟩
      rw [max_eq_left (by omega : x.toNat ≤ q)]
      rw [bq] at v; omega
    · exact Or.inl c
    · obtain ⟨u, v⟩ := I.highOk x c b
      right
      refine ⟨by omega, u, x.toNat, by omega, by omega, ?_⟩
      rw [max_eq_right (by omega : q ≤ x.toNat)]
      have := band_eq_bandWidth hr (len := x.toNat) (by omega)
      rw [show ((x.toNat : ℕ) : Int) = x by omega] at this
      rw [this] at v; omega
  · rintro (rfl | ⟨a, b, y, rfl, c, d⟩)
    · exact ⟨g1, g2⟩
    · constructor
      · by_contra hc
        apply hlow
        rw [max_eq_left (by omega : y ≤ q)] at c
        rw [bq]
        constructor <;> omega
      · by_contra hc
        apply hhigh
        refine ⟨by omega, ?_⟩
        rw [max_eq_right (by omega : q ≤ y)] at d
        have e1 := band_eq_bandWidth hr (len := s.high.toNat) (by omega)
        rw [show ((s.high.toNat : ℕ) : Int) = s.high by omega] at e1
        rw [e1]
        have := band_diff_mono hr (h := s.high.toNat) (h' := y) (by omega) (by omega)
        omega

end

end Genex
