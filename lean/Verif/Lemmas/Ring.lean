import Verif.Model.Lemire
import Mathlib.Data.Int.ModEq
import Mathlib.Algebra.Order.Group.Unbundled.Int
import Mathlib.Algebra.Order.Ring.Int
import Mathlib.Data.List.Basic

/-! The ring buffer of `deque.cpp` refines a list. -/

namespace Genex.Deque

/-- Slot of the `k`-th element. -/
def slot (cap : ℕ) (f : Int) (k : ℕ) : Int := (f - 1 - k) % cap

/-- `d` represents the queue `xs`. -/
structure Rep (cap : ℕ) (d : Deque) (xs : List ℕ) : Prop where
  pos : 0 < cap
  capacity : d.capacity = cap
  size : d.size = xs.length
  le : xs.length ≤ cap
  f0 : 0 ≤ d.f
  f1 : d.f < cap
  r : d.r = slot cap d.f xs.length
  data : ∀ k (h : k < xs.length), d.data (slot cap d.f k).toNat = some xs[k]

theorem slot_nonneg {cap : ℕ} (h : 0 < cap) (f k) : 0 ≤ slot cap f k := Int.emod_nonneg _ (by omega)
theorem slot_lt {cap : ℕ} (h : 0 < cap) (f k) : slot cap f k < cap := Int.emod_lt_of_pos _ (by omega)

theorem slot_inj {cap : ℕ} {f : Int} {j k : ℕ} (hj : j < k + cap) (hk : k < j + cap)
    (e : slot cap f j = slot cap f k) : j = k := by
  unfold slot at e
  have h := Int.emod_emod_of_dvd (f - 1 - j) (dvd_refl (cap : Int))
  have h1 : (cap : Int) ∣ (k : Int) - j := by
    have := (Int.emod_emod_of_dvd (f - 1 - k) (dvd_refl (cap : Int)))
    have h2 := Int.sub_emod (f - 1 - j) (f - 1 - k) cap
    rw [e, Int.sub_self, Int.zero_emod] at h2
    have h3 := Int.dvd_of_emod_eq_zero h2
    have e3 : f - 1 - (j : Int) - (f - 1 - k) = k - j := by ring
    rwa [e3] at h3
  have := Int.eq_zero_of_abs_lt_dvd h1 (by rw [abs_lt]; constructor <;> omega)
  omega

/-- Decrementing with wrap. -/
theorem dec_wrap {cap : ℕ} (h : 0 < cap) {x : Int} (h0 : 0 ≤ x) (h1 : x < cap) :
    (if x - 1 < 0 then (cap : Int) - 1 else x - 1) = (x - 1) % cap := by
  split
  · have : x = 0 := by omega
    subst this
    rw [show (0 - 1 : Int) = (cap - 1) + cap * (-1) by ring, Int.add_mul_emod_self_left, Int.emod_eq_of_lt] <;> omega
  · rw [Int.emod_eq_of_lt] <;> omega

theorem slot_succ (cap : ℕ) (f : Int) (k : ℕ) : (slot cap f k - 1) % cap = slot cap f (k + 1) := by
  unfold slot
  rw [Int.emod_sub_emod]; congr 1; push_cast; ring

theorem slot_pred {cap : ℕ} (h : 0 < cap) (f : Int) (k : ℕ) :
    (slot cap f (k + 1) + 1).tmod cap = slot cap f k := by
  rw [Int.tmod_eq_emod_of_nonneg (by have := slot_nonneg h f (k + 1); omega)]
  unfold slot
  rw [Int.emod_add_emod]; congr 1; push_cast; ring

theorem slot_front (cap : ℕ) (f : Int) (k : ℕ) : slot cap ((f - 1) % cap) k = slot cap f (k + 1) := by
  unfold slot
  have : (f - 1) % cap - 1 - (k : Int) = (f - 1) % cap - (1 + k) := by ring
  rw [this, Int.emod_sub_emod]; congr 1; push_cast; ring

theorem rep_new {cap : ℕ} (h : 0 < cap) : Rep cap (new cap) [] := by
  refine ⟨h, rfl, rfl, by simp, le_refl _, by simpa [new] using h, ?_, by simp⟩
  simp only [new, slot, List.length_nil]
  rw [show (0 - 1 - ((0 : ℕ) : Int)) = (cap - 1) + cap * (-1) by push_cast; ring, Int.add_mul_emod_self_left,
    Int.emod_eq_of_lt] <;> omega

theorem get_ok {cap : ℕ} {d : Deque} {xs : List ℕ} (R : Rep cap d xs) {k : ℕ} (h : k < xs.length) :
    d.get (slot cap d.f k) = .ok xs[k] := by
  unfold get
  rw [if_pos ⟨slot_nonneg R.pos _ _, by rw [R.capacity]; exact slot_lt R.pos _ _⟩, R.data k h]

theorem push_ok (chk : Bool) {cap : ℕ} {d : Deque} {xs : List ℕ} (R : Rep cap d xs) (h : xs.length < cap) (v : ℕ) :
    ∃ d', d.pushBack chk v = .ok d' ∧ Rep cap d' (xs ++ [v]) := by
  unfold pushBack
  rw [if_neg (by rw [R.capacity, R.size]; push_cast; omega),
    if_pos ⟨by rw [R.r]; exact slot_nonneg R.pos _ _, by rw [R.r, R.capacity]; exact slot_lt R.pos _ _⟩]
  refine ⟨_, rfl, R.pos, R.capacity, ?_, ?_, R.f0, R.f1, ?_, ?_⟩
  · simp [R.size]
  · simp; omega
  · simp only [R.capacity, R.r, List.length_append, List.length_singleton]
    rw [dec_wrap R.pos (slot_nonneg R.pos _ _) (slot_lt R.pos _ _), slot_succ]
  · intro k hk
    simp only [List.length_append, List.length_singleton] at hk
    simp only
    rw [R.r]
    by_cases hkl : k = xs.length
    · subst hkl; simp
    · have hk' : k < xs.length := by omega
      rw [if_neg, R.data k hk', List.getElem_append_left hk']
      intro e
      have e' : slot cap d.f k = slot cap d.f xs.length := by
        have h1 := slot_nonneg R.pos d.f k
        have h2 := slot_nonneg R.pos d.f xs.length
        omega
      have := slot_inj (by omega) (by omega) e'
      omega

theorem popFront_ok (chk : Bool) {cap : ℕ} {d : Deque} {x : ℕ} {xs : List ℕ} (R : Rep cap d (x :: xs)) :
    ∃ d', d.popFront chk = .ok d' ∧ Rep cap d' xs := by
  unfold popFront
  have hs := R.size
  have hl := R.le
  simp only [List.length_cons] at hs hl
  rw [if_neg (by rw [hs]; push_cast; omega)]
  have hf := dec_wrap R.pos R.f0 R.f1
  refine ⟨_, rfl, R.pos, R.capacity, ?_, by omega, ?_, ?_, ?_, ?_⟩
  · simp only [hs]; push_cast; ring
  · simp only [R.capacity]; rw [hf]; exact Int.emod_nonneg _ (by have := R.pos; omega)
  · simp only [R.capacity]; rw [hf]; exact Int.emod_lt_of_pos _ (by have := R.pos; omega)
  · simp only [R.capacity]; rw [hf, slot_front, R.r]; simp
  · intro k hk
    simp only [R.capacity]; rw [hf, slot_front]
    have := R.data (k + 1) (by simp; omega)
    simpa using this

theorem front_ok (chk : Bool) {cap : ℕ} {d : Deque} {x : ℕ} {xs : List ℕ} (R : Rep cap d (x :: xs)) :
    d.front chk = .ok x := by
  unfold front
  have hs := R.size
  simp only [List.length_cons] at hs
  rw [if_neg (by rw [hs]; push_cast; omega)]
  have := get_ok R (k := 0) (by simp)
  simp only [R.capacity]
  rw [dec_wrap R.pos R.f0 R.f1]
  simpa [slot] using this

theorem popBack_ok (chk : Bool) {cap : ℕ} {d : Deque} {x : ℕ} {xs : List ℕ} (R : Rep cap d (xs ++ [x])) :
    ∃ d', d.popBack chk = .ok d' ∧ Rep cap d' xs := by
  unfold popBack
  have hs := R.size
  have hl := R.le
  have hp := R.pos
  simp only [List.length_append, List.length_singleton] at hs hl
  rw [if_neg (by rw [hs]; push_cast; omega), if_neg (by rw [R.capacity]; omega)]
  refine ⟨_, rfl, R.pos, R.capacity, ?_, by omega, R.f0, R.f1, ?_, ?_⟩
  · simp only [hs]; push_cast; ring
  · simp only [R.capacity, R.r, List.length_append, List.length_singleton]
    exact slot_pred R.pos _ _
  · intro k hk
    have := R.data k (by simp; omega)
    rw [List.getElem_append_left hk] at this
    exact this

theorem back_ok (chk : Bool) {cap : ℕ} {d : Deque} {x : ℕ} {xs : List ℕ} (R : Rep cap d (xs ++ [x])) :
    d.back chk = .ok x := by
  unfold back
  have hs := R.size
  have hp := R.pos
  simp only [List.length_append, List.length_singleton] at hs
  rw [if_neg (by rw [hs]; push_cast; omega), if_neg (by rw [R.capacity]; omega)]
  have := get_ok R (k := xs.length) (by simp)
  rw [R.r, R.capacity]
  simp only [List.length_append, List.length_singleton]
  rw [slot_pred R.pos]
  simpa using this

/-- The loop removes a suffix all of whose elements are beaten, and stops at an element that is not. -/
theorem popWhile_ok (chk : Bool) {cap : ℕ} (bt : ℕ → Bool) (beats : ℕ → Res Bool) (xs : List ℕ)
    (hb : ∀ x ∈ xs, beats x = .ok (bt x)) :
    ∀ fuel d, Rep cap d xs → xs.length ≤ fuel →
    ∃ d' ys zs, d.popWhile chk beats fuel = .ok d' ∧ Rep cap d' ys ∧ xs = ys ++ zs ∧ (∀ z ∈ zs, bt z = true) ∧
      ∀ y, ys.getLast? = some y → bt y = false := by
  induction xs using List.reverseRecOn with
  | nil =>
    intro fuel d R _
    refine ⟨d, [], [], ?_, R, rfl, by simp, by simp⟩
    unfold popWhile
    simp [R.size]
  | append_singleton xs x ih =>
    intro fuel d R hf
    have hs := R.size
    simp only [List.length_append, List.length_singleton] at hs hf
    unfold popWhile
    rw [if_neg (by rw [hs]; push_cast; omega), back_ok chk R]
    simp only [hb x (by simp)]
    cases hx : bt x with
    | false =>
      refine ⟨d, xs ++ [x], [], rfl, R, by simp, by simp, ?_⟩
      intro y hy
      simp at hy
      rw [← hy]; exact hx
    | true =>
      obtain ⟨d', e, R'⟩ := popBack_ok chk R
      obtain ⟨n, rfl⟩ : ∃ n, fuel = n + 1 := ⟨fuel - 1, by omega⟩
      simp only [e]
      obtain ⟨d'', ys, zs, e', R'', hx', hz, hy⟩ := ih (fun z hz => hb z (by simp [hz])) n d' R' (by omega)
      refine ⟨d'', ys, zs ++ [x], e', R'', by rw [hx']; simp, ?_, hy⟩
      intro z hz'
      simp only [List.mem_append, List.mem_singleton] at hz'
      rcases hz' with h | rfl
      · exact hz z h
      · exact hx

end Genex.Deque
