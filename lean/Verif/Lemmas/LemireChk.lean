import Verif.Model.Lemire

/-! A checked run that succeeds equals the unchecked run. -/

set_option linter.unusedSectionVars false

namespace Genex

/-- Whenever `x` returns, `y` returns the same. -/
def ResLe {α : Type} (x y : Res α) : Prop := ∀ v, x = .ok v → y = .ok v

theorem ResLe.refl {α : Type} (x : Res α) : ResLe x x := fun _ h => h

theorem ResLe.bind {α β : Type} {x y : Res α} {f g : α → Res β} (h : ResLe x y) (hf : ∀ v, ResLe (f v) (g v)) :
    ResLe (x >>= f) (y >>= g) := by
  intro v hv
  cases x with
  | error e => cases hv
  | ok a =>
    rw [h a rfl]
    exact hf a v hv

theorem ResLe.ite {α : Type} {c : Prop} [Decidable c] {x y x' y' : Res α} (h : ResLe x x') (h' : ResLe y y') :
    ResLe (if c then x else y) (if c then x' else y') := by
  split <;> assumption

theorem ResLe.foldlM {α β : Type} {f g : β → α → Res β} (h : ∀ b a, ResLe (f b a) (g b a)) (l : List α) (b : β) :
    ResLe (l.foldlM f b) (l.foldlM g b) := by
  induction l generalizing b with
  | nil => exact ResLe.refl _
  | cons x l ih =>
    rw [List.foldlM_cons, List.foldlM_cons]
    exact (h b x).bind (fun v => ih v)

namespace Deque

theorem push_le (d : Deque) (v : ℕ) : ResLe (d.pushBack true v) (d.pushBack false v) := by
  intro d'; unfold pushBack; split_ifs <;> simp_all

theorem popFront_le (d : Deque) : ResLe (d.popFront true) (d.popFront false) := by
  intro d'; unfold popFront; split_ifs <;> simp_all

theorem popBack_le (d : Deque) : ResLe (d.popBack true) (d.popBack false) := by
  intro d'; unfold popBack; split_ifs <;> simp_all

theorem front_le (d : Deque) : ResLe (d.front true) (d.front false) := by
  intro d'; unfold front; split_ifs <;> simp_all

theorem back_le (d : Deque) : ResLe (d.back true) (d.back false) := by
  intro d'; unfold back; split_ifs <;> simp_all

theorem popWhile_le (beats : ℕ → Res Bool) (fuel : ℕ) (d : Deque) :
    ResLe (d.popWhile true beats fuel) (d.popWhile false beats fuel) := by
  induction fuel generalizing d with
  | zero =>
    intro v hv
    unfold popWhile at hv ⊢
    split at hv
    · rename_i h; rw [if_pos h]; exact hv
    · rename_i h
      rw [if_neg h]
      cases hb : d.back true with
      | error e => rw [hb] at hv; cases hv
      | ok x =>
        rw [hb] at hv
        rw [back_le d x hb]
        exact hv
  | succ n ih =>
    intro v hv
    unfold popWhile at hv ⊢
    split at hv
    · rename_i h; rw [if_pos h]; exact hv
    · rename_i h
      rw [if_neg h]
      cases hb : d.back true with
      | error e => rw [hb] at hv; cases hv
      | ok x =>
        rw [hb] at hv
        rw [back_le d x hb]
        simp only at hv ⊢
        cases hx : beats x with
        | error e => rw [hx] at hv; cases hv
        | ok t =>
          rw [hx] at hv
          cases t with
          | false => exact hv
          | true =>
            simp only at hv ⊢
            cases hp : d.popBack true with
            | error e => rw [hp] at hv; cases hv
            | ok d' =>
              rw [hp] at hv
              rw [popBack_le d d' hp]
              exact ih d' v hv

end Deque

section
variable {K : Type} [LinearOrder K]

open Deque ResLe

theorem emit_le (t : List (Dbl K)) (r : Int) (i : ℕ) (s : Lem K) : ResLe (s.emit true t r i) (s.emit false t r i) := by
  unfold Lem.emit
  exact (front_le _).bind fun _ => (ResLe.refl _).bind fun _ => (ResLe.refl _).bind fun _ =>
    (front_le _).bind fun _ => ResLe.refl _

theorem insert_le (t : List (Dbl K)) (i : ℕ) (s : Lem K) : ResLe (s.insert true t i) (s.insert false t i) := by
  unfold Lem.insert
  have jp : ∀ s : Lem K, ResLe (s.du.pushBack true i >>= fun du => s.dl.pushBack true i >>= fun dl =>
        (.ok { du := du, dl := dl, u := s.u, l := s.l } : Res (Lem K)))
      (s.du.pushBack false i >>= fun du => s.dl.pushBack false i >>= fun dl =>
        .ok { du := du, dl := dl, u := s.u, l := s.l }) :=
    fun s => (push_le _ _).bind fun _ => (push_le _ _).bind fun _ => ResLe.refl _
  exact (ResLe.refl _).bind fun _ => (ResLe.refl _).bind fun _ =>
    ResLe.ite ((popBack_le _).bind fun _ => (popWhile_le _ _ _).bind fun _ => (ResLe.refl _).bind jp)
      ((popBack_le _).bind fun _ => (popWhile_le _ _ _).bind fun _ => (ResLe.refl _).bind jp)

theorem expire_le (r : Int) (i : ℕ) (s : Lem K) : ResLe (s.expire true r i) (s.expire false r i) := by
  unfold Lem.expire
  exact (front_le _).bind fun _ => ResLe.ite ((popFront_le _).bind fun _ => ResLe.refl _)
    ((front_le _).bind fun _ => ResLe.ite ((popFront_le _).bind fun _ => ResLe.refl _) (ResLe.refl _))

theorem step_le (t : List (Dbl K)) (r : Int) (s : Lem K) (i : ℕ) : ResLe (s.step true t r i) (s.step false t r i) := by
  unfold Lem.step
  have jp : ∀ s : Lem K, ResLe (s.insert true t i >>= fun s => s.expire true r i)
      (s.insert false t i >>= fun s => s.expire false r i) :=
    fun s => (insert_le _ _ _).bind fun _ => expire_le _ _ _
  exact ResLe.ite ((emit_le _ _ _ _).bind jp) ((ResLe.refl _).bind jp)

theorem tail_le (t : List (Dbl K)) (r : Int) (s : Lem K) (i : ℕ) : ResLe (s.tail true t r i) (s.tail false t r i) := by
  unfold Lem.tail
  exact (emit_le _ _ _ _).bind fun _ => (front_le _).bind fun _ =>
    ResLe.ite ((popFront_le _).bind fun _ => (ResLe.refl _).bind fun _ => (front_le _).bind fun _ =>
        ResLe.ite ((popFront_le _).bind fun _ => ResLe.refl _) (ResLe.refl _))
      ((ResLe.refl _).bind fun _ => (front_le _).bind fun _ =>
        ResLe.ite ((popFront_le _).bind fun _ => ResLe.refl _) (ResLe.refl _))

/-- The unchecked envelope computation agrees with every checked one that succeeds. -/
theorem lemire_chk (t : List (Dbl K)) (r : Int) : ResLe (lemire true t r) (lemire false t r) := by
  unfold lemire
  exact (push_le _ _).bind fun _ => (push_le _ _).bind fun _ => (ResLe.foldlM (step_le t r) _ _).bind fun _ =>
    (ResLe.foldlM (tail_le t r) _ _).bind fun _ => ResLe.refl _

end

end Genex
