import Verif.Lemmas.DatasetOps
import Verif.Lemmas.Dbl
import Verif.Spec.TimeSeriesObj

/-!
# Memory and ownership of `TimeSeries` objects
-/

set_option linter.unusedSectionVars false

namespace Genex

open Spec

variable {K : Type} [Field K] [LinearOrder K]

namespace World

variable {w w' : World K} {i j : ℕ} {o x y : TsObj K}

theorem obj_eq_ok : w.obj i = .ok o ↔ Object w i o := by
  unfold obj Object
  rcases h : w.objs[i]? with _ | _ | o' <;> simp

theorem obj_of (h : Object w i o) : w.obj i = .ok o := obj_eq_ok.2 h

theorem object_unique (h : Object w i x) (h' : Object w i y) : x = y := by
  unfold Object at h h'
  rw [h] at h'; simpa using h'

theorem cells_eq_ok {b : ℕ} {cs : List (Option (Dbl K))} : w.cells b = .ok cs ↔ w.bufs[b]? = some (some cs) := by
  unfold cells
  rcases h : w.bufs[b]? with _ | _ | o' <;> simp

theorem object_setObj_self (h : Object w i o) : Object (w.setObj i x) i x := by
  unfold Object setObj at *
  have := (List.getElem?_eq_some_iff.1 h).1
  simp [this]

theorem object_setObj_ne (h : i ≠ j) : Object (w.setObj i x) j o ↔ Object w j o := by
  unfold Object setObj
  simp [List.getElem?_set_ne h]

theorem object_setObj (h : Object (w.setObj i x) j o) : (j = i ∧ o = x) ∨ (j ≠ i ∧ Object w j o) := by
  by_cases hij : i = j
  · subst hij
    left
    unfold Object setObj at h
    rw [List.getElem?_set_self'] at h
    rcases h' : w.objs[i]? with _ | o' <;> rw [h'] at h <;> simp at h
    exact ⟨rfl, h.symm⟩
  · exact Or.inr ⟨fun e => hij e.symm, (object_setObj_ne hij).1 h⟩

theorem bind_ok {α β : Type} {a : Res α} {f : α → Res β} {b : β} (h : (a >>= f) = .ok b) : ∃ x, a = .ok x ∧ f x = .ok b := by
  cases a with
  | error e => cases h
  | ok x => exact ⟨x, rfl, h⟩

/-! ## Memory -/

/-- Everything readable in `w` stays readable in `w'`, for the arrays in `P`. -/
def Keeps (P : ℕ → Prop) (w w' : World K) : Prop :=
  ∀ b cs, P b → w.bufs[b]? = some (some cs) → w'.bufs[b]? = some (some cs)

theorem Keeps.trans {P : ℕ → Prop} {w₁ w₂ w₃ : World K} (h : Keeps P w₁ w₂) (h' : Keeps P w₂ w₃) : Keeps P w₁ w₃ :=
  fun b cs hb e => h' b cs hb (h b cs hb e)

theorem Keeps.rfl' {P : ℕ → Prop} : Keeps P w w := fun _ _ _ h => h

theorem Keeps.mono {P Q : ℕ → Prop} (hPQ : ∀ b, Q b → P b) (h : Keeps P w w') : Keeps Q w w' :=
  fun b cs hb e => h b cs (hPQ b hb) e

theorem keeps_objs {P : ℕ → Prop} {os : List (Option (TsObj K))} : Keeps P w { w with objs := os } := fun _ _ _ h => h

theorem keeps_append {P : ℕ → Prop} {c} {os : List (Option (TsObj K))} : Keeps P w ⟨w.bufs ++ c, os⟩ := by
  intro b cs _ h
  have := (List.getElem?_eq_some_iff.1 h).1
  simpa [List.getElem?_append_left this] using h

theorem keeps_append_set {P : ℕ → Prop} {c d} {os : List (Option (TsObj K))} :
    Keeps P w ⟨(w.bufs ++ c).set w.bufs.length d, os⟩ := by
  intro b cs _ h
  have := (List.getElem?_eq_some_iff.1 h).1
  simp only
  rw [List.getElem?_set_ne (by omega), List.getElem?_append_left this, h]

theorem alloc_eq {n : Int} (h : w.alloc n = .ok w') :
    0 ≤ n ∧ w' = { w with bufs := w.bufs ++ [some (List.replicate n.toNat none)] } := by
  unfold alloc at h
  split at h
  · cases h
  · simp only [Except.ok.injEq] at h
    exact ⟨by omega, h.symm⟩

theorem write_eq {p : Option Ptr} {k : Int} {v : Dbl K} (h : w.write p k v = .ok w') :
    ∃ q cs, p = some q ∧ w.bufs[q.buf]? = some (some cs) ∧ 0 ≤ q.off + k ∧ q.off + k < cs.length ∧
      w' = { w with bufs := w.bufs.set q.buf (some (cs.set (q.off + k).toNat (some v))) } := by
  unfold write at h
  cases p with
  | none => cases h
  | some q =>
    simp only at h
    obtain ⟨cs, h1, h2⟩ := bind_ok h
    split at h2
    · cases h2
    · rename_i hc
      simp only [Except.ok.injEq] at h2
      exact ⟨q, cs, rfl, cells_eq_ok.1 h1, by omega, by omega, h2.symm⟩

theorem write_objs {p : Option Ptr} {k : Int} {v : Dbl K} (h : w.write p k v = .ok w') : w'.objs = w.objs := by
  obtain ⟨q, cs, -, -, -, -, rfl⟩ := write_eq h
  rfl

theorem write_keeps {p : Option Ptr} {k : Int} {v : Dbl K} (h : w.write p k v = .ok w') :
    Keeps (fun b => ∀ off, p ≠ some ⟨b, off⟩) w w' := by
  obtain ⟨q, cs, rfl, -, -, -, rfl⟩ := write_eq h
  intro b cs' hb e
  simp only
  rw [List.getElem?_set_ne, e]
  intro hq
  exact hb q.off (by rw [← hq])

/-- A write leaves every array that was there, freed or not. -/
theorem write_live {p : Option Ptr} {k : Int} {v : Dbl K} (h : w.write p k v = .ok w') (b : ℕ) :
    (∃ cs, w.bufs[b]? = some (some cs)) → ∃ cs, w'.bufs[b]? = some (some cs) := by
  obtain ⟨q, cs, rfl, e, -, -, rfl⟩ := write_eq h
  rintro ⟨cs', h'⟩
  by_cases hb : q.buf = b
  · subst hb
    have := (List.getElem?_eq_some_iff.1 e).1
    exact ⟨_, by simp [this]; rfl⟩
  · exact ⟨cs', by simp only; rw [List.getElem?_set_ne hb, h']⟩

theorem free_eq {p : Option Ptr} (h : w.free p = .ok w') :
    (p = none ∧ w' = w) ∨ ∃ b cs, p = some ⟨b, 0⟩ ∧ w.bufs[b]? = some (some cs) ∧ w' = { w with bufs := w.bufs.set b none } := by
  unfold free at h
  cases p with
  | none => simp only [Except.ok.injEq] at h; exact Or.inl ⟨rfl, h.symm⟩
  | some q =>
    simp only at h
    obtain ⟨cs, h1, h2⟩ := bind_ok h
    split at h2
    · cases h2
    · rename_i hc
      simp only [Except.ok.injEq] at h2
      refine Or.inr ⟨q.buf, cs, ?_, cells_eq_ok.1 h1, h2.symm⟩
      obtain ⟨b, off⟩ := q
      simp only [not_not] at hc
      rw [hc]

theorem free_ok {p : Option Ptr} (h : ∀ q, p = some q → q.off = 0 ∧ ∃ cs, w.bufs[q.buf]? = some (some cs)) :
    ∃ w', w.free p = .ok w' := by
  cases p with
  | none => exact ⟨w, rfl⟩
  | some q =>
    obtain ⟨h1, cs, h2⟩ := h q rfl
    refine ⟨{ w with bufs := w.bufs.set q.buf none }, ?_⟩
    unfold free
    simp only [cells_eq_ok.2 h2, bind, Except.bind]
    rw [if_neg (by simp [h1])]

theorem free_objs {p : Option Ptr} (h : w.free p = .ok w') : w'.objs = w.objs := by
  rcases free_eq h with ⟨-, rfl⟩ | ⟨b, cs, -, -, rfl⟩ <;> rfl

theorem free_keeps {p : Option Ptr} (h : w.free p = .ok w') : Keeps (fun b => ∀ off, p ≠ some ⟨b, off⟩) w w' := by
  rcases free_eq h with ⟨-, rfl⟩ | ⟨b, cs, rfl, -, rfl⟩
  · exact Keeps.rfl'
  · intro b' cs' hb e
    simp only
    rw [List.getElem?_set_ne, e]
    intro hq
    exact hb 0 (by rw [← hq])

theorem free_length {p : Option Ptr} (h : w.free p = .ok w') : w'.bufs.length = w.bufs.length := by
  rcases free_eq h with ⟨-, rfl⟩ | ⟨b, cs, -, -, rfl⟩ <;> simp

theorem release_objs (h : w.release x = .ok w') : w'.objs = w.objs := by
  unfold release at h
  split at h
  · exact free_objs h
  · simp only [Except.ok.injEq] at h; rw [h]

theorem release_keeps (h : w.release x = .ok w') : Keeps (fun b => x.owner = true → ¬ Uses x b) w w' := by
  unfold release at h
  split at h
  · rename_i ho
    exact (free_keeps h).mono (fun b hb off e => hb ho ⟨off, e⟩)
  · simp only [Except.ok.injEq] at h; rw [h]; exact Keeps.rfl'

theorem release_length (h : w.release x = .ok w') : w'.bufs.length = w.bufs.length := by
  unfold release at h
  split at h
  · exact free_length h
  · simp only [Except.ok.injEq] at h; rw [h]

/-! ## Values -/

theorem read_keeps {p : Ptr} {k : Int} {v : Dbl K} (hk : Keeps (fun b => b = p.buf) w w') (h : w.read (some p) k = .ok v) :
    w'.read (some p) k = .ok v := by
  unfold read at h ⊢
  simp only at h ⊢
  obtain ⟨cs, h1, h2⟩ := bind_ok h
  rw [cells_eq_ok.2 (hk _ _ rfl (cells_eq_ok.1 h1))]
  exact h2

theorem mapM_congr_ok {α β : Type} {f g : α → Res β} {l : List α} {r : List β} (h : l.mapM f = .ok r)
    (hfg : ∀ a ∈ l, ∀ b, f a = .ok b → g a = .ok b) : l.mapM g = .ok r := by
  induction l generalizing r with
  | nil => exact h
  | cons a l ih =>
    rw [List.mapM_cons] at h ⊢
    obtain ⟨b, h1, h2⟩ := bind_ok h
    obtain ⟨bs, h3, h4⟩ := bind_ok h2
    rw [hfg a (List.mem_cons_self) b h1]
    change (l.mapM g >>= fun bs => pure (b :: bs)) = _
    rw [ih h3 (fun a ha => hfg a (List.mem_cons_of_mem _ ha))]
    exact h4

theorem points_keeps {pts : List (Dbl K)} (hk : Keeps (fun b => Uses o b) w w') (h : w.points o = .ok pts) :
    w'.points o = .ok pts := by
  unfold points at h ⊢
  refine mapM_congr_ok h (fun k _ v hv => ?_)
  rcases hd : o.data with _ | p
  · rw [hd] at hv; cases hv
  · rw [hd] at hv
    exact read_keeps (fun b cs hb e => hk b cs ⟨p.off, by rw [hd, hb]⟩ e) hv

theorem read_of {p : Ptr} {cs : List (Option (Dbl K))} {k : Int} {v : Dbl K} (h : w.bufs[p.buf]? = some (some cs))
    (h0 : 0 ≤ p.off + k) (hv : cs[(p.off + k).toNat]? = some (some v)) : w.read (some p) k = .ok v := by
  unfold read
  simp only [cells_eq_ok.2 h, bind, Except.bind]
  rw [if_neg (by omega), hv]

theorem valued_read {xs : List (Dbl K)} (h : Valued w o xs) {k : ℕ} {v : Dbl K} (hk : xs[k]? = some v) :
    w.read o.data (o.start + k) = .ok v := by
  obtain ⟨-, p, cs, hp, hb, h0, hc⟩ := h
  rw [hp]
  exact read_of hb (by omega) (by rw [← Int.add_assoc]; exact hc k v hk)

theorem valued_points {xs : List (Dbl K)} (h : Valued w o xs) : w.points o = .ok xs := by
  unfold points
  rw [h.1, Int.toNat_natCast, mapM_ok _ (fun k => xs.getD k .nan)]
  · congr 1
    refine List.ext_getElem (by simp) (fun k h1 h2 => ?_)
    simp [List.getElem?_eq_getElem h2]
  · intro k hk
    rw [List.mem_range] at hk
    exact valued_read h (by simp [List.getElem?_eq_getElem hk])

theorem valued_keeps {xs : List (Dbl K)} (hk : Keeps (fun b => Uses o b) w w') (h : Valued w o xs) : Valued w' o xs := by
  obtain ⟨h1, p, cs, hp, hb, h0, hc⟩ := h
  exact ⟨h1, p, cs, hp, hk _ _ ⟨p.off, hp⟩ hb, h0, hc⟩

theorem valued_unique {xs ys : List (Dbl K)} (h : Valued w o xs) (h' : Valued w o ys) : xs = ys := by
  have h1 := valued_points h
  rw [valued_points h', Except.ok.injEq] at h1
  exact h1.symm

/-! ## What the operations do -/

/-- The members after an assignment; `d` is the new pointer. -/
def assign (x y : TsObj K) (d : Option Ptr) : TsObj K :=
  { x with data := d, owner := y.owner, index := y.index, start := y.start, stop := y.stop, length := y.length }

theorem newOwned_eq {n : Int} (h : w.newOwned n = .ok w') : ∃ c d, w' = ⟨(w.bufs ++ c).set w.bufs.length (some d),
    w.objs ++ [some { data := some ⟨w.bufs.length, 0⟩, owner := true, index := 0, start := 0, stop := n, length := n }]⟩ ∧
    c.length = 1 := by
  unfold newOwned at h
  obtain ⟨w1, h1, h2⟩ := bind_ok h
  obtain ⟨-, rfl⟩ := alloc_eq h1
  simp only [Except.ok.injEq] at h2
  exact ⟨_, _, h2.symm, rfl⟩

theorem copyCtor_eq (h : w.copyCtor j = .ok w') : ∃ y, Object w j y ∧
    ((y.owner = false ∧ w' = { w with objs := w.objs ++ [some ⟨y.data, y.owner, y.index, y.start, y.stop, y.length, false, none, none⟩] }) ∨
     (y.owner = true ∧ ∃ c d, w' = ⟨(w.bufs ++ c).set w.bufs.length (some d), w.objs ++
        [some ⟨some ⟨w.bufs.length, 0⟩, y.owner, y.index, y.start, y.stop, y.length, false, none, none⟩]⟩ ∧ c.length = 1)) := by
  unfold copyCtor at h
  obtain ⟨y, h1, h2⟩ := bind_ok h
  refine ⟨y, obj_eq_ok.1 h1, ?_⟩
  simp only at h2
  by_cases ho : y.owner = true
  · rw [if_pos ho] at h2
    obtain ⟨w1, h3, h4⟩ := bind_ok h2
    obtain ⟨cs, h5, h6⟩ := bind_ok h4
    obtain ⟨-, rfl⟩ := alloc_eq h3
    simp only [Except.ok.injEq] at h6
    exact Or.inr ⟨ho, _, _, h6.symm, rfl⟩
  · rw [if_neg ho] at h2
    simp only [Except.ok.injEq] at h2
    exact Or.inl ⟨by simpa using ho, h2.symm⟩

theorem copyAssign_eq (h : w.copyAssign i j = .ok w') : ∃ x y w1, Object w i x ∧ Object w j y ∧ w.release x = .ok w1 ∧
    ((y.owner = false ∧ w' = w1.setObj i (assign x y y.data)) ∨
     (y.owner = true ∧ ∃ c d os, w' = (World.mk ((w1.bufs ++ c).set w.bufs.length (some d)) os).setObj i
        (assign x y (some ⟨w.bufs.length, 0⟩)) ∧ c.length = 1 ∧ os = (w1.setObj i { x with data := some ⟨w.bufs.length, 0⟩ }).objs)) := by
  unfold copyAssign at h
  obtain ⟨x, h1, h⟩ := bind_ok h
  obtain ⟨y, h2, h⟩ := bind_ok h
  obtain ⟨w1, h3, h⟩ := bind_ok h
  have h3' : w.release x = .ok w1 := h3
  have hx := obj_eq_ok.1 h1
  have hy := obj_eq_ok.1 h2
  have hl := release_length h3'
  refine ⟨x, y, w1, hx, hy, h3', ?_⟩
  by_cases ho : y.owner = true
  · rw [if_pos ho] at h
    obtain ⟨w2, h4, h⟩ := bind_ok h
    obtain ⟨y', h5, h⟩ := bind_ok h
    obtain ⟨-, rfl⟩ := alloc_eq h4
    split at h
    · cases h
    · obtain ⟨cs, h6, h⟩ := bind_ok h
      simp only [Except.ok.injEq] at h
      refine Or.inr ⟨ho, [some (List.replicate x.length.toNat none)], cs, _, ?_, rfl, rfl⟩
      rw [← h, hl]
      have h5 := obj_eq_ok.1 h5
      rcases object_setObj h5 with ⟨rfl, rfl⟩ | ⟨-, h7⟩
      · have := object_unique hx hy
        subst this
        rfl
      · have h7 : Object w j y' := by
          unfold Object at h7 ⊢
          rw [← release_objs h3']; exact h7
        have := object_unique hy h7
        subst this
        rfl
  · rw [if_neg ho] at h
    simp only [Except.ok.injEq] at h
    exact Or.inl ⟨by simpa using ho, h.symm⟩

theorem moveAssign_eq (h : w.moveAssign i j = .ok w') : ∃ x y w1, Object w i x ∧ Object w j y ∧ w.release x = .ok w1 ∧
    ((i = j ∧ w' = ((w1.setObj i x).setObj i x).setObj i (assign x x none)) ∨
     (i ≠ j ∧ w' = ((w1.setObj i { x with data := y.data }).setObj j { y with data := none }).setObj i (assign x y y.data))) := by
  unfold moveAssign at h
  obtain ⟨x, h1, h⟩ := bind_ok h
  obtain ⟨y, h2, h⟩ := bind_ok h
  obtain ⟨w1, h3, h⟩ := bind_ok h
  have h3' : w.release x = .ok w1 := h3
  have hx := obj_eq_ok.1 h1
  have hy := obj_eq_ok.1 h2
  refine ⟨x, y, w1, hx, hy, h3', ?_⟩
  obtain ⟨y', h4, h⟩ := bind_ok h
  obtain ⟨x', h5, h⟩ := bind_ok h
  simp only [Except.ok.injEq] at h
  have hx1 : Object w1 i x := by unfold Object at hx ⊢; rw [release_objs h3']; exact hx
  have hy1 : Object w1 j y := by unfold Object at hy ⊢; rw [release_objs h3']; exact hy
  by_cases hij : i = j
  · subst hij
    left
    refine ⟨rfl, ?_⟩
    have e := object_unique hx hy
    subst e
    have h4 := object_unique (obj_eq_ok.1 h4) (object_setObj_self hx1)
    subst h4
    have h5 := object_unique (obj_eq_ok.1 h5) (object_setObj_self (object_setObj_self hx1))
    subst h5
    rw [← h]
    simp [setObj, assign]
  · right
    refine ⟨hij, ?_⟩
    have h4 := object_unique (obj_eq_ok.1 h4) ((object_setObj_ne hij).2 hy1)
    subst h4
    have h5 := object_unique (obj_eq_ok.1 h5) ((object_setObj_ne (fun e => hij e.symm)).2 (object_setObj_self hx1))
    subst h5
    rw [← h]
    rfl

theorem destroy_eq (h : w.destroy i = .ok w') : ∃ x w1, Object w i x ∧ w.release x = .ok w1 ∧
    w' = { w1 with objs := w1.objs.set i none } := by
  unfold destroy at h
  obtain ⟨x, h1, h⟩ := bind_ok h
  obtain ⟨w1, h3, h⟩ := bind_ok h
  simp only [Except.ok.injEq] at h
  exact ⟨x, w1, obj_eq_ok.1 h1, h3, h.symm⟩

theorem setAt_eq {k : Int} {v : Dbl K} (h : w.setAt i k v = .ok w') : ∃ x, Object w i x ∧ 0 ≤ k ∧ k < x.length ∧
    w.write x.data (x.start + k) v = .ok w' := by
  unfold setAt at h
  obtain ⟨x, h1, h⟩ := bind_ok h
  split at h
  · cases h
  · exact ⟨x, obj_eq_ok.1 h1, by omega, by omega, h⟩

/-- A sequence of writes through one pointer. -/
theorem writes_keeps {p : Option Ptr} {f : World K → ℕ → Res (World K)}
    (hf : ∀ w k w', f w k = .ok w' → ∃ a v, w.write p a v = .ok w') (l : List ℕ) :
    ∀ w w' : World K, l.foldlM f w = .ok w' → w'.objs = w.objs ∧ Keeps (fun b => ∀ off, p ≠ some ⟨b, off⟩) w w' ∧
      ∀ b : ℕ, (∃ cs, w.bufs[b]? = some (some cs)) → ∃ cs, w'.bufs[b]? = some (some cs) := by
  induction l with
  | nil =>
    intro w w' h
    have h : w = w' := by simpa [pure, Except.pure] using h
    subst h
    exact ⟨rfl, Keeps.rfl', fun _ h => h⟩
  | cons k l ih =>
    intro w w' h
    rw [List.foldlM_cons] at h
    obtain ⟨w1, h1, h2⟩ := bind_ok h
    obtain ⟨a, v, h3⟩ := hf _ _ _ h1
    obtain ⟨i1, i2, i3⟩ := ih _ _ h2
    exact ⟨by rw [i1, write_objs h3], (write_keeps h3).trans i2, fun b hb => i3 b (write_live h3 b hb)⟩

theorem addAssign_eq (h : w.addAssign i j = .ok w') : ∃ x w1, Object w i x ∧ w' = w1.setObj i { x with cacheValid := false } ∧
    w1.objs = w.objs ∧ Keeps (fun b => ¬ Uses x b) w w1 ∧
      ∀ b : ℕ, (∃ cs, w.bufs[b]? = some (some cs)) → ∃ cs, w1.bufs[b]? = some (some cs) := by
  unfold addAssign at h
  obtain ⟨x, h1, h⟩ := bind_ok h
  obtain ⟨y, h2, h⟩ := bind_ok h
  split at h
  · cases h
  · obtain ⟨w1, h3, h⟩ := bind_ok h
    simp only [Except.ok.injEq] at h
    obtain ⟨g1, g2, g3⟩ := writes_keeps (p := x.data) (fun w k w' hw => by
      obtain ⟨a, -, hw⟩ := bind_ok hw
      obtain ⟨b, -, hw⟩ := bind_ok hw
      exact ⟨_, _, hw⟩) _ _ _ h3
    exact ⟨x, w1, obj_eq_ok.1 h1, h.symm, g1, g2.mono (fun b hb off e => hb ⟨off, e⟩), g3⟩

theorem getKeogh_eq {band : Int} {r : World K × (OutArr K × OutArr K)} (h : w.getKeogh i band = .ok r) : ∃ x, Object w i x ∧
    ((x.cacheValid = true ∧ x.cacheBand = some band ∧ x.keogh = some r.2 ∧ r.1 = w) ∨
     (∃ pts, w.points x = .ok pts ∧ keoghLU pts band = .ok r.2 ∧
        r.1 = w.setObj i { x with keogh := some r.2, cacheValid := true, cacheBand := some band })) := by
  unfold getKeogh at h
  obtain ⟨x, h1, h⟩ := bind_ok h
  obtain ⟨hit, h2, h⟩ := bind_ok h
  refine ⟨x, obj_eq_ok.1 h1, ?_⟩
  by_cases hh : hit = true
  · rw [if_pos hh] at h
    subst hh
    left
    unfold cacheHit at h2
    split at h2
    · rename_i hv
      rcases hb : x.cacheBand with _ | b
      · rw [hb] at h2; cases h2
      · rw [hb] at h2
        simp only [Except.ok.injEq, decide_eq_true_eq] at h2
        rcases hk : x.keogh with _ | lu
        · rw [hk] at h; cases h
        · rw [hk] at h
          simp only [Except.ok.injEq] at h
          exact ⟨hv, by rw [h2], by rw [← h], by rw [← h]⟩
    · cases h2
  · rw [if_neg hh] at h
    right
    obtain ⟨pts, h3, h⟩ := bind_ok h
    obtain ⟨lu, h4, h⟩ := bind_ok h
    simp only [Except.ok.injEq] at h
    subst h
    exact ⟨pts, h3, h4, rfl⟩

/-! ## Ownership -/

/-- An object that owns an array has a live one, from its beginning; no two objects own the same. -/
structure Owned (w : World K) : Prop where
  own : ∀ i o, Object w i o → o.owner = true → o.start = 0 ∧
    ∀ p, o.data = some p → p.off = 0 ∧ ∃ cs, w.bufs[p.buf]? = some (some cs)
  distinct : ∀ i j o o', Object w i o → Object w j o' → o.owner = true → o'.owner = true → i ≠ j → ∀ b, Uses o b → ¬ Uses o' b

/-- Array `b` is live and owned by no object. -/
def Foreign (w : World K) (b : ℕ) : Prop :=
  (∃ cs, w.bufs[b]? = some (some cs)) ∧ ∀ i o, Object w i o → o.owner = true → ¬ Uses o b

theorem object_lt (h : Object w i o) : i < w.objs.length := (List.getElem?_eq_some_iff.1 h).1

theorem object_append {bs} {os} (h : Object (⟨bs, w.objs ++ [some x]⟩ : World K) i o) (_ : os = w.objs) :
    Object w i o ∨ (i = w.objs.length ∧ o = x) := by
  unfold Object at h ⊢
  simp only at h
  rcases lt_trichotomy i w.objs.length with h1 | h1 | h1
  · left; rwa [List.getElem?_append_left h1] at h
  · right
    subst h1
    simp at h
    exact ⟨rfl, h.symm⟩
  · rw [List.getElem?_eq_none (by simp; omega)] at h
    cases h

theorem object_append_old {bs} (h : Object w i o) : Object (⟨bs, w.objs ++ [some x]⟩ : World K) i o := by
  have := object_lt h
  unfold Object at h ⊢
  simp only
  rwa [List.getElem?_append_left this]

/-- A state whose owners are among those of `w`, on arrays that stay live. -/
theorem Owned.sub (H : Owned w) (h : ∀ i o, Object w' i o → o.owner = true → ∃ o', Object w i o' ∧ o'.owner = true ∧
    o.data = o'.data ∧ o.start = o'.start ∧ ∀ b, Uses o' b → (∃ cs, w.bufs[b]? = some (some cs)) → ∃ cs, w'.bufs[b]? = some (some cs)) :
    Owned w' := by
  constructor
  · intro i o ho hw
    obtain ⟨o', h1, h2, h3, h4, h5⟩ := h i o ho hw
    obtain ⟨g1, g2⟩ := H.own i o' h1 h2
    refine ⟨by rw [h4, g1], fun p hp => ?_⟩
    obtain ⟨e1, e2⟩ := g2 p (by rw [← h3, hp])
    exact ⟨e1, h5 _ ⟨p.off, by rw [← h3, hp]⟩ e2⟩
  · intro i j o o' ho ho' hw hw' hij b hb hb'
    obtain ⟨a, h1, h2, h3, -⟩ := h i o ho hw
    obtain ⟨a', h1', h2', h3', -⟩ := h j o' ho' hw'
    exact H.distinct i j a a' h1 h1' h2 h2' hij b (by unfold Uses at *; rwa [← h3]) (by unfold Uses at *; rwa [← h3'])

theorem Foreign.sub {b : ℕ} (H : Foreign w b) (hb : ∃ cs, w'.bufs[b]? = some (some cs)) (h : ∀ i o, Object w' i o → o.owner = true →
    Uses o b → ∃ j o', Object w j o' ∧ o'.owner = true ∧ o.data = o'.data) : Foreign w' b := by
  refine ⟨hb, fun i o ho hw hu => ?_⟩
  obtain ⟨j, o', h1, h2, h3⟩ := h i o ho hw hu
  exact H.2 j o' h1 h2 (by unfold Uses at *; rwa [← h3])

/-- Adding an object that owns a new array. -/
theorem Owned.add (H : Owned w) {c} {d} {os} (hos : os = w.objs ++ [some x]) (hx : x.owner = true → x.start = 0)
    (hd : x.data = some ⟨w.bufs.length, 0⟩) (hc : c.length = 1) :
    Owned (⟨(w.bufs ++ c).set w.bufs.length (some d), os⟩ : World K) := by
  subst hos
  have hk : Keeps (fun _ => True) w (⟨(w.bufs ++ c).set w.bufs.length (some d), w.objs ++ [some x]⟩ : World K) := keeps_append_set
  have hnew : ((w.bufs ++ c).set w.bufs.length (some d))[w.bufs.length]? = some (some d) := by
    rw [List.getElem?_set_self (by simp [hc])]
  have hold : ∀ i o, Object w i o → o.owner = true → ∀ b, Uses o b → b < w.bufs.length := by
    rintro i o ho hw b ⟨off, hb⟩
    obtain ⟨-, cs, e⟩ := (H.own i o ho hw).2 _ hb
    exact (List.getElem?_eq_some_iff.1 e).1
  constructor
  · intro i o ho hw
    rcases object_append ho rfl with h | ⟨rfl, rfl⟩
    · obtain ⟨g1, g2⟩ := H.own i o h hw
      refine ⟨g1, fun p hp => ?_⟩
      obtain ⟨e1, cs, e2⟩ := g2 p hp
      exact ⟨e1, cs, hk _ _ trivial e2⟩
    · refine ⟨hx hw, fun p hp => ?_⟩
      rw [hd, Option.some.injEq] at hp
      subst hp
      exact ⟨rfl, d, hnew⟩
  · rintro i j o o' ho ho' hw hw' hij b hb hb'
    rcases object_append ho rfl with h | ⟨rfl, rfl⟩ <;> rcases object_append ho' rfl with h' | ⟨rfl, rfl⟩
    · exact H.distinct i j o o' h h' hw hw' hij b hb hb'
    · have := hold i o h hw b hb
      obtain ⟨off, e⟩ := hb'
      rw [hd] at e
      simp at e
      omega
    · have := hold j o' h' hw' b hb'
      obtain ⟨off, e⟩ := hb
      rw [hd] at e
      simp at e
      omega
    · exact hij rfl

/-- After `delete[]` by object `i`, the other owners are as before. -/
theorem release_live (H : Owned w) (hx : Object w i x) {w1 : World K} (hr : w.release x = .ok w1) {o : TsObj K} (ho : Object w j o)
    (hw : o.owner = true) (hij : j ≠ i) (b : ℕ) (hb : Uses o b) (h : ∃ cs, w.bufs[b]? = some (some cs)) :
    ∃ cs, w1.bufs[b]? = some (some cs) := by
  obtain ⟨cs, h⟩ := h
  exact ⟨cs, release_keeps hr b cs (fun hx' hu => H.distinct i j x o hx ho hx' hw (fun e => hij e.symm) b hu hb) h⟩

theorem release_ok (H : Owned w) (hx : Object w i x) : ∃ w1, w.release x = .ok w1 := by
  unfold release
  split
  · rename_i hw
    exact free_ok (fun q hq => (H.own i x hx hw).2 q hq)
  · exact ⟨w, rfl⟩

theorem object_of_objs (h : w'.objs = w.objs) : Object w' i o ↔ Object w i o := by unfold Object; rw [h]

theorem owned_step (H : Owned w) (op : Op K) (h : w.step op = .ok w') : Owned w' := by
  cases op with
  | load data =>
    simp only [step, Except.ok.injEq] at h
    subst h
    refine H.sub (fun i o ho hw => ⟨o, ho, hw, rfl, rfl, fun b _ ⟨cs, e⟩ => ⟨cs, ?_⟩⟩)
    exact keeps_append (P := fun _ => True) (os := w.objs) b cs trivial e
  | newOwned n =>
    obtain ⟨c, d, rfl, hc⟩ := newOwned_eq h
    exact H.add rfl (fun _ => rfl) rfl hc
  | newView p index start stop =>
    simp only [step, Except.ok.injEq, newView] at h
    subst h
    refine H.sub (fun i o ho hw => ?_)
    rcases object_append ho rfl with h | ⟨rfl, rfl⟩
    · exact ⟨o, h, hw, rfl, rfl, fun b _ h => h⟩
    · cases hw
  | copyCtor j =>
    obtain ⟨y, hy, ⟨hf, rfl⟩ | ⟨hf, c, d, rfl, hc⟩⟩ := copyCtor_eq h
    · refine H.sub (fun i o ho hw => ?_)
      rcases object_append ho rfl with h | ⟨rfl, rfl⟩
      · exact ⟨o, h, hw, rfl, rfl, fun b _ h => h⟩
      · rw [hf] at hw; cases hw
    · exact H.add rfl (fun _ => (H.own j y hy hf).1) rfl hc
  | copyAssign i j =>
    obtain ⟨x, y, w1, hx, hy, hr, ⟨hf, rfl⟩ | ⟨hf, c, d, os, rfl, hc, rfl⟩⟩ := copyAssign_eq h
    · refine H.sub (fun k o ho hw => ?_)
      rcases object_setObj ho with ⟨rfl, rfl⟩ | ⟨hk, ho⟩
      · rw [assign, hf] at hw; cases hw
      · have ho := (object_of_objs (release_objs hr)).1 ho
        exact ⟨o, ho, hw, rfl, rfl, fun b hb h => release_live H hx hr ho hw hk b hb h⟩
    · have hl := release_length hr
      have hlive : ∀ (b : ℕ) cs, w1.bufs[b]? = some (some cs) → ((w1.bufs ++ c).set w.bufs.length (some d))[b]? = some (some cs) := by
        intro b cs e
        rw [← hl]
        exact keeps_append_set (P := fun _ => True) (os := []) b cs trivial e
      have hnew : ((w1.bufs ++ c).set w.bufs.length (some d))[w.bufs.length]? = some (some d) := by
        rw [List.getElem?_set_self (by simp [hc, hl])]
      have hobj : ∀ k o, Object ((World.mk ((w1.bufs ++ c).set w.bufs.length (some d))
          (w1.setObj i { x with data := some ⟨w.bufs.length, 0⟩ }).objs).setObj i (assign x y (some ⟨w.bufs.length, 0⟩))) k o →
          (k = i ∧ o = assign x y (some ⟨w.bufs.length, 0⟩)) ∨ (k ≠ i ∧ Object w k o) := by
        intro k o ho
        rcases object_setObj ho with h | ⟨h1, h2⟩
        · exact Or.inl h
        · rcases object_setObj (show Object (w1.setObj i { x with data := some ⟨w.bufs.length, 0⟩ }) k o from h2) with h | ⟨-, h⟩
          · exact absurd h.1 h1
          · exact Or.inr ⟨h1, (object_of_objs (release_objs hr)).1 h⟩
      have hold : ∀ i o, Object w i o → o.owner = true → ∀ b, Uses o b → b < w.bufs.length := by
        rintro i o ho hw b ⟨off, hb⟩
        obtain ⟨-, cs, e⟩ := (H.own i o ho hw).2 _ hb
        exact (List.getElem?_eq_some_iff.1 e).1
      constructor
      · intro k o ho hw
        rcases hobj k o ho with ⟨rfl, rfl⟩ | ⟨hk, ho⟩
        · refine ⟨(H.own j y hy hf).1, fun p hp => ?_⟩
          simp only [assign, Option.some.injEq] at hp
          subst hp
          exact ⟨rfl, d, hnew⟩
        · obtain ⟨g1, g2⟩ := H.own k o ho hw
          refine ⟨g1, fun p hp => ?_⟩
          obtain ⟨e1, e2⟩ := g2 p hp
          obtain ⟨cs, e3⟩ := release_live H hx hr ho hw hk p.buf ⟨p.off, hp⟩ e2
          exact ⟨e1, cs, hlive _ _ e3⟩
      · intro k l o o' ho ho' hw hw' hkl b hb hb'
        rcases hobj k o ho with ⟨rfl, rfl⟩ | ⟨hk, h0⟩ <;> rcases hobj l o' ho' with ⟨rfl, rfl⟩ | ⟨hl, ho'⟩
        · exact hkl rfl
        · have := hold l o' ho' hw' b hb'
          obtain ⟨off, e⟩ := hb
          simp [assign] at e
          omega
        · have := hold k o h0 hw b hb
          obtain ⟨off, e⟩ := hb'
          simp [assign] at e
          omega
        · exact H.distinct k l o o' h0 ho' hw hw' hkl b hb hb'
  | moveAssign i j =>
    obtain ⟨x, y, w1, hx, hy, hr, ⟨rfl, rfl⟩ | ⟨hij, rfl⟩⟩ := moveAssign_eq h
    · have hobj : ∀ k o, Object (((w1.setObj i x).setObj i x).setObj i (assign x x none)) k o →
          (k = i ∧ o = assign x x none) ∨ (k ≠ i ∧ Object w k o) := by
        intro k o ho
        rcases object_setObj ho with h | ⟨h1, h2⟩
        · exact Or.inl h
        · rcases object_setObj h2 with h | ⟨-, h3⟩
          · exact absurd h.1 h1
          · rcases object_setObj h3 with h | ⟨-, h⟩
            · exact absurd h.1 h1
            · exact Or.inr ⟨h1, (object_of_objs (release_objs hr)).1 h⟩
      constructor
      · intro k o ho hw
        rcases hobj k o ho with ⟨rfl, rfl⟩ | ⟨hk, ho⟩
        · exact ⟨(H.own k x hx hw).1, fun p hp => by cases hp⟩
        · obtain ⟨g1, g2⟩ := H.own k o ho hw
          refine ⟨g1, fun p hp => ?_⟩
          obtain ⟨e1, e2⟩ := g2 p hp
          exact ⟨e1, release_live H hx hr ho hw hk p.buf ⟨p.off, hp⟩ e2⟩
      · intro k l o o' ho ho' hw hw' hkl b hb hb'
        rcases hobj k o ho with ⟨rfl, rfl⟩ | ⟨hk, ho⟩
        · obtain ⟨off, e⟩ := hb; cases e
        · rcases hobj l o' ho' with ⟨rfl, rfl⟩ | ⟨hl, ho'⟩
          · obtain ⟨off, e⟩ := hb'; cases e
          · exact H.distinct k l o o' ho ho' hw hw' hkl b hb hb'
    · have hobj : ∀ k o, Object (((w1.setObj i { x with data := y.data }).setObj j { y with data := none }).setObj i
          (assign x y y.data)) k o →
          (k = i ∧ o = assign x y y.data) ∨ (k = j ∧ o = { y with data := none }) ∨ (k ≠ i ∧ k ≠ j ∧ Object w k o) := by
        intro k o ho
        rcases object_setObj ho with h | ⟨h1, h2⟩
        · exact Or.inl h
        · rcases object_setObj h2 with h | ⟨h3, h4⟩
          · exact Or.inr (Or.inl h)
          · rcases object_setObj h4 with h | ⟨-, h⟩
            · exact absurd h.1 h1
            · exact Or.inr (Or.inr ⟨h1, h3, (object_of_objs (release_objs hr)).1 h⟩)
      constructor
      · intro k o ho hw
        rcases hobj k o ho with ⟨rfl, rfl⟩ | ⟨rfl, rfl⟩ | ⟨hk, hk', ho⟩
        · obtain ⟨g1, g2⟩ := H.own j y hy hw
          refine ⟨g1, fun p hp => ?_⟩
          obtain ⟨e1, e2⟩ := g2 p hp
          exact ⟨e1, release_live H hx hr hy hw (fun e => hij e.symm) p.buf ⟨p.off, hp⟩ e2⟩
        · exact ⟨(H.own k y hy hw).1, fun p hp => by cases hp⟩
        · obtain ⟨g1, g2⟩ := H.own k o ho hw
          refine ⟨g1, fun p hp => ?_⟩
          obtain ⟨e1, e2⟩ := g2 p hp
          exact ⟨e1, release_live H hx hr ho hw hk p.buf ⟨p.off, hp⟩ e2⟩
      · intro k l o o' ho ho' hw hw' hkl b hb hb'
        rcases hobj k o ho with ⟨rfl, rfl⟩ | ⟨rfl, rfl⟩ | ⟨hk, hk', h0⟩
        · rcases hobj l o' ho' with ⟨rfl, rfl⟩ | ⟨rfl, rfl⟩ | ⟨hl, hl', ho'⟩
          · exact hkl rfl
          · obtain ⟨off, e⟩ := hb'; cases e
          · exact H.distinct j l y o' hy ho' hw hw' (fun e => hl' e.symm) b hb hb'
        · obtain ⟨off, e⟩ := hb; cases e
        · rcases hobj l o' ho' with ⟨rfl, rfl⟩ | ⟨rfl, rfl⟩ | ⟨hl, hl', ho'⟩
          · exact H.distinct k j o y h0 hy hw hw' hk' b hb hb'
          · obtain ⟨off, e⟩ := hb'; cases e
          · exact H.distinct k l o o' h0 ho' hw hw' hkl b hb hb'
  | destroy i =>
    obtain ⟨x, w1, hx, hr, rfl⟩ := destroy_eq h
    refine H.sub (fun k o ho hw => ?_)
    have hk : k ≠ i ∧ Object w1 k o := by
      unfold Object at ho
      simp only at ho
      by_cases hik : i = k
      · subst hik
        rw [List.getElem?_set_self'] at ho
        rcases h' : w1.objs[i]? with _ | o' <;> rw [h'] at ho <;> simp at ho
      · rw [List.getElem?_set_ne hik] at ho
        exact ⟨fun e => hik e.symm, ho⟩
    have ho := (object_of_objs (release_objs hr)).1 hk.2
    exact ⟨o, ho, hw, rfl, rfl, fun b hb h => release_live H hx hr ho hw hk.1 b hb h⟩
  | setAt i k v =>
    obtain ⟨x, hx, -, -, hw'⟩ := setAt_eq h
    exact H.sub (fun i o ho hw => ⟨o, (object_of_objs (write_objs hw')).1 ho, hw, rfl, rfl, fun b _ h => write_live hw' b h⟩)
  | addAssign i j =>
    obtain ⟨x, w1, hx, rfl, h1, -, h2⟩ := addAssign_eq h
    refine H.sub (fun k o ho hw => ?_)
    rcases object_setObj ho with ⟨rfl, rfl⟩ | ⟨hk, ho⟩
    · exact ⟨x, hx, hw, rfl, rfl, fun b _ h => h2 b h⟩
    · exact ⟨o, (object_of_objs h1).1 ho, hw, rfl, rfl, fun b _ h => h2 b h⟩
  | getKeogh i band =>
    simp only [step] at h
    rcases hr : w.getKeogh i band with e | r
    · rw [hr] at h; cases h
    · rw [hr] at h
      simp only [Except.map, Except.ok.injEq] at h
      subst h
      obtain ⟨x, hx, ⟨-, -, -, e⟩ | ⟨pts, -, -, e⟩⟩ := getKeogh_eq hr
      · rw [e]; exact H
      · rw [e]
        refine H.sub (fun k o ho hw => ?_)
        rcases object_setObj ho with ⟨rfl, rfl⟩ | ⟨hk, ho⟩
        · exact ⟨x, hx, hw, rfl, rfl, fun b _ h => h⟩
        · exact ⟨o, ho, hw, rfl, rfl, fun b _ h => h⟩
  | poke b k v =>
    have hw' : w.write (some ⟨b, 0⟩) k v = .ok w' := h
    exact H.sub (fun i o ho hw => ⟨o, (object_of_objs (write_objs hw')).1 ho, hw, rfl, rfl, fun b _ h => write_live hw' b h⟩)

theorem owned_empty : Owned (⟨[], []⟩ : World K) :=
  ⟨fun i o h => by simp [Object] at h, fun i j o o' h => by simp [Object] at h⟩

theorem owned_steps {w0 : World K} (H : Owned w0) (h : Steps w0 w) : Owned w := by
  induction h with
  | refl => exact H
  | step op _ e ih => exact owned_step ih op e

theorem owned_reach (h : Reach w) : Owned w := owned_steps owned_empty h

/-- Every array in use before an operation is live after it, except the one that a releasing object owns. -/
theorem foreign_step (H : Owned w) {b : ℕ} (F : Foreign w b) (op : Op K) (h : w.step op = .ok w') : Foreign w' b := by
  have hlt : b < w.bufs.length := by
    obtain ⟨⟨cs, e⟩, -⟩ := F
    exact (List.getElem?_eq_some_iff.1 e).1
  have hrel : ∀ {i : ℕ} {x : TsObj K} {w1 : World K}, Object w i x → w.release x = .ok w1 → ∃ cs, w1.bufs[b]? = some (some cs) := by
    intro i x w1 hx hr
    obtain ⟨cs, e⟩ := F.1
    exact ⟨cs, release_keeps hr b cs (fun hw => F.2 i x hx hw) e⟩
  cases op with
  | load data =>
    simp only [step, Except.ok.injEq] at h
    subst h
    obtain ⟨cs, e⟩ := F.1
    exact F.sub ⟨cs, keeps_append (P := fun _ => True) (os := w.objs) b cs trivial e⟩ (fun i o ho hw _ => ⟨i, o, ho, hw, rfl⟩)
  | newOwned n =>
    obtain ⟨c, d, rfl, hc⟩ := newOwned_eq h
    obtain ⟨cs, e⟩ := F.1
    refine F.sub ⟨cs, keeps_append_set (P := fun _ => True) (os := w.objs) b cs trivial e⟩ (fun i o ho hw hu => ?_)
    rcases object_append ho rfl with h | ⟨rfl, rfl⟩
    · exact ⟨i, o, h, hw, rfl⟩
    · obtain ⟨off, e⟩ := hu
      simp at e
      omega
  | newView p index start stop =>
    simp only [step, Except.ok.injEq, newView] at h
    subst h
    refine F.sub F.1 (fun i o ho hw hu => ?_)
    rcases object_append ho rfl with h | ⟨rfl, rfl⟩
    · exact ⟨i, o, h, hw, rfl⟩
    · cases hw
  | copyCtor j =>
    obtain ⟨y, hy, ⟨hf, rfl⟩ | ⟨hf, c, d, rfl, hc⟩⟩ := copyCtor_eq h
    · refine F.sub F.1 (fun i o ho hw hu => ?_)
      rcases object_append ho rfl with h | ⟨rfl, rfl⟩
      · exact ⟨i, o, h, hw, rfl⟩
      · rw [hf] at hw; cases hw
    · obtain ⟨cs, e⟩ := F.1
      refine F.sub ⟨cs, keeps_append_set (P := fun _ => True) (os := w.objs) b cs trivial e⟩ (fun i o ho hw hu => ?_)
      rcases object_append ho rfl with h | ⟨rfl, rfl⟩
      · exact ⟨i, o, h, hw, rfl⟩
      · obtain ⟨off, e⟩ := hu
        simp at e
        omega
  | copyAssign i j =>
    obtain ⟨x, y, w1, hx, hy, hr, ⟨hf, rfl⟩ | ⟨hf, c, d, os, rfl, hc, rfl⟩⟩ := copyAssign_eq h
    · refine F.sub (by have := hrel hx hr; exact this) (fun k o ho hw hu => ?_)
      rcases object_setObj ho with ⟨rfl, rfl⟩ | ⟨hk, ho⟩
      · rw [assign, hf] at hw; cases hw
      · exact ⟨k, o, (object_of_objs (release_objs hr)).1 ho, hw, rfl⟩
    · obtain ⟨cs, e⟩ := hrel hx hr
      have hl := release_length hr
      refine F.sub ⟨cs, ?_⟩ (fun k o ho hw hu => ?_)
      · change ((w1.bufs ++ c).set w.bufs.length (some d))[b]? = _
        rw [← hl]
        exact keeps_append_set (P := fun _ => True) (os := []) b cs trivial e
      · rcases object_setObj ho with ⟨rfl, rfl⟩ | ⟨h1, h2⟩
        · obtain ⟨off, e⟩ := hu
          simp [assign] at e
          omega
        · rcases object_setObj (show Object (w1.setObj i { x with data := some ⟨w.bufs.length, 0⟩ }) k o from h2) with h | ⟨-, h⟩
          · exact absurd h.1 h1
          · exact ⟨k, o, (object_of_objs (release_objs hr)).1 h, hw, rfl⟩
  | moveAssign i j =>
    obtain ⟨x, y, w1, hx, hy, hr, ⟨rfl, rfl⟩ | ⟨hij, rfl⟩⟩ := moveAssign_eq h
    · refine F.sub (by have := hrel hx hr; exact this) (fun k o ho hw hu => ?_)
      rcases object_setObj ho with ⟨rfl, rfl⟩ | ⟨h1, h2⟩
      · obtain ⟨off, e⟩ := hu; cases e
      · rcases object_setObj h2 with h | ⟨-, h3⟩
        · exact absurd h.1 h1
        · rcases object_setObj h3 with h | ⟨-, h⟩
          · exact absurd h.1 h1
          · exact ⟨k, o, (object_of_objs (release_objs hr)).1 h, hw, rfl⟩
    · refine F.sub (by have := hrel hx hr; exact this) (fun k o ho hw hu => ?_)
      rcases object_setObj ho with ⟨rfl, rfl⟩ | ⟨h1, h2⟩
      · exact ⟨j, y, hy, hw, rfl⟩
      · rcases object_setObj h2 with ⟨rfl, rfl⟩ | ⟨-, h3⟩
        · obtain ⟨off, e⟩ := hu; cases e
        · rcases object_setObj h3 with h | ⟨-, h⟩
          · exact absurd h.1 h1
          · exact ⟨k, o, (object_of_objs (release_objs hr)).1 h, hw, rfl⟩
  | destroy i =>
    obtain ⟨x, w1, hx, hr, rfl⟩ := destroy_eq h
    refine F.sub (by have := hrel hx hr; exact this) (fun k o ho hw hu => ?_)
    have hk : Object w1 k o := by
      unfold Object at ho
      simp only at ho
      by_cases hik : i = k
      · subst hik
        rw [List.getElem?_set_self'] at ho
        rcases h' : w1.objs[i]? with _ | o' <;> rw [h'] at ho <;> simp at ho
      · rwa [List.getElem?_set_ne hik] at ho
    exact ⟨k, o, (object_of_objs (release_objs hr)).1 hk, hw, rfl⟩
  | setAt i k v =>
    obtain ⟨x, hx, -, -, hw'⟩ := setAt_eq h
    exact F.sub (write_live hw' b F.1) (fun i o ho hw _ => ⟨i, o, (object_of_objs (write_objs hw')).1 ho, hw, rfl⟩)
  | addAssign i j =>
    obtain ⟨x, w1, hx, rfl, h1, -, h2⟩ := addAssign_eq h
    refine F.sub (h2 b F.1) (fun k o ho hw _ => ?_)
    rcases object_setObj ho with ⟨rfl, rfl⟩ | ⟨hk, ho⟩
    · exact ⟨k, x, hx, hw, rfl⟩
    · exact ⟨k, o, (object_of_objs h1).1 ho, hw, rfl⟩
  | getKeogh i band =>
    simp only [step] at h
    rcases hr : w.getKeogh i band with e | r
    · rw [hr] at h; cases h
    · rw [hr] at h
      simp only [Except.map, Except.ok.injEq] at h
      subst h
      obtain ⟨x, hx, ⟨-, -, -, e⟩ | ⟨pts, -, -, e⟩⟩ := getKeogh_eq hr
      · rw [e]; exact F
      · rw [e]
        refine F.sub F.1 (fun k o ho hw _ => ?_)
        rcases object_setObj ho with ⟨rfl, rfl⟩ | ⟨hk, ho⟩
        · exact ⟨k, x, hx, hw, rfl⟩
        · exact ⟨k, o, ho, hw, rfl⟩
  | poke b' k v =>
    have hw' : w.write (some ⟨b', 0⟩) k v = .ok w' := h
    exact F.sub (write_live hw' b F.1) (fun i o ho hw _ => ⟨i, o, (object_of_objs (write_objs hw')).1 ho, hw, rfl⟩)

theorem foreign_steps {w0 : World K} (H : Owned w0) {b : ℕ} (F : Foreign w0 b) (h : Steps w0 w) : Foreign w b := by
  induction h with
  | refl => exact F
  | step op h e ih => exact foreign_step (owned_steps H h) ih op e

/-! ## Envelopes -/

/-- An envelope that is kept is that of the current values. -/
def Fresh (w : World K) : Prop := ∀ i o, Object w i o → o.cacheValid = true →
  ∃ b lu pts, o.cacheBand = some b ∧ o.keogh = some lu ∧ w.points o = .ok pts ∧ keoghLU pts b = .ok lu

/-- The objects that keep an envelope in `w'` kept it in `w`, and their values are as they were. -/
theorem Fresh.sub (H : Fresh w) (h : ∀ i o, Object w' i o → o.cacheValid = true →
    ∃ j, Object w j o ∧ Keeps (fun b => Uses o b) w w') : Fresh w' := by
  intro i o ho hc
  obtain ⟨j, h1, h2⟩ := h i o ho hc
  obtain ⟨b, lu, pts, e1, e2, e3, e4⟩ := H j o h1 hc
  exact ⟨b, lu, pts, e1, e2, points_keeps h2 e3, e4⟩

theorem noneKept_keeps {P : ℕ → Prop} {k : Option ℕ} (hk : Keeps (fun b => ¬ P b) w w') (hn : ∀ b, P b → NoneKept w b k)
    (ho : Object w i o) (hc : o.cacheValid = true) (hi : some i ≠ k) : Keeps (fun b => Uses o b) w w' :=
  hk.mono (fun b hu hP => by have := hn b hP i o ho hu hi; rw [hc] at this; cases this)

theorem fresh_step (H : Fresh w) (op : Op K) (hcare : Careful w op) (h : w.step op = .ok w') : Fresh w' := by
  cases op with
  | load data =>
    simp only [step, Except.ok.injEq] at h
    subst h
    exact H.sub (fun i o ho _ => ⟨i, ho, keeps_append (os := w.objs)⟩)
  | newOwned n =>
    obtain ⟨c, d, rfl, hc⟩ := newOwned_eq h
    refine H.sub (fun i o ho hv => ?_)
    rcases object_append ho rfl with h | ⟨rfl, rfl⟩
    · exact ⟨i, h, keeps_append_set⟩
    · cases hv
  | newView p index start stop =>
    simp only [step, Except.ok.injEq, newView] at h
    subst h
    refine H.sub (fun i o ho hv => ?_)
    rcases object_append ho rfl with h | ⟨rfl, rfl⟩
    · exact ⟨i, h, keeps_objs⟩
    · cases hv
  | copyCtor j =>
    obtain ⟨y, hy, ⟨hf, rfl⟩ | ⟨hf, c, d, rfl, hc⟩⟩ := copyCtor_eq h
    · refine H.sub (fun i o ho hv => ?_)
      rcases object_append ho rfl with h | ⟨rfl, rfl⟩
      · exact ⟨i, h, keeps_objs⟩
      · cases hv
    · refine H.sub (fun i o ho hv => ?_)
      rcases object_append ho rfl with h | ⟨rfl, rfl⟩
      · exact ⟨i, h, keeps_append_set⟩
      · cases hv
  | copyAssign i j =>
    obtain ⟨x, y, w1, hx, hy, hr, ⟨hf, rfl⟩ | ⟨hf, c, d, os, rfl, hc, rfl⟩⟩ := copyAssign_eq h
    all_goals obtain ⟨c1, c2⟩ := hcare x hx
    · refine H.sub (fun k o ho hv => ?_)
      rcases object_setObj ho with ⟨rfl, rfl⟩ | ⟨hk, ho⟩
      · rw [assign, c1] at hv; cases hv
      · have ho := (object_of_objs (release_objs hr)).1 ho
        exact ⟨k, ho, (noneKept_keeps (P := fun b => x.owner = true ∧ Uses x b) ((release_keeps hr).mono (fun b hb h1 h2 => hb ⟨h1, h2⟩))
          (fun b hb => c2 hb.1 b hb.2) ho hv (by simp)).trans keeps_objs⟩
    · have hl := release_length hr
      refine H.sub (fun k o ho hv => ?_)
      rcases object_setObj ho with ⟨rfl, rfl⟩ | ⟨hk, ho⟩
      · rw [assign, c1] at hv; cases hv
      · rcases object_setObj (show Object (w1.setObj i { x with data := some ⟨w.bufs.length, 0⟩ }) k o from ho) with h | ⟨-, ho⟩
        · exact absurd h.1 hk
        · have ho := (object_of_objs (release_objs hr)).1 ho
          refine ⟨k, ho, (noneKept_keeps (P := fun b => x.owner = true ∧ Uses x b) ((release_keeps hr).mono (fun b hb h1 h2 => hb ⟨h1, h2⟩))
            (fun b hb => c2 hb.1 b hb.2) ho hv (by simp)).trans ?_⟩
          intro b cs _ e
          change ((w1.bufs ++ c).set w.bufs.length (some d))[b]? = _
          rw [← hl]
          exact keeps_append_set (P := fun _ => True) (os := []) b cs trivial e
  | moveAssign i j =>
    obtain ⟨x, y, w1, hx, hy, hr, h⟩ := moveAssign_eq h
    obtain ⟨c1, c2, c3⟩ := hcare x y hx hy
    have key : ∀ k o, Object w1 k o → o.cacheValid = true → Object w k o ∧ Keeps (fun b => Uses o b) w w1 := by
      intro k o ho hv
      have ho := (object_of_objs (release_objs hr)).1 ho
      exact ⟨ho, noneKept_keeps (P := fun b => x.owner = true ∧ Uses x b) ((release_keeps hr).mono (fun b hb h1 h2 => hb ⟨h1, h2⟩))
        (fun b hb => c3 hb.1 b hb.2) ho hv (by simp)⟩
    rcases h with ⟨rfl, rfl⟩ | ⟨hij, rfl⟩
    · refine H.sub (fun k o ho hv => ?_)
      rcases object_setObj ho with ⟨rfl, rfl⟩ | ⟨h1, h2⟩
      · rw [assign, c1] at hv; cases hv
      · rcases object_setObj h2 with h | ⟨-, h3⟩
        · exact absurd h.1 h1
        · rcases object_setObj h3 with h | ⟨-, h⟩
          · exact absurd h.1 h1
          · exact ⟨k, (key k o h hv).1, (key k o h hv).2.trans keeps_objs⟩
    · refine H.sub (fun k o ho hv => ?_)
      rcases object_setObj ho with ⟨rfl, rfl⟩ | ⟨h1, h2⟩
      · rw [assign, c1] at hv; cases hv
      · rcases object_setObj h2 with ⟨rfl, rfl⟩ | ⟨-, h3⟩
        · simp [c2] at hv
        · rcases object_setObj h3 with h | ⟨-, h⟩
          · exact absurd h.1 h1
          · exact ⟨k, (key k o h hv).1, (key k o h hv).2.trans keeps_objs⟩
  | destroy i =>
    obtain ⟨x, w1, hx, hr, rfl⟩ := destroy_eq h
    have c := hcare x hx
    refine H.sub (fun k o ho hv => ?_)
    have hk : k ≠ i ∧ Object w1 k o := by
      unfold Object at ho
      simp only at ho
      by_cases hik : i = k
      · subst hik
        rw [List.getElem?_set_self'] at ho
        rcases h' : w1.objs[i]? with _ | o' <;> rw [h'] at ho <;> simp at ho
      · rw [List.getElem?_set_ne hik] at ho
        exact ⟨fun e => hik e.symm, ho⟩
    have ho := (object_of_objs (release_objs hr)).1 hk.2
    exact ⟨k, ho, (noneKept_keeps (P := fun b => x.owner = true ∧ Uses x b) ((release_keeps hr).mono (fun b hb h1 h2 => hb ⟨h1, h2⟩))
        (fun b hb => c hb.1 b hb.2) ho hv (by simp [hk.1])).trans keeps_objs⟩
  | setAt i k v =>
    obtain ⟨x, hx, -, -, hw'⟩ := setAt_eq h
    refine H.sub (fun i' o ho hv => ?_)
    have ho := (object_of_objs (write_objs hw')).1 ho
    exact ⟨i', ho, noneKept_keeps (P := fun b => Uses x b) ((write_keeps hw').mono (fun b hb off e => hb ⟨off, e⟩))
      (fun b hb => hcare x b hx hb) ho hv (by simp)⟩
  | addAssign i j =>
    obtain ⟨x, w1, hx, rfl, h1, h2, -⟩ := addAssign_eq h
    refine H.sub (fun k o ho hv => ?_)
    rcases object_setObj ho with ⟨rfl, rfl⟩ | ⟨hk, ho⟩
    · cases hv
    · have ho := (object_of_objs h1).1 ho
      exact ⟨k, ho, (noneKept_keeps h2 (fun b hb => hcare x b hx hb) ho hv (by simp [hk])).trans keeps_objs⟩
  | getKeogh i band =>
    simp only [step] at h
    rcases hr : w.getKeogh i band with e | r
    · rw [hr] at h; cases h
    · rw [hr] at h
      simp only [Except.map, Except.ok.injEq] at h
      subst h
      obtain ⟨x, hx, ⟨-, -, -, e⟩ | ⟨pts, e1, e2, e⟩⟩ := getKeogh_eq hr
      · rw [e]; exact H
      · rw [e]
        intro k o ho hv
        rcases object_setObj ho with ⟨rfl, rfl⟩ | ⟨hk, ho⟩
        · exact ⟨band, r.2, pts, rfl, rfl, e1, e2⟩
        · exact H k o ho hv
  | poke b k v =>
    have hw' : w.write (some ⟨b, 0⟩) k v = .ok w' := h
    refine H.sub (fun i' o ho hv => ?_)
    have ho := (object_of_objs (write_objs hw')).1 ho
    exact ⟨i', ho, noneKept_keeps (P := fun b' => b' = b) ((write_keeps hw').mono (fun b' hb off e => hb (by simp at e; exact e.1.symm)))
      (fun b' hb => by subst hb; exact hcare) ho hv (by simp)⟩

theorem fresh_reach (h : CarefulReach w) : Fresh w := by
  induction h with
  | empty => intro i o h; simp [Object] at h
  | step op _ hc e ih => exact fresh_step ih op hc e

/-- With right envelopes kept, an envelope is obtained exactly when it can be computed from the current values, and is that one. -/
theorem fresh_getKeogh (H : Fresh w) (ho : Object w i o) {pts : List (Dbl K)} (hp : w.points o = .ok pts) {band : Int}
    {lu : OutArr K × OutArr K} (hl : keoghLU pts band = .ok lu) : ∃ w', w.getKeogh i band = .ok (w', lu) := by
  unfold getKeogh
  rw [obj_of ho]
  simp only [bind, Except.bind]
  unfold cacheHit
  by_cases hv : o.cacheValid = true
  · obtain ⟨b, lu', pts', e1, e2, e3, e4⟩ := H i o ho hv
    rw [hp, Except.ok.injEq] at e3
    subst e3
    rw [if_pos hv, e1]
    simp only
    by_cases hb : b = band
    · subst hb
      rw [hl, Except.ok.injEq] at e4
      subst e4
      rw [if_pos (by simp), e2]
      exact ⟨_, rfl⟩
    · rw [if_neg (by simp [hb]), hp]
      simp only [hl]
      exact ⟨_, rfl⟩
  · rw [if_neg hv, hp]
    simp only [hl, Bool.false_eq_true, if_false]
    exact ⟨_, rfl⟩

/-! ## Comparison -/

theorem eqLoop_ok [IsStrictOrderedRing K] {xs ys : List K} (hx : Valued w x (xs.map .fin)) (hy : Valued w y (ys.map .fin))
    (l : List ℕ) (hl : ∀ k ∈ l, k < xs.length ∧ k < ys.length) :
    ∃ r, w.eqLoop x y l = .ok r ∧
      (r = true ↔ ∀ k ∈ l, ∀ a b, xs[k]? = some a → ys[k]? = some b → |a - b| ≤ (eps : K)) := by
  induction l with
  | nil => exact ⟨true, rfl, by simp⟩
  | cons k l ih =>
    obtain ⟨h1, h2⟩ := hl k (List.mem_cons_self)
    obtain ⟨r, e, hr⟩ := ih (fun k hk => hl k (List.mem_cons_of_mem _ hk))
    have habs : Dbl.abs (Dbl.fin xs[k] - Dbl.fin ys[k]) = Dbl.fin |xs[k] - ys[k]| := by
      rw [Dbl.fin_sub_fin, Dbl.abs_fin]
    unfold eqLoop
    rw [valued_read hx (k := k) (v := .fin xs[k]) (by simp [h1]), valued_read hy (k := k) (v := .fin ys[k]) (by simp [h2])]
    simp only [bind, Except.bind]
    rw [e, habs]
    by_cases hc : (eps : K) < |xs[k] - ys[k]|
    · refine ⟨false, by rw [if_pos (Dbl.fin_lt_fin.2 hc)], ?_⟩
      simp only [Bool.false_eq_true, false_iff]
      intro h
      exact absurd (h k (List.mem_cons_self) _ _ (List.getElem?_eq_getElem h1) (List.getElem?_eq_getElem h2)) (not_le.2 hc)
    · refine ⟨r, by rw [if_neg (fun h => hc (Dbl.fin_lt_fin.1 h))], ?_⟩
      rw [hr]
      constructor
      · intro h k' hk' a b ha hb
        rcases List.mem_cons.1 hk' with rfl | hk'
        · rw [List.getElem?_eq_getElem h1, Option.some.injEq] at ha
          rw [List.getElem?_eq_getElem h2, Option.some.injEq] at hb
          rw [← ha, ← hb]
          exact not_lt.1 hc
        · exact h k' hk' a b ha hb
      · intro h k' hk' a b ha hb
        exact h k' (List.mem_cons_of_mem _ hk') a b ha hb

end World

end Genex
