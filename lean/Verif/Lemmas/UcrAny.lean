import Verif.Lemmas.UcrRoundedScan

/-! The scan with any operations whatsoever: no memory is used that was not written or is outside. -/

set_option linter.unusedSectionVars false

namespace Genex.Ucr

open Dbl Spec

variable {K : Type} [Field K] [LinearOrder K] [IsStrictOrderedRing K] {ρ : Dbl K → Dbl K}

/-- An array of which every cell was written. -/
def Full (c : Arr K) (n : ℕ) : Prop := c.length = n ∧ ∀ k < n, ∃ x, c[k]? = some (some x)

theorem Full.rd {c : Arr K} {n : ℕ} (h : Full c n) {k : ℕ} (hk : k < n) : ∃ x, rd c (k : Int) = .ok x := by
  obtain ⟨x, hx⟩ := h.2 k hk
  exact ⟨x, rd_some hx⟩

theorem Full.set {c : Arr K} {n : ℕ} (h : Full c n) (k : ℕ) (x : Dbl K) : Full (c.set k (some x)) n := by
  refine ⟨by simp [h.1], fun j hj => ?_⟩
  by_cases e : k = j
  · subst e; exact ⟨x, by rw [List.getElem?_set_self (by rw [h.1]; exact hj)]⟩
  · rw [List.getElem?_set_ne e]; exact h.2 j hj

theorem Full.wr {c : Arr K} {n : ℕ} (h : Full c n) {k : ℕ} (hk : k < n) (x : Dbl K) : ∃ c', wr c (k : Int) x = .ok c' ∧ Full c' n :=
  ⟨_, wr_ok x (by rw [h.1]; exact hk), h.set k x⟩

theorem full_map (l : List (Dbl K)) : Full (l.map some) l.length := ⟨by simp, fun k hk => by simp [hk]⟩

theorem full_replicate (n : ℕ) (x : Dbl K) : Full (List.replicate n (some x)) n := ⟨by simp, fun k hk => ⟨x, by simp [hk]⟩⟩

theorem zAtR_any {t : Arr K} {i : Int} {x : Dbl K} (h : rd t i = .ok x) (mean std : Dbl K) : ∃ z, zAtR ρ t mean std i = .ok z := by
  unfold zAtR; rw [h]; exact ⟨_, rfl⟩

theorem lbKimR_any {t q : Arr K} {m : ℕ} {j : Int} {mean std bsf : Dbl K} (hm : 3 ≤ m) (hq : Full q m)
    (ht : ∀ k : ℕ, k < m → ∃ x, rd t (k + j) = .ok x) : ∃ v, lbKimR ρ t q j m mean std bsf = .ok v := by
  have hz : ∀ k : ℕ, k < m → ∃ z, zAtR ρ t mean std (k + j) = .ok z := fun k hk => by
    obtain ⟨x, hx⟩ := ht k hk; exact zAtR_any hx mean std
  obtain ⟨x0, z0⟩ := hz 0 (by omega)
  obtain ⟨x1, z1⟩ := hz 1 (by omega)
  obtain ⟨x2, z2⟩ := hz 2 (by omega)
  obtain ⟨w0, y0⟩ := hz (m - 1) (by omega)
  obtain ⟨w1, y1⟩ := hz (m - 2) (by omega)
  obtain ⟨w2, y2⟩ := hz (m - 3) (by omega)
  obtain ⟨a0, q0⟩ := hq.rd (k := 0) (by omega)
  obtain ⟨a1, q1⟩ := hq.rd (k := 1) (by omega)
  obtain ⟨a2, q2⟩ := hq.rd (k := 2) (by omega)
  obtain ⟨b0, p0⟩ := hq.rd (k := m - 1) (by omega)
  obtain ⟨b1, p1⟩ := hq.rd (k := m - 2) (by omega)
  obtain ⟨b2, p2⟩ := hq.rd (k := m - 3) (by omega)
  have e0 : ((0 : ℕ) : Int) + j = j := by simp
  have e1 : ((1 : ℕ) : Int) + j = j + 1 := by push_cast; ring
  have e2 : ((2 : ℕ) : Int) + j = j + 2 := by push_cast; ring
  have c1 : ((m - 1 : ℕ) : Int) = m - 1 := by omega
  have c2 : ((m - 2 : ℕ) : Int) = m - 2 := by omega
  have c3 : ((m - 3 : ℕ) : Int) = m - 3 := by omega
  rw [e0] at z0
  rw [e1] at z1
  rw [e2] at z2
  rw [c1] at y0 p0
  rw [c2] at y1 p1
  rw [c3] at y2 p2
  simp only [Nat.cast_zero, Nat.cast_one, Nat.cast_ofNat] at q0 q1 q2
  unfold lbKimR
  simp only [z0, y0, q0, p0, z1, q1, y1, p1, z2, q2, y2, p2, bind, Except.bind]
  split_ifs <;> exact ⟨_, rfl⟩

theorem keoghQR_any {t uo lo : Arr K} {j : Int} {mean std bsf : Dbl K} {m : ℕ} (is : List ℕ) :
    ∀ {i : ℕ} {lb : Dbl K} {cb : Arr K}, Full cb m → Full uo (i + is.length) → Full lo (i + is.length) →
      (∀ o ∈ is, o < m ∧ ∃ x, rd t (o + j) = .ok x) →
      ∃ v cb', keoghQR ρ t uo lo j mean std bsf is i lb cb = .ok (v, cb') ∧ Full cb' m := by
  induction is with
  | nil => intro i lb cb hc _ _ _; exact ⟨lb, cb, rfl, hc⟩
  | cons o is ih =>
    intro i lb cb hc hu hl hh
    unfold keoghQR
    split_ifs with hlt
    · obtain ⟨h1, x, hx⟩ := hh o (by simp)
      obtain ⟨z, hz⟩ := zAtR_any (ρ := ρ) hx mean std
      obtain ⟨ub, e1⟩ := hu.rd (k := i) (by simp)
      obtain ⟨l, e2⟩ := hl.rd (k := i) (by simp)
      simp only [hz, e1, e2, bind, Except.bind]
      obtain ⟨cb', e3, hc'⟩ := hc.wr h1 (if ub < z then sqR ρ z ub else if z < l then sqR ρ z l else 0)
      simp only [e3]
      have : i + 1 + is.length = i + (o :: is).length := by simp; omega
      exact ih hc' (by rw [this]; exact hu) (by rw [this]; exact hl) (fun o' ho' => hh o' (by simp [ho']))
    · exact ⟨lb, cb, rfl, hc⟩

theorem keoghDR_any {qo l ub : Arr K} {I : Int} {mean std bsf : Dbl K} {m : ℕ} (is : List ℕ) :
    ∀ {i : ℕ} {lb : Dbl K} {cb : Arr K}, Full cb m → Full qo (i + is.length) →
      (∀ o ∈ is, o < m ∧ (∃ x, rd ub (I + o) = .ok x) ∧ ∃ x, rd l (I + o) = .ok x) →
      ∃ v cb', keoghDR ρ qo l ub I mean std bsf is i lb cb = .ok (v, cb') ∧ Full cb' m := by
  induction is with
  | nil => intro i lb cb hc _ _; exact ⟨lb, cb, rfl, hc⟩
  | cons o is ih =>
    intro i lb cb hc hq hh
    unfold keoghDR
    split_ifs with hlt
    · obtain ⟨h1, ⟨x, hx⟩, y, hy⟩ := hh o (by simp)
      obtain ⟨z, hz⟩ := zAtR_any (ρ := ρ) hx mean std
      obtain ⟨z', hz'⟩ := zAtR_any (ρ := ρ) hy mean std
      obtain ⟨a, e1⟩ := hq.rd (k := i) (by simp)
      simp only [hz, hz', e1, bind, Except.bind]
      obtain ⟨cb', e3, hc'⟩ := hc.wr h1 (if z < a then sqR ρ a z else if a < z' then sqR ρ a z' else 0)
      simp only [e3]
      have : i + 1 + is.length = i + (o :: is).length := by simp; omega
      exact ih hc' (by rw [this]; exact hq) (fun o' ho' => hh o' (by simp [ho']))
    · exact ⟨lb, cb, rfl, hc⟩

theorem full_cons {x : Dbl K} {c : Arr K} {n : ℕ} (h : Full c n) : Full (some x :: c) (n + 1) := by
  refine ⟨by simp [h.1], fun k hk => ?_⟩
  cases k with
  | zero => exact ⟨x, rfl⟩
  | succ k => obtain ⟨y, hy⟩ := h.2 k (by omega); exact ⟨y, by simpa using hy⟩

theorem cumulateR_any (c : Arr K) : ∀ {n : ℕ}, Full c n → ∃ c', cumulateR ρ c = .ok c' ∧ Full c' n := by
  induction c with
  | nil => intro n h; exact ⟨[], rfl, h⟩
  | cons x xs ih =>
    intro n h
    obtain ⟨n, rfl⟩ : ∃ k, n = k + 1 := ⟨n - 1, by have := h.1; simp at this; omega⟩
    obtain ⟨x', hx⟩ := h.2 0 (by omega)
    simp only [List.getElem?_cons_zero, Option.some.injEq] at hx
    subst hx
    have hxs : Full xs n := ⟨by have := h.1; simpa using this, fun k hk => by
      obtain ⟨y, hy⟩ := h.2 (k + 1) (by omega); exact ⟨y, by simpa using hy⟩⟩
    cases xs with
    | nil =>
      refine ⟨_, by simp [cumulateR, rd, bind, Except.bind]; rfl, ?_⟩
      exact full_cons hxs
    | cons y ys =>
      obtain ⟨c', e, hc⟩ := ih hxs
      have hn : 0 < n := by have := hxs.1; simp at this; omega
      obtain ⟨s, es⟩ := hc.rd (k := 0) hn
      simp only [Nat.cast_zero] at es
      unfold cumulateR
      rw [e]
      simp only [bind, Except.bind, es]
      exact ⟨_, by simp [rd]; rfl, full_cons hc⟩

/-! ## The distance -/

theorem dtwCellR_any {A B prev : Arr K} {m r i j : ℕ} (hA : Full A m) (hB : Full B m) (hi : i < m) (hj : j < m)
    (hij : i ≤ j + r ∧ j ≤ i + r) (hp : Full prev (2 * r + 1)) {s : Row K} (hk : s.k + i = j + r) (hc : Full s.cost (2 * r + 1)) :
    ∃ s', dtwCellR ρ A B prev r i s j = .ok s' ∧ s'.k + i = j + 1 + r ∧ Full s'.cost (2 * r + 1) := by
  have hkl : s.k < 2 * r + 1 := by omega
  obtain ⟨a, ea⟩ := hA.rd hi
  obtain ⟨b, eb⟩ := hB.rd hj
  unfold dtwCellR
  by_cases h0 : i = 0 ∧ j = 0
  · obtain ⟨rfl, rfl⟩ := h0
    simp only [Nat.cast_zero] at ea eb
    obtain ⟨c', e', hc'⟩ := hc.wr hkl (sqR ρ a b)
    simp only [and_self, if_true, ea, eb, bind, Except.bind, e']
    exact ⟨_, rfl, by simp only; omega, hc'⟩
  · rw [if_neg h0]
    have ey : ∃ y, nbr ((j : Int) - 1 < 0 ∨ (s.k : Int) - 1 < 0) s.cost (s.k - 1) = .ok y := by
      by_cases hcnd : (j : Int) - 1 < 0 ∨ (s.k : Int) - 1 < 0
      · rw [nbr, if_pos hcnd]; exact ⟨_, rfl⟩
      · rw [nbr, if_neg hcnd]
        obtain ⟨y, e⟩ := hc.rd (k := s.k - 1) (by omega)
        rw [Nat.cast_sub (by omega)] at e
        exact ⟨y, e⟩
    have ex : ∃ x, nbr ((i : Int) - 1 < 0 ∨ 2 * r < s.k + 1) prev (s.k + 1) = .ok x := by
      by_cases hcnd : (i : Int) - 1 < 0 ∨ 2 * r < s.k + 1
      · rw [nbr, if_pos hcnd]; exact ⟨_, rfl⟩
      · rw [nbr, if_neg hcnd]
        obtain ⟨y, e⟩ := hp.rd (k := s.k + 1) (by omega)
        exact ⟨y, by push_cast at e; exact e⟩
    have ez : ∃ z, nbr ((i : Int) - 1 < 0 ∨ (j : Int) - 1 < 0) prev s.k = .ok z := by
      by_cases hcnd : (i : Int) - 1 < 0 ∨ (j : Int) - 1 < 0
      · rw [nbr, if_pos hcnd]; exact ⟨_, rfl⟩
      · rw [nbr, if_neg hcnd]
        exact hp.rd (k := s.k) (by omega)
    obtain ⟨y, ey⟩ := ey
    obtain ⟨x, ex⟩ := ex
    obtain ⟨z, ez⟩ := ez
    obtain ⟨c', e', hc'⟩ := hc.wr hkl (ρ (mn (mn x y) z + sqR ρ a b))
    simp only [ey, ex, ez, ea, eb, e', bind, Except.bind]
    exact ⟨_, rfl, by simp only; omega, hc'⟩

theorem dtwRowsR_any {A B cb : Arr K} {m r : ℕ} (hA : Full A m) (hB : Full B m) (hcb : Full cb m) (hm : 1 ≤ m) {bsf : Dbl K} (rows : ℕ) :
    ∀ {i k : ℕ} {cost prev : Arr K}, i + rows = m → Full cost (2 * r + 1) → Full prev (2 * r + 1) → (i = m → k = r + 1) →
      ∃ v, dtwRowsR ρ A B cb m r bsf rows i k cost prev = .ok v := by
  induction rows with
  | zero =>
    intro i k cost prev hi hc hp hk
    obtain rfl := hk (by omega)
    obtain ⟨v, e⟩ := hp.rd (k := r) (by omega)
    refine ⟨v, ?_⟩
    unfold dtwRowsR
    have : ((r + 1 : ℕ) : Int) - 1 = (r : ℕ) := by push_cast; ring
    rw [this]
    exact e
  | succ rows ih =>
    intro i k cost prev hi hc hp hk
    obtain ⟨s, e, hs1, hs2⟩ := foldlM_range'_inv (dtwCellR ρ A B prev r i) (fun j s => s.k + i = j + r ∧ Full s.cost (2 * r + 1)) (i - r)
      (min (m - 1) (i + r) + 1 - (i - r)) ⟨r - i, cost, big⟩ ⟨by simp only; omega, hc⟩
      (fun j s h1 h2 hs => by
        obtain ⟨s', e, h3, h4⟩ := dtwCellR_any (ρ := ρ) hA hB (by omega) (show j < m by omega) ⟨by omega, by omega⟩ hp hs.1 hs.2
        exact ⟨s', e, h3, h4⟩)
    unfold dtwRowsR
    rw [e]
    simp only [bind, Except.bind]
    have next : ∃ v, dtwRowsR ρ A B cb m r bsf rows (i + 1) s.k prev s.cost = .ok v := ih (by omega) hp hs2 (fun h => by omega)
    split_ifs with h1
    · obtain ⟨c, ec⟩ := hcb.rd (k := i + r + 1) (by omega)
      push_cast at ec
      rw [ec]
      simp only
      split_ifs with h2
      · exact ⟨_, rfl⟩
      · exact next
    · exact next

theorem dtwR_any {A B cb : Arr K} {m r : ℕ} (hA : Full A m) (hB : Full B m) (hcb : Full cb m) (hm : 1 ≤ m) {bsf : Dbl K} :
    ∃ v, dtwR ρ A B cb m r bsf = .ok v :=
  dtwRowsR_any hA hB hcb hm m (by omega) (full_replicate _ _) (full_replicate _ _) (fun h => by omega)

/-! ## A window -/

/-- The query that `prepareR` leaves, whatever its numbers are. -/
structure Filled (m : ℕ) (Q : Query K) : Prop where
  q : Full Q.q m
  perm : Q.order.Perm (List.range m)
  qo : Full Q.qo m
  uo : Full Q.uo m
  lo : Full Q.lo m

variable [HasSqrt K]

theorem mapM_any (f : ℕ → Res (Dbl K)) (l : List ℕ) (h : ∀ k ∈ l, ∃ x, f k = .ok x) : ∃ ys : List (Dbl K), l.mapM f = .ok ys ∧ ys.length = l.length := by
  induction l with
  | nil => exact ⟨[], rfl, rfl⟩
  | cons k l ih =>
    obtain ⟨x, hx⟩ := h k (by simp)
    obtain ⟨ys, e, hl⟩ := ih (fun k hk => h k (by simp [hk]))
    refine ⟨x :: ys, ?_, by simp [hl]⟩
    rw [List.mapM_cons, hx, e]
    rfl

theorem considerR_any {Q : Query K} {epoch m r it i : ℕ} {lbuf ubuf : Arr K} {s : St K} (hQ : Filled m Q) (hm : 3 ≤ m) (hi : m ≤ i + 1)
    (ht : ∀ k : ℕ, k < m → ∃ x, rd s.t (k + (((i + 1) % m : ℕ) : Int)) = .ok x)
    (hE : ∀ k ≤ i, (∃ x, rd ubuf (k : ℕ) = .ok x) ∧ ∃ x, rd lbuf (k : ℕ) = .ok x)
    (hp : s.pruned + 1 < 2 ^ 31) (hc1 : Full s.cb1 m) (hc2 : Full s.cb2 m) (ho : it * (epoch + 1 - m) < 2 ^ 31) (hme : m ≤ epoch) :
    ∃ s', considerR ρ Q epoch m r it lbuf ubuf i s = .ok s' ∧ s'.t = s.t ∧ Full s'.cb1 m ∧ Full s'.cb2 m ∧ s'.pruned ≤ s.pruned + 1 ∧
      (s'.loc = s.loc ∨ s'.loc = ((it * (epoch + 1 - m) + (i + 1 - m) : ℕ) : Int)) := by
  have hpc : s.kim + 1 < 2 ^ 31 ∧ s.keogh + 1 < 2 ^ 31 ∧ s.keogh2 + 1 < 2 ^ 31 := by unfold St.pruned at hp; omega
  have hlen : Q.order.length = m := by have := hQ.perm.length_eq; simpa using this
  have hmem : ∀ o ∈ Q.order, o < m := fun o h => List.mem_range.1 (hQ.perm.mem_iff.1 h)
  unfold considerR
  generalize ρ (s.ex / ofNat m) = mean
  generalize stdOfR ρ m s.ex s.ex2 = std
  obtain ⟨v0, e0⟩ := lbKimR_any (ρ := ρ) (mean := mean) (std := std) (bsf := s.bsf) hm hQ.q ht
  simp only [e0, bind, Except.bind]
  split_ifs with hk
  swap
  · simp only [incr_ok hpc.1]
    exact ⟨_, rfl, rfl, hc1, hc2, by simp [St.pruned]; omega, .inl rfl⟩
  obtain ⟨v1, cb1, e1, f1⟩ := keoghQR_any (ρ := ρ) (mean := mean) (std := std) (bsf := s.bsf) Q.order (i := 0) (lb := 0) hc1
    (by rw [Nat.zero_add, hlen]; exact hQ.uo) (by rw [Nat.zero_add, hlen]; exact hQ.lo) (fun o ho => ⟨hmem o ho, ht o (hmem o ho)⟩)
  have e1' : lbKeoghQR ρ Q.order s.t Q.uo Q.lo s.cb1 (((i + 1) % m : ℕ) : Int) mean std s.bsf = .ok (v1, cb1) := e1
  simp only [e1']
  split_ifs with hk1
  swap
  · simp only [incr_ok hpc.2.1]
    exact ⟨_, rfl, rfl, f1, hc2, by simp [St.pruned]; omega, .inl rfl⟩
  obtain ⟨tz, etz, ltz⟩ := mapM_any (fun (k : ℕ) => zAtR ρ s.t mean std ((k : Int) + (((i + 1) % m : ℕ) : Int))) (List.range m)
    (fun k hk => by obtain ⟨x, hx⟩ := ht k (List.mem_range.1 hk); exact zAtR_any hx mean std)
  have hI : ((i : Int) - (m - 1)) = ((i + 1 - m : ℕ) : Int) := by omega
  obtain ⟨v2, cb2, e2, f2⟩ := keoghDR_any (ρ := ρ) (l := lbuf) (ub := ubuf) (I := ((i + 1 - m : ℕ) : Int)) (mean := mean) (std := std) (bsf := s.bsf) Q.order (i := 0) (lb := 0) hc2
    (by rw [Nat.zero_add, hlen]; exact hQ.qo) (fun o ho => by
      have hom := hmem o ho
      have := hE (i + 1 - m + o) (by omega)
      push_cast at this
      exact ⟨hom, this⟩)
  have e2' : lbKeoghDR ρ Q.order Q.qo s.cb2 lbuf ubuf ((i : Int) - (m - 1)) mean std s.bsf = .ok (v2, cb2) := by rw [hI]; exact e2
  simp only [etz, e2']
  split_ifs with hk2 hk3 hk3
  · obtain ⟨cb, ecb, fcb⟩ := cumulateR_any (ρ := ρ) cb1 f1
    have ftz := full_map tz
    rw [ltz, List.length_range] at ftz
    obtain ⟨v, ev⟩ := dtwR_any (ρ := ρ) (r := r) (bsf := s.bsf) ftz hQ.q fcb (by omega)
    simp only [ecb, ev]
    split_ifs with hk4
    · simp only [offset_ok hme ho]
      exact ⟨_, rfl, rfl, f1, f2, by simp [St.pruned], .inr (by simp only; push_cast; omega)⟩
    · exact ⟨_, rfl, rfl, f1, f2, by simp [St.pruned], .inl rfl⟩
  · obtain ⟨cb, ecb, fcb⟩ := cumulateR_any (ρ := ρ) cb2 f2
    have ftz := full_map tz
    rw [ltz, List.length_range] at ftz
    obtain ⟨v, ev⟩ := dtwR_any (ρ := ρ) (r := r) (bsf := s.bsf) ftz hQ.q fcb (by omega)
    simp only [ecb, ev]
    split_ifs with hk4
    · simp only [offset_ok hme ho]
      exact ⟨_, rfl, rfl, f1, f2, by simp [St.pruned], .inr (by simp only; push_cast; omega)⟩
    · exact ⟨_, rfl, rfl, f1, f2, by simp [St.pruned], .inl rfl⟩
  · simp only [incr_ok hpc.2.2]
    exact ⟨_, rfl, rfl, f1, f2, by simp [St.pruned]; omega, .inl rfl⟩

/-- The variables before the point `i` of the chunk that starts at `off`, whatever the numbers are. -/
structure PointAny (data : List K) (m off i : ℕ) (s : St K) : Prop where
  ring : Ring (fun x => data.getD (off + x) 0) m i s.t
  cb1 : Full s.cb1 m
  cb2 : Full s.cb2 m
  loc : s.loc = 0 ∨ ∃ l : ℕ, s.loc = l ∧ l < off + (i + 1 - m)
  pruned : s.pruned ≤ off + (i + 1 - m)

theorem pointR_any {data : List K} {epoch m r it off ep i : ℕ} {Q : Query K} {buf lbuf ubuf : Arr K} {s : St K}
    (hm : 3 ≤ m) (hme : m ≤ epoch) (hN : data.length < 2 ^ 31)
    (hoff : off = it * (epoch + 1 - m)) (hep : off + ep ≤ data.length) (hi : i < ep) (hQ : Filled m Q)
    (hE : Enveloped (part data ep off) r lbuf ubuf) (hb : rd buf i = .ok (fin (data.getD (off + i) 0)))
    (hinv : PointAny data m off i s) :
    ∃ s', pointR ρ Q epoch m r it buf lbuf ubuf s i = .ok s' ∧ PointAny data m off (i + 1) s' := by
  obtain ⟨t', t'', et, et', hring⟩ := hinv.ring.step (by omega)
  unfold pointR
  have hm0 : m ≠ 0 := by omega
  simp only [hb, bind, Except.bind, hm0, if_false, et, et']
  by_cases hw : m - 1 ≤ i
  swap
  · rw [if_neg hw]
    have e1 : i + 1 + 1 - m = i + 1 - m := by omega
    exact ⟨_, rfl, hring, hinv.cb1, hinv.cb2, by rw [e1]; exact hinv.loc, by rw [e1]; exact hinv.pruned⟩
  rw [if_pos hw]
  have e1 : i + 1 + 1 - m = i + 1 - m + 1 := by omega
  obtain ⟨lo, up, henv, -⟩ := hE
  have hpl : (part data ep off).length = ep := part_length hep
  obtain ⟨s', e, h1, h2, h3, h4, h5⟩ := considerR_any (ρ := ρ) (epoch := epoch) (r := r) (it := it) (i := i) (lbuf := lbuf) (ubuf := ubuf)
    (s := { s with ex := ρ (s.ex + fin (data.getD (off + i) 0)), ex2 := ρ (s.ex2 + ρ (fin (data.getD (off + i) 0) * fin (data.getD (off + i) 0))), t := t'' })
    hQ hm (by omega) (fun k hk => ⟨_, hring.window (by omega) (by omega) k hk⟩)
    (fun k hk => by
      obtain ⟨a, b⟩ := henv k (by omega)
      exact ⟨⟨_, rd_some a⟩, _, rd_some b⟩)
    (by have := hinv.pruned; simp only [St.pruned] at this ⊢; omega) hinv.cb1 hinv.cb2 (by omega) hme
  rw [e]
  have hx := hring.window (by omega) (show m ≤ i + 1 by omega) 0 (by omega)
  simp only [Nat.cast_zero, zero_add, Nat.add_zero] at hx
  simp only [h1, hx]
  refine ⟨_, rfl, hring, h2, h3, ?_, ?_⟩
  · rw [e1]
    simp only
    rcases h5 with h5 | h5
    · rw [h5]
      rcases hinv.loc with h6 | ⟨l, h6, h7⟩
      · exact .inl h6
      · exact .inr ⟨l, h6, by omega⟩
    · exact .inr ⟨_, h5, by rw [hoff]; omega⟩
  · have := hinv.pruned
    rw [e1]
    simp only [St.pruned] at h4 this ⊢
    omega

theorem pointsR_any {data : List K} {epoch m r it off ep : ℕ} {Q : Query K} {buf lbuf ubuf : Arr K} {s : St K}
    (hm : 3 ≤ m) (hme : m ≤ epoch) (hN : data.length < 2 ^ 31)
    (hoff : off = it * (epoch + 1 - m)) (hep : off + ep ≤ data.length) (hQ : Filled m Q)
    (hE : Enveloped (part data ep off) r lbuf ubuf) (hb : ∀ i : ℕ, i < ep → rd buf (i : Int) = .ok (fin (data.getD (off + i) 0)))
    (hinv : PointAny data m off 0 s) :
    ∃ s', (List.range ep).foldlM (pointR ρ Q epoch m r it buf lbuf ubuf) s = .ok s' ∧ PointAny data m off ep s' := by
  have key : ∀ n, n ≤ ep → ∃ s', (List.range n).foldlM (pointR ρ Q epoch m r it buf lbuf ubuf) s = .ok s' ∧ PointAny data m off n s' := by
    intro n
    induction n with
    | zero => intro _; exact ⟨s, rfl, hinv⟩
    | succ n ih =>
      intro hn
      obtain ⟨s', e, hs⟩ := ih (by omega)
      obtain ⟨s'', e', hs'⟩ := pointR_any (ρ := ρ) hm hme hN hoff hep (by omega) hQ hE (hb n (by omega)) hs
      refine ⟨s'', ?_, hs'⟩
      rw [List.range_succ, List.foldlM_append, e]
      simp only [List.foldlM_cons, List.foldlM_nil, bind, Except.bind, e', pure, Except.pure]
  exact key ep le_rfl

/-- The variables between two chunks, whatever the numbers are. -/
structure RunAny (m N : ℕ) (s : St K) : Prop where
  t : s.t.length = 2 * m
  cb1 : Full s.cb1 m
  cb2 : Full s.cb2 m
  loc : s.loc = 0 ∨ ∃ l : ℕ, s.loc = l ∧ l < N
  pruned : s.pruned ≤ N

/-- What is reported, whatever the numbers are. -/
def ReportsAny (N : ℕ) (rep : Report K) : Prop :=
  rep.kim + rep.keogh + rep.keogh2 ≤ N ∧ (rep.location = 0 ∨ ∃ l : ℕ, rep.location = l ∧ l < N)

theorem chunksR_any {data : List K} {epoch m r : ℕ} {Q : Query K}
    (hm : 3 ≤ m) (hme : m ≤ epoch) (hepoch : epoch ≤ 1000000) (hN : data.length < 2 ^ 31) (hr : r < m)
    (hQ : Filled m Q) (fuel : ℕ) :
    ∀ (it : ℕ) (f : Input K) (d : Option (Dbl K)) (buf : Arr K) (s : St K), 1 ≤ fuel →
      data.length < it * (epoch + 1 - m) + (m - 1) + fuel * (epoch + 1 - m) →
      BufInv data m epoch it f buf → RunAny m (it * (epoch + 1 - m)) s →
      ∃ rep, chunksR ρ Q epoch m r fuel it f d buf s = .ok rep ∧ rep.scanned = (max data.length (m - 1) : ℕ) ∧
        ReportsAny (data.length + 1 - m) rep := by
  refine chunksR_gen (Inv := RunAny m) (Post := ReportsAny) (by omega) hme hepoch hN hr ?_ ?_ fuel
  · intro it off ep buf lbuf ubuf s hoff hep hmep hee hE hb hR
    obtain ⟨s', e, hs⟩ := pointsR_any (ρ := ρ) (it := it) hm hme hN hoff hep hQ hE (buf := buf) (s := { s with ex := 0, ex2 := 0 }) hb
      { ring := ⟨hR.t, fun x hx => by omega⟩
        cb1 := hR.cb1, cb2 := hR.cb2
        loc := by rw [show off + (0 + 1 - m) = off by omega]; exact hR.loc
        pruned := by simpa [St.pruned] using _root_.le_trans hR.pruned (by omega) }
    exact ⟨s', e, hs.ring.1, hs.cb1, hs.cb2, hs.loc, hs.pruned⟩
  · intro it ep N s ho hR
    unfold reportR
    simp only [offset_ok hme ho, bind, Except.bind]
    exact ⟨_, rfl, by simp, hR.pruned, hR.loc⟩

/-! ## The query -/

theorem readQueryR_any (m : ℕ) (rem : ℕ) : ∀ (f : Input K) (q : Arr K) (ex ex2 : Dbl K) (d : Option (Dbl K)), rem ≤ m → q.length = m → rem ≤ f.nums.length →
    ∃ s, readQueryR ρ m rem f ⟨q, ex, ex2, d⟩ = .ok s ∧ s.q = q.take (m - rem) ++ lift (f.nums.take rem) := by
  induction rem with
  | zero =>
    intro f q ex ex2 d _ hq _
    obtain ⟨nums, bad⟩ := f
    cases nums with
    | cons x xs => exact ⟨_, rfl, by simp [lift, hq.le]⟩
    | nil =>
      cases bad
      · exact ⟨_, rfl, by simp [lift, hq.le]⟩
      · exact ⟨_, rfl, by simp [lift, hq.le]⟩
  | succ rem ih =>
    intro f q ex ex2 d hrm hq hl
    obtain ⟨nums, bad⟩ := f
    cases nums with
    | nil => simp at hl
    | cons x xs =>
      simp only [List.length_cons] at hl
      obtain ⟨s, e, h1⟩ := ih ⟨xs, bad⟩ (q.set (m - (rem + 1)) (some (fin x))) (ρ (ex + fin x)) (ρ (ex2 + ρ (fin x * fin x))) (some (fin x)) (by omega)
        (by simp [hq]) (by simpa using hl)
      refine ⟨s, ?_, ?_⟩
      · show (do
          let q ← wr q ((m - (rem + 1) : ℕ) : Int) (fin x)
          readQueryR ρ m rem ⟨xs, bad⟩ ⟨q, ρ (ex + fin x), ρ (ex2 + ρ (fin x * fin x)), some (fin x)⟩) = _
        simp only [wr_ok (c := q) (k := m - (rem + 1)) (fin x) (by omega), bind, Except.bind]
        exact e
      · rw [h1, show m - rem = m - (rem + 1) + 1 by omega, List.take_add_one, List.take_set_of_le (by omega), List.getElem?_set_self (by omega)]
        simp [lift]

theorem prepareR_any (S : Sorter K) {m r : ℕ} {qf : Input K} (hr : r < m) (hl : m ≤ qf.nums.length) :
    (∃ Q d, prepareR ρ S m r qf = .ok (Q, d) ∧ Filled m Q) ∨ prepareR ρ S m r qf = .error (.ub "conversion to int") := by
  obtain ⟨s, e, h1⟩ := readQueryR_any (ρ := ρ) m m qf (alloc m) 0 0 none le_rfl (by simp [alloc]) hl
  have hlen : (qf.nums.take m).length = m := by simp; omega
  have h1' : s.q = lift (qf.nums.take m) := by rw [h1]; simp
  unfold prepareR
  simp only [e, bind, Except.bind, h1', readAll_lift]
  generalize hz : ((qf.nums.take m).map fin).map (fun x => ρ (ρ (x - ρ (s.ex / ofNat m)) / stdOfR ρ m s.ex s.ex2)) = z
  have hzl : z.length = m := by rw [← hz]; simp; omega
  obtain ⟨lo, up, el, ol, ou⟩ := lemire_done false z r (by omega)
  simp only [el]
  split_ifs with hcmp
  swap
  · exact .inr rfl
  refine .inl ⟨_, _, rfl, ?_⟩
  have hp := S.perm z
  rw [hzl] at hp
  have hsl : (S.sort z).length = m := by have := hp.length_eq; simpa using this
  have hmem : ∀ k < m, ∃ o, (S.sort z)[k]? = some o ∧ o < m := by
    intro k hk
    refine ⟨(S.sort z)[k], by simp, ?_⟩
    exact List.mem_range.1 (hp.mem_iff.1 (List.getElem_mem _))
  refine ⟨by rw [← hzl]; exact full_map z, hp, ⟨by simp [hsl], fun k hk => ?_⟩, ⟨by simp [hsl], fun k hk => ?_⟩, ⟨by simp [hsl], fun k hk => ?_⟩⟩
  · obtain ⟨o, ho, hom⟩ := hmem k hk
    have : o < z.length := by omega
    exact ⟨z[o], by simp [ho, this]⟩
  · obtain ⟨o, ho, hom⟩ := hmem k hk
    obtain ⟨x, hx, -⟩ := ou.1 o (by omega)
    exact ⟨_, by simp [ho, hx]; rfl⟩
  · obtain ⟨o, ho, hom⟩ := hmem k hk
    obtain ⟨x, hx, -⟩ := ol.1 o (by omega)
    exact ⟨_, by simp [ho, hx]; rfl⟩

/-! ## Nothing rounded -/

theorem keoghQR_id (t uo lo : Arr K) (j : Int) (mean std bsf : Dbl K) (is : List ℕ) : ∀ (i : ℕ) (lb : Dbl K) (cb : Arr K),
    keoghQR id t uo lo j mean std bsf is i lb cb = keoghQ t uo lo j mean std bsf is i lb cb := by
  induction is with
  | nil => intro i lb cb; rfl
  | cons o is ih =>
    intro i lb cb
    unfold keoghQR keoghQ
    simp only [ih]
    rfl

theorem keoghDR_id (qo l u : Arr K) (I : Int) (mean std bsf : Dbl K) (is : List ℕ) : ∀ (i : ℕ) (lb : Dbl K) (cb : Arr K),
    keoghDR id qo l u I mean std bsf is i lb cb = keoghD qo l u I mean std bsf is i lb cb := by
  induction is with
  | nil => intro i lb cb; rfl
  | cons o is ih =>
    intro i lb cb
    unfold keoghDR keoghD
    simp only [ih]
    rfl

theorem dtwRowsR_id (A B cb : Arr K) (m r : ℕ) (bsf : Dbl K) (rows : ℕ) : ∀ (i k : ℕ) (cost prev : Arr K),
    dtwRowsR id A B cb m r bsf rows i k cost prev = dtwRows A B cb m r bsf rows i k cost prev := by
  induction rows with
  | zero => intro i k cost prev; rfl
  | succ rows ih =>
    intro i k cost prev
    unfold dtwRowsR dtwRows
    simp only [ih]
    rfl

theorem cumulateR_id (c : Arr K) : cumulateR id c = cumulate c := by
  induction c with
  | nil => rfl
  | cons x xs ih =>
    cases xs with
    | nil => rfl
    | cons y ys =>
      unfold cumulateR cumulate
      rw [ih]
      rfl

theorem readQueryR_id (m rem : ℕ) : ∀ (f : Input K) (s : Read K), readQueryR id m rem f s = readQuery m rem f s := by
  induction rem with
  | zero =>
    intro f s
    unfold readQueryR readQuery
    cases f.scan <;> rfl
  | succ rem ih =>
    intro f s
    unfold readQueryR readQuery
    cases f.scan <;> simp only [ih] <;> rfl

theorem prepareR_id (S : Sorter K) (m : ℕ) (r : Int) (qf : Input K) : prepareR id S m r qf = prepare S m r qf := by
  unfold prepareR prepare
  rw [readQueryR_id]
  rfl

theorem considerR_id (Q : Query K) (epoch m r it : ℕ) (lbuf ubuf : Arr K) (i : ℕ) (s : St K) :
    considerR id Q epoch m r it lbuf ubuf i s = consider Q epoch m r it lbuf ubuf i s := by
  unfold considerR consider lbKeoghQR lbKeoghQ lbKeoghDR lbKeoghD dtwR dtw
  simp only [keoghQR_id, keoghDR_id, dtwRowsR_id, cumulateR_id]
  rfl

theorem pointR_id (Q : Query K) (epoch m r it : ℕ) (buf lbuf ubuf : Arr K) : pointR id Q epoch m r it buf lbuf ubuf = point Q epoch m r it buf lbuf ubuf := by
  funext s i
  unfold pointR point
  simp only [considerR_id]
  rfl

theorem chunksR_id (Q : Query K) (epoch m : ℕ) (r : Int) (fuel : ℕ) : ∀ (it : ℕ) (f : Input K) (d : Option (Dbl K)) (buf : Arr K) (s : St K),
    chunksR id Q epoch m r fuel it f d buf s = chunks Q epoch m r fuel it f d buf s := by
  induction fuel with
  | zero => intro it f d buf s; rfl
  | succ fuel ih =>
    intro it f d buf s
    unfold chunksR chunks
    simp only [ih, pointR_id]
    rfl

theorem searchR_id (S : Sorter K) (epoch fuel : ℕ) (data query : Option (Input K)) (m : ℕ) (r : Int) :
    searchR id S epoch fuel data query m r = search S epoch fuel data query m r := by
  unfold searchR search
  cases data <;> cases query <;> simp only [prepareR_id, chunksR_id]

end Genex.Ucr
