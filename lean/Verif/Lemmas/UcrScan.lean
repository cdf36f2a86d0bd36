import Verif.Lemmas.UcrWindow

/-! The points of a chunk. -/

set_option linter.unusedSectionVars false

namespace Genex.Ucr

open Dbl Spec

variable {K : Type} [Field K] [LinearOrder K] [IsStrictOrderedRing K]

/-- The circular array holds the last `m` points before `i`, twice. -/
def Ring (f : ℕ → K) (m i : ℕ) (t : Arr K) : Prop :=
  t.length = 2 * m ∧ ∀ x, x < i → i ≤ x + m → t[x % m]? = some (some (fin (f x))) ∧ t[x % m + m]? = some (some (fin (f x)))

theorem mod_ne {m x i : ℕ} (h1 : x < i) (h2 : i < x + m) : x % m ≠ i % m := by
  intro h
  have h3 : (i - x) % m = 0 := Nat.sub_mod_eq_zero_of_mod_eq h.symm
  have h4 : (i - x) % m = i - x := Nat.mod_eq_of_lt (by omega)
  omega

theorem Ring.step {f : ℕ → K} {m i : ℕ} {t : Arr K} (hm : 1 ≤ m) (h : Ring f m i t) :
    ∃ t' t'', wr t (i % m : ℕ) (fin (f i)) = .ok t' ∧ wr t' ((i % m) + m : ℕ) (fin (f i)) = .ok t'' ∧ Ring f m (i + 1) t'' := by
  have hlt : i % m < m := Nat.mod_lt _ hm
  refine ⟨_, _, wr_ok _ (by rw [h.1]; omega), wr_ok _ (by simp [h.1]; omega), by simp [h.1], fun x h1 h2 => ?_⟩
  by_cases e : x = i
  · subst e
    constructor
    · rw [List.getElem?_set_ne (by omega), List.getElem?_set_self (by rw [h.1]; omega)]
    · rw [List.getElem?_set_self (by simp [h.1]; omega)]
  · have hne := mod_ne (m := m) (show x < i by omega) (by omega)
    have hx : x % m < m := Nat.mod_lt _ hm
    obtain ⟨a, b⟩ := h.2 x (by omega) (by omega)
    constructor
    · rw [List.getElem?_set_ne (by omega), List.getElem?_set_ne (Ne.symm hne)]; exact a
    · rw [List.getElem?_set_ne (by omega), List.getElem?_set_ne (by omega)]; exact b

theorem Ring.window {f : ℕ → K} {m i : ℕ} {t : Arr K} (hm : 1 ≤ m) (h : Ring f m (i + 1) t) (hi : m ≤ i + 1) (k : ℕ) (hk : k < m) :
    rd t (k + (((i + 1) % m : ℕ) : Int)) = .ok (fin (f (i + 1 - m + k))) := by
  obtain ⟨a, b⟩ := h.2 (i + 1 - m + k) (by omega) (by omega)
  have hj : (i + 1) % m < m := Nat.mod_lt _ hm
  have e : (i + 1 - m + k) % m = ((i + 1) % m + k) % m := by
    rw [Nat.mod_add_mod, ← Nat.add_mod_right (i + 1 - m + k) m]
    congr 1
    omega
  have c : ((k : Int) + (((i + 1) % m : ℕ) : Int)) = ((k + (i + 1) % m : ℕ) : Int) := by push_cast; ring
  rw [c]
  apply rd_some
  by_cases hlt : (i + 1) % m + k < m
  · rw [Nat.mod_eq_of_lt hlt] at e
    rw [e] at a
    rw [show k + (i + 1) % m = (i + 1) % m + k by omega]
    exact a
  · have : ((i + 1) % m + k) % m = (i + 1) % m + k - m := by
      rw [Nat.mod_eq_sub_mod (by omega), Nat.mod_eq_of_lt (by omega)]
    rw [this] at e
    rw [e] at b
    rw [show k + (i + 1) % m = (i + 1) % m + k - m + m by omega]
    exact b

/-! ## Parts -/

theorem part_getD (x : List K) (m i k : ℕ) (hk : k < m) : (part x m i).getD k 0 = x.getD (i + k) 0 := by
  simp [part, List.getD, hk]

theorem part_length {x : List K} {m i : ℕ} (h : i + m ≤ x.length) : (part x m i).length = m := by
  simp [part]; omega

theorem part_eq {x : List K} {m i : ℕ} (h : i + m ≤ x.length) : part x m i = (List.range m).map fun k => x.getD (i + k) 0 := by
  apply List.ext_getElem?
  intro k
  by_cases hk : k < m
  · have : i + k < x.length := by omega
    simp [part, hk, List.getD, this]
  · rw [List.getElem?_eq_none (by rw [part_length h]; omega), List.getElem?_eq_none (by simp; omega)]

theorem part_sum {x : List K} {m i : ℕ} (h : i + m ≤ x.length) (g : K → K) :
    ((part x m i).map g).sum = ∑ k ∈ Finset.Ico i (i + m), g (x.getD k 0) := by
  rw [part_eq h, List.map_map, Finset.sum_Ico_eq_sum_range, ← range_sum]
  simp [Function.comp_def]

theorem part_sum' {x : List K} {m i : ℕ} (h : i + m ≤ x.length) : (part x m i).sum = ∑ k ∈ Finset.Ico i (i + m), x.getD k 0 := by
  have := part_sum h id
  simpa using this

theorem part_part {x : List K} {ep off m i : ℕ} (h : i + m ≤ ep) : part (part x ep off) m i = part x m (off + i) := by
  unfold part
  rw [List.drop_take, List.drop_drop, List.take_take, min_eq_left (by omega)]

/-! ## The best so far -/

variable [HasSqrt K] [LawfulSqrt K]

/-- The best of the windows before `n`. -/
def Best (data query : List K) (r n : ℕ) (bsf : K) (loc : Int) : Prop :=
  (bsf = 10 ^ 20 ∧ loc = 0 ∧ ∀ i < n, Flat (part data query.length i)) ∨ ∃ l : ℕ, loc = l ∧ Nearest data query r n l bsf

section
variable {data query : List K} {r n : ℕ} {bsf : K} {loc : Int}

theorem Best.flat (h : Best data query r n bsf loc) (hf : Flat (part data query.length n)) : Best data query r (n + 1) bsf loc := by
  rcases h with ⟨h1, h2, h3⟩ | ⟨l, h1, h2⟩
  · refine .inl ⟨h1, h2, fun i hi => ?_⟩
    by_cases e : i = n
    · rw [e]; exact hf
    · exact h3 i (by omega)
  · refine .inr ⟨l, h1, by have := h2.lt; omega, h2.rough, h2.dist, fun i hi hr => ?_⟩
    by_cases e : i = n
    · subst e; exact absurd hf hr
    · exact h2.first i (by omega) hr

theorem Best.worse (h : Best data query r n bsf loc) {D : K} (hD : Apart r (standardised (part data query.length n)) (standardised query) D)
    (hb : D < 10 ^ 20) (hle : ¬ D < bsf) : Best data query r (n + 1) bsf loc := by
  rcases h with ⟨rfl, h2, h3⟩ | ⟨l, h1, h2⟩
  · exact absurd hb hle
  · refine .inr ⟨l, h1, by have := h2.lt; omega, h2.rough, h2.dist, fun i hi hr D' hD' => ?_⟩
    by_cases e : i = n
    · subst e
      rw [hD'.unique hD]
      exact ⟨_root_.not_lt.1 hle, fun h => by have := h2.lt; omega⟩
    · exact h2.first i (by omega) hr D' hD'

theorem Best.better (h : Best data query r n bsf loc) (hf : ¬ Flat (part data query.length n)) {D : K}
    (hD : Apart r (standardised (part data query.length n)) (standardised query) D) (hlt : D < bsf) :
    Best data query r (n + 1) D n := by
  refine .inr ⟨n, rfl, by omega, hf, hD, fun i hi hr D' hD' => ?_⟩
  by_cases e : i = n
  · subst e
    rw [hD'.unique hD]
    exact ⟨le_rfl, fun h => by omega⟩
  · rcases h with ⟨-, -, h3⟩ | ⟨l, h1, h2⟩
    · exact absurd (h3 i (by omega)) hr
    · have := (h2.first i (by omega) hr D' hD').1
      exact ⟨by linarith, fun _ => by linarith⟩

theorem Best.le_big (h : Best data query r n bsf loc) (hm : 1 ≤ query.length) (hn : n + query.length ≤ data.length + 1) (hq : ¬ Flat query)
    (hb : (4 * query.length : K) < 10 ^ 20) : bsf ≤ 10 ^ 20 := by
  rcases h with ⟨rfl, -⟩ | ⟨l, -, h⟩
  · exact le_rfl
  · have := apart_le (part_length (by have := h.lt; omega)) rfl hm h.rough hq h.dist
    linarith
end

/-- The variables before the point `i` of the chunk that starts at `off`. -/
structure PointInv (data query : List K) (r off i : ℕ) (s : St K) : Prop where
  ring : Ring (fun x => data.getD (off + x) 0) query.length i s.t
  ex : s.ex = fin (∑ x ∈ Finset.Ico (i + 1 - query.length) i, data.getD (off + x) 0)
  ex2 : s.ex2 = fin (∑ x ∈ Finset.Ico (i + 1 - query.length) i, data.getD (off + x) 0 ^ 2)
  cb1 : s.cb1.length = query.length
  cb2 : s.cb2.length = query.length
  best : ∃ bsf, s.bsf = fin bsf ∧ Best data query r (off + (i + 1 - query.length)) bsf s.loc
  pruned : s.pruned ≤ off + (i + 1 - query.length)

theorem point_ok {data query : List K} {epoch m r it off ep i : ℕ} {Q : Query K} {buf lbuf ubuf : Arr K} {s : St K}
    (hq : query.length = m) (hnf : ¬ Flat query) (hm : 6 ≤ m) (hme : m ≤ epoch) (hbig : (4 * m : K) < 10 ^ 20) (hN : data.length < 2 ^ 31)
    (hoff : off = it * (epoch + 1 - m)) (hep : off + ep ≤ data.length) (hi : i < ep) (hQ : Prepared (standardised query) m r Q)
    (hE : Enveloped (part data ep off) r lbuf ubuf) (hb : rd buf i = .ok (fin (data.getD (off + i) 0)))
    (h : PointInv data query r off i s) :
    ∃ s', point Q epoch m r it buf lbuf ubuf s i = .ok s' ∧ PointInv data query r off (i + 1) s' := by
  subst hq
  obtain ⟨t', t'', et, et', hring⟩ := h.ring.step (by omega)
  have hex : s.ex + fin (data.getD (off + i) 0) = fin (∑ x ∈ Finset.Ico (i + 1 - query.length) (i + 1), data.getD (off + x) 0) := by
    rw [h.ex, fin_add_fin, Finset.sum_Ico_succ_top (by omega)]
  have hex2 : s.ex2 + fin (data.getD (off + i) 0) * fin (data.getD (off + i) 0) =
      fin (∑ x ∈ Finset.Ico (i + 1 - query.length) (i + 1), data.getD (off + x) 0 ^ 2) := by
    rw [h.ex2, fin_mul_fin, fin_add_fin, Finset.sum_Ico_succ_top (by omega), pow_two (data.getD (off + i) 0)]
  unfold point
  have hm0 : query.length ≠ 0 := by omega
  simp only [hb, bind, Except.bind, hm0, if_false, et, et', hex, hex2]
  obtain ⟨bsf, hbs, hbest⟩ := h.best
  by_cases hw : query.length - 1 ≤ i
  swap
  · rw [if_neg hw]
    have e1 : i + 1 + 1 - query.length = i + 1 - query.length := by omega
    refine ⟨_, rfl, hring, by rw [e1], by rw [e1], h.cb1, h.cb2, ⟨bsf, hbs, by rw [e1]; exact hbest⟩, by rw [e1]; exact h.pruned⟩
  rw [if_pos hw]
  have e1 : i + 1 + 1 - query.length = i + 1 - query.length + 1 := by omega
  have hpl : off + (i + 1 - query.length) + query.length ≤ data.length := by omega
  have hps : ∀ g : K → K, ((part data query.length (off + (i + 1 - query.length))).map g).sum =
      ∑ x ∈ Finset.Ico (i + 1 - query.length) (i + 1), g (data.getD (off + x) 0) := by
    intro g
    rw [part_sum hpl, Finset.sum_Ico_eq_sum_range, Finset.sum_Ico_eq_sum_range,
      show off + (i + 1 - query.length) + query.length - (off + (i + 1 - query.length)) = query.length by omega,
      show i + 1 - (i + 1 - query.length) = query.length by omega]
    simp only [Nat.add_assoc]
  have hwl := part_length hpl
  have hs1 := hps id
  simp only [List.map_id, id] at hs1
  have hs2 := hps (fun x => x ^ 2)
  -- the window
  have hcons : ∃ s', consider Q epoch query.length r it lbuf ubuf i { s with
      ex := fin (∑ x ∈ Finset.Ico (i + 1 - query.length) (i + 1), data.getD (off + x) 0),
      ex2 := fin (∑ x ∈ Finset.Ico (i + 1 - query.length) (i + 1), data.getD (off + x) 0 ^ 2), t := t'' } = .ok s' ∧
      s'.t = t'' ∧ s'.ex = fin (∑ x ∈ Finset.Ico (i + 1 - query.length) (i + 1), data.getD (off + x) 0) ∧
      s'.ex2 = fin (∑ x ∈ Finset.Ico (i + 1 - query.length) (i + 1), data.getD (off + x) 0 ^ 2) ∧
      s'.cb1.length = query.length ∧ s'.cb2.length = query.length ∧ s'.pruned ≤ s.pruned + 1 ∧
      ∃ bsf, s'.bsf = fin bsf ∧ Best data query r (off + (i + 1 - query.length) + 1) bsf s'.loc := by
    have hpr : s.pruned + 1 < 2 ^ 31 := by have := h.pruned; omega
    have ht : ∀ k : ℕ, k < query.length → rd t'' (k + (((i + 1) % query.length : ℕ) : Int)) =
        .ok (fin ((part data query.length (off + (i + 1 - query.length))).getD k 0)) := by
      intro k hk
      rw [hring.window (by omega) (by omega) k hk, part_getD _ _ _ _ hk, Nat.add_assoc]
    by_cases hf : Flat (part data query.length (off + (i + 1 - query.length)))
    · have := consider_flat (epoch := epoch) (it := it) (lbuf := lbuf) (ubuf := ubuf) (i := i) (s := { s with
        ex := fin (∑ x ∈ Finset.Ico (i + 1 - query.length) (i + 1), data.getD (off + x) 0),
        ex2 := fin (∑ x ∈ Finset.Ico (i + 1 - query.length) (i + 1), data.getD (off + x) 0 ^ 2), t := t'' }) hQ (by omega) hwl hf
        (by rw [hs1]) (by rw [hs2]) ht hpr
      refine ⟨_, this, rfl, rfl, rfl, h.cb1, h.cb2, by simp [St.pruned]; omega, bsf, hbs, hbest.flat hf⟩
    · obtain ⟨D, hD⟩ := exists_apart (a := standardised (part data query.length (off + (i + 1 - query.length))))
        (b := standardised query) r (by rw [standardised_length]; exact hwl) (standardised_length _)
      have hDle := apart_le hwl rfl (by omega) hf hnf hD
      obtain ⟨s', e, hk, hlt, hge⟩ := consider_ok (epoch := epoch) (it := it) (i := i) (s := { s with
        ex := fin (∑ x ∈ Finset.Ico (i + 1 - query.length) (i + 1), data.getD (off + x) 0),
        ex2 := fin (∑ x ∈ Finset.Ico (i + 1 - query.length) (i + 1), data.getD (off + x) 0 ^ 2), t := t'' }) hQ hE hm (by omega)
        (by rw [part_length (by omega)]; exact hi) hwl
        (by
          intro k hk
          rw [part_getD _ _ _ _ hk, part_getD _ _ _ _ (by omega), Nat.add_assoc]) hf
        (by rw [hs1]) (by rw [hs2]) ht hpr h.cb1 h.cb2 hbs (hbest.le_big (by omega) (by omega) hnf hbig) (by omega) hme hD
      refine ⟨s', e, hk.t, hk.ex, hk.ex2, hk.cb1, hk.cb2, hk.pruned, ?_⟩
      by_cases hc : D < bsf
      · obtain ⟨h1, h2⟩ := hlt hc
        rw [← hoff] at h2
        exact ⟨D, h1, by rw [h2]; exact hbest.better hf hD hc⟩
      · obtain ⟨h1, h2⟩ := hge hc
        refine ⟨bsf, by rw [h1]; exact hbs, by rw [h2]; exact hbest.worse hD (by linarith) hc⟩
  obtain ⟨s', e, h1, h2, h3, h4, h5, h6, bsf', h7, h8⟩ := hcons
  rw [e]
  have hx := hring.window (by omega) (show query.length ≤ i + 1 by omega) 0 (by omega)
  simp only [Nat.cast_zero, zero_add, Nat.add_zero] at hx
  simp only [h1, hx, h2, h3, fin_mul_fin, fin_sub_fin]
  refine ⟨_, rfl, hring, ?_, ?_, h4, h5, ⟨bsf', h7, by rw [e1, ← Nat.add_assoc]; exact h8⟩, ?_⟩
  · rw [Finset.sum_eq_sum_Ico_succ_bot (show i + 1 - query.length < i + 1 by omega), e1]
    simp
  · show fin _ = fin _
    rw [Finset.sum_eq_sum_Ico_succ_bot (show i + 1 - query.length < i + 1 by omega), e1]
    rw [pow_two, add_sub_cancel_left]
  · have := h.pruned
    rw [e1]
    simp only [St.pruned] at h6 this ⊢
    omega

end Genex.Ucr
