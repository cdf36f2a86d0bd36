import Verif.Lemmas.Normalize
import Verif.Lemmas.Paa
import Verif.Lemmas.Float
import Verif.Lemmas.Rounded
import Verif.Model.RoundedData

/-! Normalisation and piecewise aggregate approximation in rounded arithmetic. -/

set_option linter.unusedSectionVars false

namespace Genex

open Spec Dbl

variable {K : Type} [Field K] [LinearOrder K] [IsStrictOrderedRing K] {rd : K → K}

/-! ### Approximation -/

/-- The sum of some values as computed. -/
def blockSumR (rd : K → K) (l : List K) : K := l.foldl (fun s x => rd (s + x)) 0

theorem blockSumR_nil : blockSumR rd [] = 0 := rfl

theorem take_succ_blockSumR (l : List K) (i : ℕ) (y : K) (h : l[i]? = some y) : blockSumR rd (l.take (i + 1)) = rd (blockSumR rd (l.take i) + y) := by
  rw [List.take_add_one, h]
  simp [blockSumR]

/-- The mean of block `j` as computed. -/
def blockMeanR (rd : K → K) (b : ℕ) (x : List K) (j : ℕ) : K :=
  rd (blockSumR rd ((x.drop (j * b)).take b) / (((x.drop (j * b)).take b).length : K))

/-- All block means. -/
def paaOfR (rd : K → K) (b : ℕ) (x : List K) : List K := (List.range ((x.length - 1) / b + 1)).map (blockMeanR rd b x)

theorem paaLoopR_ok {b : ℕ} (hb : 1 ≤ b) (x : List K) (hx : 1 ≤ x.length) : ∀ (rest : List K) (i : ℕ) (dest : List (Dbl K)),
    x.drop i = rest → i ≤ x.length → i + rest.length = x.length → dest.length = (x.length - 1) / b + 1 →
    (∀ j, j < i / b → dest[j]? = some (fin (blockMeanR rd b x j))) → rest ≠ [] →
    paaLoopR rd b x.length (rest.map fin) i (fin (blockSumR rd ((x.drop (i / b * b)).take (i % b)))) (i % b) dest =
      .ok ((paaOfR rd b x).map fin) := by
  intro rest
  induction rest with
  | nil => intro i dest _ _ _ _ _ h; exact absurd rfl h
  | cons y ys ih =>
    intro i dest hd hi hlen hdl hdone _
    have hib : i / b * b + i % b = i := Nat.div_add_mod' i b
    have hmod : i % b < b := Nat.mod_lt _ (by omega)
    have hin : i < x.length := by simp only [List.length_cons] at hlen; omega
    have hy : x[i]? = some y := by
      have := congrArg (fun l => l[0]?) hd
      simpa using this
    have hsum : rnd rd (fin (blockSumR rd (List.take (i % b) (List.drop (i / b * b) x))) + fin y) =
        fin (blockSumR rd (List.take (i % b + 1) (List.drop (i / b * b) x))) := by
      rw [fin_add_fin, rnd, take_succ_blockSumR _ _ y]
      rw [List.getElem?_drop, hib, hy]
    have hdys : x.drop (i + 1) = ys := by
      rw [← List.tail_drop, hd]; rfl
    have hlys : i + 1 + ys.length = x.length := by simp only [List.length_cons] at hlen; omega
    have hdivlt : i / b < dest.length := by
      rw [hdl]
      have := Nat.div_le_div_right (c := b) (show i ≤ x.length - 1 by omega)
      omega
    rw [List.map_cons, paaLoopR, hsum]
    by_cases hc : ((i % b : ℕ) : Int) + 1 = b ∨ (i : Int) = (x.length : Int) - 1
    · rw [if_pos hc]
      have htd : (i : Int).tdiv b = ((i / b : ℕ) : Int) := by
        rw [Int.tdiv_eq_ediv_of_nonneg (by omega)]; norm_cast
      have hmean : rnd rd (fin (blockSumR rd (List.take (i % b + 1) (List.drop (i / b * b) x))) / Dbl.ofNat (i % b + 1)) =
          fin (blockMeanR rd b x (i / b)) := by
        unfold Dbl.ofNat
        rw [fin_div_fin (by positivity), rnd]
        unfold blockMeanR
        have hl : (List.drop (i / b * b) x).length = x.length - i / b * b := List.length_drop
        have ht : List.take (i % b + 1) (List.drop (i / b * b) x) = List.take b (List.drop (i / b * b) x) := by
          rcases hc with hc | hc
          · rw [show i % b + 1 = b by omega]
          · rw [List.take_of_length_le (by omega), List.take_of_length_le (by omega)]
        rw [ht, List.length_take, hl]
        rcases hc with hc | hc
        · rw [show min b (x.length - i / b * b) = i % b + 1 by omega]
        · rw [show min b (x.length - i / b * b) = i % b + 1 by omega]
      rw [htd, hmean]
      unfold setPoint
      rw [if_neg (not_or.2 ⟨_root_.not_lt.2 (Int.natCast_nonneg _), _root_.not_le.2 (by exact_mod_cast hdivlt)⟩)]
      simp only [bind, Except.bind, Int.toNat_natCast]
      have hdone' : ∀ j, j < i / b + 1 → (dest.set (i / b) (fin (blockMeanR rd b x (i / b))))[j]? =
          some (fin (blockMeanR rd b x j)) := by
        intro j hj
        rw [List.getElem?_set]
        split
        · rename_i e; subst e; simp [hdivlt]
        · exact hdone j (by omega)
      have hfin : ∀ d : List (Dbl K), d.length = (x.length - 1) / b + 1 →
          (∀ j, j < (x.length - 1) / b + 1 → d[j]? = some (fin (blockMeanR rd b x j))) → d = (paaOfR rd b x).map fin := by
        intro d hd hj
        apply List.ext_getElem?
        intro j
        by_cases hlt : j < (x.length - 1) / b + 1
        · rw [hj j hlt, paaOfR, List.getElem?_map, List.getElem?_map, List.getElem?_range hlt]; rfl
        · rw [List.getElem?_eq_none (by omega), List.getElem?_eq_none]
          simp only [paaOfR, List.length_map, List.length_range]; omega
      cases hys : ys with
      | nil =>
        rw [List.map_nil, paaLoopR]
        have : i = x.length - 1 := by rw [hys, List.length_nil] at hlys; omega
        exact congrArg Except.ok (hfin _ (by rw [List.length_set]; exact hdl) (by rw [← this]; exact hdone'))
      | cons z zs =>
        rw [← hys]
        have hne : ys ≠ [] := by rw [hys]; simp
        have hlt : i + 1 < x.length := by rw [hys] at hlys; simp only [List.length_cons] at hlys; omega
        have hcb : i % b + 1 = b := by omega
        have e1 : (i + 1) / b = i / b + 1 := by
          rw [show i + 1 = b * (i / b + 1) by rw [Nat.mul_add, Nat.mul_one, Nat.mul_comm]; omega, Nat.mul_div_cancel_left _ (by omega)]
        have e2 : (i + 1) % b = 0 := by
          rw [show i + 1 = b * (i / b + 1) by rw [Nat.mul_add, Nat.mul_one, Nat.mul_comm]; omega, Nat.mul_mod_right]
        have := ih (i + 1) (dest.set (i / b) (fin (blockMeanR rd b x (i / b)))) hdys (by omega) hlys
          (by rw [List.length_set]; exact hdl) (by rw [e1]; exact hdone') hne
        rw [e2, List.take_zero, blockSumR_nil] at this
        exact this
    · rw [if_neg hc]
      have hne : ys ≠ [] := by
        rintro rfl
        simp only [List.length_nil] at hlys
        apply hc; right; omega
      have e1 : (i + 1) / b = i / b := by
        rw [Nat.div_eq_iff (by omega)]
        have := hib
        constructor
        · omega
        · omega
      have e2 : (i + 1) % b = i % b + 1 := by
        have := Nat.div_add_mod' (i + 1) b
        rw [e1] at this; omega
      have := ih (i + 1) dest hdys (by omega) hlys hdl (by rw [e1]; exact hdone) hne
      rw [e1, e2] at this
      exact this

theorem tsPAAR_ok {b : ℕ} (hb : 1 ≤ b) (x : List K) (hx : 1 ≤ x.length) : tsPAAR rd (x.map fin) (b : Int) = .ok ((paaOfR rd b x).map fin) := by
  unfold tsPAAR
  have htd : ((x.length : Int) - 1).tdiv b = (((x.length - 1) / b : ℕ) : Int) := by
    rw [Int.tdiv_eq_ediv_of_nonneg (by omega)]; push_cast [Nat.cast_sub hx]; rfl
  rw [if_neg (by omega)]
  simp only [List.length_map, htd]
  rw [if_neg (_root_.not_lt.2 (by positivity))]
  have hne : x ≠ [] := by rintro rfl; simp at hx
  have := paaLoopR_ok (rd := rd) hb x hx x 0 (List.replicate ((x.length - 1) / b + 1) 0) rfl (by omega) (by omega)
    (by rw [List.length_replicate]) (by intro j hj; simp at hj) hne
  simp only [Nat.zero_div, Nat.zero_mod, List.take_zero, blockSumR_nil] at this
  exact this


theorem paaOfR_length (b : ℕ) (x : List K) : (paaOfR rd b x).length = (x.length - 1) / b + 1 := by simp [paaOfR]

theorem paaOfR_getElem? (b : ℕ) (x : List K) (j : ℕ) (h : j < (x.length - 1) / b + 1) :
    (paaOfR rd b x)[j]? = some (blockMeanR rd b x j) := by
  rw [paaOfR, List.getElem?_map, List.getElem?_range h]; rfl

theorem foldl_err {u θ : K} (h : FloatOps rd u θ) : ∀ (l : List K), Floats rd l → ∀ (k : ℕ) (s S A : K), rd s = s → |S| ≤ A →
    |s - S| ≤ ((1 + u) ^ k - 1) * A →
    |l.foldl (fun s x => rd (s + x)) s - (S + l.sum)| ≤ ((1 + u) ^ (k + l.length) - 1) * (A + (l.map (|·|)).sum) := by
  intro l
  induction l with
  | nil => intro _ k s S A _ _ h3; simpa using h3
  | cons x l ih =>
    intro hf k s S A h1 h2 h3
    have hx : rd x = x := hf x (by simp)
    have hu := h.u_nonneg
    have hA : 0 ≤ A := le_trans (abs_nonneg _) h2
    have hpow : (1 : K) ≤ (1 + u) ^ k := one_le_pow₀ (by linarith)
    have step : |rd (s + x) - (S + x)| ≤ ((1 + u) ^ (k + 1) - 1) * (A + |x|) := by
      have e1 := h.add s x h1 hx
      have e2 : |s + x| ≤ |S + x| + |s - S| := by
        have := abs_add_le (S + x) (s - S)
        rwa [show S + x + (s - S) = s + x by ring] at this
      have e3 : |rd (s + x) - (S + x)| ≤ |rd (s + x) - (s + x)| + |s - S| := by
        have := abs_add_le (rd (s + x) - (s + x)) (s - S)
        rwa [show rd (s + x) - (s + x) + (s - S) = rd (s + x) - (S + x) by ring] at this
      have e4 : |S + x| ≤ A + |x| := le_trans (abs_add_le _ _) (by linarith)
      have e5 : u * |s + x| ≤ u * (A + |x| + ((1 + u) ^ k - 1) * A) := mul_le_mul_of_nonneg_left (by linarith) hu
      have e6 : 0 ≤ u * ((1 + u) ^ k - 1) * |x| + ((1 + u) ^ k - 1) * |x| := by
        have := abs_nonneg x
        have : 0 ≤ (1 + u) ^ k - 1 := by linarith
        positivity
      rw [pow_succ]
      nlinarith
    have := ih (fun y hy => hf y (by simp [hy])) (k + 1) (rd (s + x)) (S + x) (A + |x|) (h.idem _)
      (le_trans (abs_add_le _ _) (by linarith)) step
    simp only [List.foldl_cons, List.sum_cons, List.length_cons, List.map_cons]
    rw [show S + (x + l.sum) = S + x + l.sum by ring, show k + (l.length + 1) = k + 1 + l.length by ring,
      show A + (|x| + (l.map (|·|)).sum) = A + |x| + (l.map (|·|)).sum by ring]
    exact this

/-- The error of a mean. -/
theorem mean_err {u θ : K} (h : FloatOps rd u θ) (l : List K) (hf : Floats rd l) (hl : l ≠ []) :
    |rd (blockSumR rd l / (l.length : K)) - mean l| ≤ ((1 + u) ^ l.length - 1) * mean (l.map (|·|)) + θ ^ 2 := by
  obtain ⟨x, l, rfl⟩ := List.exists_cons_of_ne_nil hl
  have hx : rd x = x := hf x (by simp)
  have hu := h.u_nonneg
  have hs : blockSumR rd (x :: l) = l.foldl (fun s x => rd (s + x)) x := by
    unfold blockSumR
    rw [List.foldl_cons, zero_add, hx]
  have he := foldl_err h l (fun y hy => hf y (by simp [hy])) 0 x x |x| hx le_rfl (by simp)
  rw [← hs, Nat.zero_add] at he
  set n : K := ((x :: l).length : K) with hn
  have hn0 : 0 < n := by rw [hn]; simp only [List.length_cons]; positivity
  set s := blockSumR rd (x :: l)
  set S := x + l.sum with hS
  set A := |x| + (l.map (|·|)).sum with hA
  have hSA : |S| ≤ A := by
    have : |l.sum| ≤ (l.map (|·|)).sum := by
      clear_value s
      clear he hs hn hn0 n hS S hA A hf
      induction l with
      | nil => simp
      | cons y l ih => simp only [List.sum_cons, List.map_cons]; exact le_trans (abs_add_le _ _) (by linarith [ih (by simp)])
    exact le_trans (abs_add_le _ _) (by linarith)
  have e1 := h.err (s / n)
  have hmean : mean (x :: l) = S / n := by simp [mean, hS, hn]
  have hmabs : mean ((x :: l).map (|·|)) = A / n := by simp [mean, hA, hn]
  rw [hmean, hmabs, List.length_cons]
  have e2 : |s / n| ≤ |S| / n + |s - S| / n := by
    rw [abs_div, abs_of_pos hn0, ← add_div]
    refine div_le_div_of_nonneg_right ?_ hn0.le
    have := abs_add_le S (s - S)
    rwa [add_sub_cancel] at this
  have e3 : |rd (s / n) - S / n| ≤ |rd (s / n) - s / n| + |s - S| / n := by
    have := abs_sub_le (rd (s / n)) (s / n) (S / n)
    rwa [← sub_div, abs_div, abs_of_pos hn0] at this
  have e4 : |s - S| / n ≤ ((1 + u) ^ l.length - 1) * (A / n) := by
    rw [← mul_div_assoc]
    exact div_le_div_of_nonneg_right he hn0.le
  have e5 : |S| / n ≤ A / n := div_le_div_of_nonneg_right hSA hn0.le
  have e6 : u * |s / n| ≤ u * (A / n + ((1 + u) ^ l.length - 1) * (A / n)) := mul_le_mul_of_nonneg_left (by linarith) hu
  rw [pow_succ]
  nlinarith

/-! ### Normalisation -/

/-- What `normalize` does to one value. -/
def scaleR (rd : K → K) (lo hi x : K) : K := if lo = hi then 0 else rd (rd (x - lo) / rd (hi - lo))

theorem normalizeR_ok (hrd : Rounding rd) (h0' : ∀ x y, rd x = x → rd y = y → rd (x - y) = 0 → x = y) {ds : Dataset K} {rows : List (List K)} (H : Holds ds (rows.map (·.map fin)))
    (hne : (valSet rows).Nonempty) (hfl : ∀ r ∈ rows, Floats rd r) : ∃ ds' lo hi, ds.normalizeR rd = .ok (ds', (fin lo, fin hi)) ∧
      IsLeast (valSet rows) lo ∧ IsGreatest (valSet rows) hi ∧ ds'.normalized = true ∧
      Holds ds' (rows.map (·.map (fun x => fin (scaleR rd lo hi x)))) ∧
      ds'.names = ds.names ∧ ds'.filePath = ds.filePath ∧ ds'.maxCol = ds.maxCol := by
  have hcount : ds.itemCount ≠ 0 := by
    obtain ⟨x, r, hr, -⟩ := hne
    rw [H.count, List.length_map]
    exact fun h => by rw [List.length_eq_zero_iff.1 h] at hr; simp at hr
  obtain ⟨m, em, hm⟩ := minMax_ok ds (cellList ds.maxCol (rows.map (·.map fin))) (.inf, .ninf) ∅ (fun c hc => by
      obtain ⟨i, j, r, x, hr, hx, rfl⟩ := mem_cellList.1 hc
      have := H.cells i r hr j x hx
      rw [List.getElem?_map, Option.map_eq_some_iff] at hr
      obtain ⟨r', hr', rfl⟩ := hr
      rw [List.getElem?_map, Option.map_eq_some_iff] at hx
      obtain ⟨x', hx', rfl⟩ := hx
      exact ⟨x', this⟩) (Or.inl ⟨rfl, rfl⟩)
  rw [readSet H, Set.empty_union] at hm
  rcases hm with ⟨-, hm⟩ | ⟨lo, hi, rfl, hlo, hhi⟩
  · exact absurd hm hne.ne_empty
  have hle : lo ≤ hi := hlo.2 hhi.1
  have hall : ∀ r ∈ rows, ∀ x ∈ r, lo ≤ x ∧ x ≤ hi := fun r hr x hx => ⟨hlo.2 ⟨r, hr, hx⟩, hhi.2 ⟨r, hr, hx⟩⟩
  unfold Dataset.normalizeR
  rw [if_neg hcount, cells_ok H]
  simp only [bind, Except.bind]
  rw [em]
  simp only [fin_sub_fin, rnd_fin]
  have rd0 : rd 0 = 0 := hrd.zero
  by_cases hd : lo = hi
  · subst hd
    have e1 : Dbl.eqD (fin (rd (lo - lo)) : Dbl K) 0 := by
      constructor
      · rw [sub_self, rd0]; rfl
      · simp
    rw [if_pos e1]
    by_cases h0 : lo = 0
    · subst h0
      have e0 : Dbl.eqD (fin 0 : Dbl K) 0 := ⟨rfl, by simp⟩
      rw [if_pos e0]
      refine ⟨_, _, _, rfl, hlo, hhi, rfl, ?_, rfl, rfl, rfl⟩
      have : rows.map (fun r => r.map (fun x => fin (scaleR rd 0 0 x))) = rows.map (·.map fin) := by
        apply List.map_congr_left
        intro r hr
        apply List.map_congr_left
        intro x hx
        have := hall r hr x hx
        rw [scaleR, if_pos rfl, _root_.le_antisymm this.2 this.1]
      rw [this]
      exact holds_normalized H true
    · rw [if_neg (fun h : Dbl.eqD (fin lo : Dbl K) 0 => h0 (by have := h.1; rw [zero_def] at this; simpa using this))]
      obtain ⟨ds', e, ⟨dat, rfl⟩, H'⟩ := holds_rewrite (fun _ => (0 : Dbl K)) (fun d c => d.write c 0)
        (fun _ _ _ _ => rfl) H
      rw [e]
      refine ⟨_, _, _, rfl, hlo, hhi, rfl, ?_, rfl, rfl, rfl⟩
      have : rows.map (fun r => r.map (fun x => fin (scaleR rd lo lo x))) =
          (rows.map (·.map fin)).map (·.map (fun _ => (0 : Dbl K))) := by
        simp [scaleR, zero_def]
      rw [this]
      exact holds_normalized H' true
  · have hfl' : ∀ x ∈ valSet rows, rd x = x := fun x ⟨r, hr, hx⟩ => hfl r hr x hx
    have hpos : rd (hi - lo) ≠ 0 := fun e => hd (h0' hi lo (hfl' _ hhi.1) (hfl' _ hlo.1) e).symm
    rw [if_neg (fun h : Dbl.eqD (fin (rd (hi - lo)) : Dbl K) 0 => hpos (by
      have := h.1; rw [zero_def] at this; simpa using this))]
    obtain ⟨ds', e, ⟨dat, rfl⟩, H'⟩ := holds_rewrite (fun x => rnd rd (rnd rd (x - fin lo) / fin (rd (hi - lo))))
      (fun d c => do let x ← d.read c; d.write c (rnd rd (rnd rd (x - fin lo) / fin (rd (hi - lo)))))
      (fun d c x hx => by simp only [hx, bind, Except.bind]) H
    simp only [bind, Except.bind] at e
    rw [e]
    refine ⟨_, _, _, rfl, hlo, hhi, rfl, ?_, rfl, rfl, rfl⟩
    have : rows.map (fun r => r.map (fun x => fin (scaleR rd lo hi x))) =
        (rows.map (·.map fin)).map (·.map (fun x => rnd rd (rnd rd (x - fin lo) / fin (rd (hi - lo))))) := by
      simp [scaleR, hd, fin_div_fin hpos, rnd]
    rw [this]
    exact holds_normalized H' true

/-- Different numbers have a difference. -/
theorem Spec.FloatOps.sub_ne {u θ : K} (h : FloatOps rd u θ) (hu : u < 1) (x y : K) (hx : rd x = x) (hy : rd y = y)
    (h0 : rd (x - y) = 0) : x = y := by
  have := h.add x (-y) hx (by rw [h.neg, hy])
  rw [← sub_eq_add_neg, h0, zero_sub, abs_neg] at this
  by_contra hne
  have hp : 0 < |x - y| := abs_pos.2 (sub_ne_zero.2 hne)
  nlinarith

theorem Spec.FloatOps.sub_err {u θ : K} (h : FloatOps rd u θ) {x y : K} (hx : rd x = x) (hy : rd y = y) (hle : y ≤ x) :
    (1 - u) * (x - y) ≤ rd (x - y) ∧ rd (x - y) ≤ (1 + u) * (x - y) := by
  have := h.add x (-y) hx (by rw [h.neg, hy])
  rw [← sub_eq_add_neg, abs_of_nonneg (sub_nonneg.2 hle), abs_le] at this
  constructor <;> linarith [this.1, this.2]

/-- The error of a normalised value. -/
theorem scaleR_err {u θ : K} (h : FloatOps rd u θ) (hu : u ≤ 1 / 5) {lo hi x : K} (hlo : rd lo = lo) (hhi : rd hi = hi) (hx : rd x = x)
    (h1 : lo ≤ x) (h2 : x ≤ hi) (hd : lo ≠ hi) :
    |scaleR rd lo hi x - (x - lo) / (hi - lo)| ≤ 4 * u * ((x - lo) / (hi - lo)) + θ ^ 2 := by
  have hu0 := h.u_nonneg
  have hD : 0 < hi - lo := sub_pos.2 (_root_.lt_of_le_of_ne (h1.trans h2) hd)
  obtain ⟨a1, a2⟩ := h.sub_err hx hlo h1
  obtain ⟨d1, d2⟩ := h.sub_err hhi hlo (h1.trans h2)
  have hA : 0 ≤ x - lo := sub_nonneg.2 h1
  set a := rd (x - lo)
  set d := rd (hi - lo)
  set A := x - lo
  set D := hi - lo
  have hd0 : 0 < d := lt_of_lt_of_le (mul_pos (by linarith) hD) d1
  have ha0 : 0 ≤ a := le_trans (mul_nonneg (by linarith) hA) a1
  unfold scaleR
  rw [if_neg hd]
  set q := A / D with hq
  have hqA : A = q * D := by rw [hq, div_mul_cancel₀ _ hD.ne']
  have hq0 : 0 ≤ q := div_nonneg hA hD.le
  have hup : a / d * (1 - u) ≤ (1 + u) * q := by
    rw [div_mul_eq_mul_div, div_le_iff₀ hd0]
    have k1 : (1 + u) * q * ((1 - u) * D) ≤ (1 + u) * q * d := mul_le_mul_of_nonneg_left d1 (by positivity)
    have k2 : a * (1 - u) ≤ (1 + u) * A * (1 - u) := mul_le_mul_of_nonneg_right a2 (by linarith)
    rw [hqA] at k2
    nlinarith
  have hlow : (1 - u) * q ≤ a / d * (1 + u) := by
    rw [div_mul_eq_mul_div, le_div_iff₀ hd0]
    have k1 : (1 - u) * q * d ≤ (1 - u) * q * ((1 + u) * D) := mul_le_mul_of_nonneg_left d2 (mul_nonneg (by linarith) hq0)
    have k2 : (1 - u) * A * (1 + u) ≤ a * (1 + u) := mul_le_mul_of_nonneg_right a1 (by linarith)
    rw [hqA] at k2
    nlinarith
  have hr0 : 0 ≤ a / d := div_nonneg ha0 hd0.le
  have e := h.err (a / d)
  rw [abs_of_nonneg hr0, abs_le] at e
  generalize rd (a / d) = r at *
  generalize a / d = z at *
  generalize θ ^ 2 = t at *
  have b1 : (1 + u) * z ≤ (1 + 4 * u) * q := by
    have : (1 - u) * ((1 + u) * z) ≤ (1 - u) * ((1 + 4 * u) * q) := by
      have k : (1 + u) * (z * (1 - u)) ≤ (1 + u) * ((1 + u) * q) := mul_le_mul_of_nonneg_left hup (by linarith)
      have k2 : 0 ≤ q * (u * (1 - 5 * u)) := mul_nonneg hq0 (mul_nonneg hu0 (by linarith))
      nlinarith
    exact le_of_mul_le_mul_left this (by linarith)
  have b2 : (1 - 4 * u) * q ≤ (1 - u) * z := by
    have : (1 + u) * ((1 - 4 * u) * q) ≤ (1 + u) * ((1 - u) * z) := by
      have k : (1 - u) * ((1 - u) * q) ≤ (1 - u) * (z * (1 + u)) := mul_le_mul_of_nonneg_left hlow (by linarith)
      have k2 : 0 ≤ q * (u + 5 * u ^ 2) := by positivity
      nlinarith
    exact le_of_mul_le_mul_left this (by linarith)
  rw [abs_le]
  constructor <;> linarith [e.1, e.2]

end Genex
