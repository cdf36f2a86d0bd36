import Verif.Model.CliExperiment
import Verif.Spec.CliExperiment
import Verif.Lemmas.Dbl
import Mathlib.Tactic.Linarith
import Mathlib.Tactic.FieldSimp
import Mathlib.Tactic.NormNum
import Mathlib.Data.List.SplitOn

/-!
# C104: the experiment code of the command line program (cli/GenexCLI.cpp)
-/

set_option linter.unusedSectionVars false

namespace Genex.Props

open Spec Experiment

section
variable {K : Type} [Field K] [LinearOrder K] [IsStrictOrderedRing K]

theorem close_iff (x y : Cand K) : close x y ↔ SameDist x.dist y.dist := by
  unfold close
  have h9 : (eps : K) = 1 / 10 ^ 9 := by unfold eps; norm_num
  rcases hx : x.dist with a | _ | _ | _ <;> rcases hy : y.dist with b | _ | _ | _
  case fin.fin =>
    have e : (Dbl.fin a - Dbl.fin b : Dbl K) = .fin (a - b) := by rw [sub_eq_add_neg]; rfl
    rw [e, Dbl.abs_fin, h9]
    exact Iff.rfl
  all_goals exact ⟨fun h => h.elim, fun h => h.elim⟩

theorem close_symm {x y : Cand K} (h : close x y) : close y x := by
  rw [close_iff] at *
  rcases hx : x.dist with a | _ | _ | _ <;> rcases hy : y.dist with b | _ | _ | _ <;> rw [hx, hy] at h
  case fin.fin =>
    show |b - a| < _
    rw [abs_sub_comm]; exact h
  all_goals exact h.elim

/-- A loop over the indices of two vectors. -/
theorem foldlM_zip {σ : Type} (g : σ → Cand K → Cand K → σ) (a b : List (Cand K)) (s : σ) (n : ℕ) (hn : n ≤ min a.length b.length) :
    (List.range n).foldlM (fun (s : σ) i => (do
      let p ← pairAt a b i
      .ok (g s p.1 p.2) : Res σ)) s = .ok (((a.zip b).take n).foldl (fun s p => g s p.1 p.2) s) := by
  induction n with
  | zero => rfl
  | succ n ih =>
    have ha : n < a.length := by omega
    have hb : n < b.length := by omega
    have hz : n < (a.zip b).length := by rw [List.length_zip]; omega
    rw [List.range_succ, List.foldlM_append, ih (by omega)]
    simp only [bind, Except.bind, List.foldlM_cons, List.foldlM_nil, pure, Except.pure, pairAt, List.getElem?_eq_getElem ha, List.getElem?_eq_getElem hb]
    rw [List.take_add_one, List.getElem?_eq_getElem hz, List.foldl_append]
    simp

theorem zip_take_min {α β : Type} (a : List α) (b : List β) : (a.zip b).take (min a.length b.length) = a.zip b := by
  apply List.take_of_length_le
  rw [List.length_zip]

theorem overlap_eq (a b : List (Cand K)) : overlap a b = .ok (agreeing (a.map Cand.dist) (b.map Cand.dist)) := by
  unfold overlap
  rw [foldlM_zip (fun (n : ℕ) x y => n + if close x y then 1 else 0) a b 0 _ le_rfl, zip_take_min]
  congr 1
  unfold agreeing
  rw [List.zip_map]
  generalize a.zip b = l
  have : ∀ (l : List (Cand K × Cand K)) (n : ℕ), l.foldl (fun n p => n + if close p.1 p.2 then 1 else 0) n =
      n + ((l.map (Prod.map Cand.dist Cand.dist)).filter fun p => SameDist p.1 p.2).length := by
    intro l
    induction l with
    | nil => intro n; simp
    | cons p l ih =>
      intro n
      simp only [List.foldl_cons, List.map_cons, List.filter_cons]
      rw [ih]
      by_cases h : close p.1 p.2
      · have h' := (close_iff _ _).1 h
        simp [h, h']
        omega
      · have h' : ¬ SameDist p.1.dist p.2.dist := fun hs => h ((close_iff _ _).2 hs)
        simp [h, h']
  rw [this]
  simp

theorem agreeing_le (a b : List (Dbl K)) : agreeing a b ≤ min a.length b.length := by
  unfold agreeing
  refine (List.length_filter_le _ _).trans ?_
  rw [List.length_zip]

/-- C104.  `computeJaccard` never reads outside the vectors.  For vectors that are not both empty it is the number of places at which the distances agree, over the number of all
results less that number; it lies between 0 and 1. -/
theorem C104_jaccard (a b : List (Cand K)) (hne : a ≠ [] ∨ b ≠ []) (hsize : a.length + b.length < 2 ^ 64) :
    ∃ v : K, computeJaccard a b = .ok (.fin v) ∧ 0 ≤ v ∧ v ≤ 1 ∧
      v = agreeing (a.map Cand.dist) (b.map Cand.dist) / (a.length + b.length - agreeing (a.map Cand.dist) (b.map Cand.dist)) := by
  have h1 := agreeing_le (a.map Cand.dist) (b.map Cand.dist)
  rw [List.length_map, List.length_map] at h1
  have hpos : 0 < a.length + b.length := by
    rcases hne with h | h
    · have := List.length_pos_iff.2 h; omega
    · have := List.length_pos_iff.2 h; omega
  generalize hn : agreeing (a.map Cand.dist) (b.map Cand.dist) = n at *
  have hd : ((a.length : Int) + b.length - n) % 2 ^ 64 = ((a.length + b.length - n : ℕ) : Int) := by
    rw [Int.emod_eq_of_lt (by omega) (by omega)]
    omega
  have hd' : (((a.length + b.length - n : ℕ) : Int) : K) = a.length + b.length - n := by
    rw [Int.cast_natCast, Nat.cast_sub (by omega)]
    push_cast
    ring
  have hge : (n : K) ≤ a.length + b.length - n := by
    have : 2 * n ≤ a.length + b.length := by omega
    have : (2 * n : K) ≤ a.length + b.length := by exact_mod_cast this
    linarith
  have hpos' : (0 : K) < a.length + b.length - n := by
    rw [← hd', Int.cast_natCast]
    exact_mod_cast (show 0 < a.length + b.length - n by omega)
  refine ⟨n / (a.length + b.length - n), ?_, by positivity, ?_, rfl⟩
  · unfold computeJaccard
    rw [overlap_eq]
    simp only [bind, Except.bind, hn, hd, hd']
    show Except.ok (Dbl.div _ _) = _
    simp [Dbl.div, hpos'.ne']
  · rw [div_le_one hpos']
    exact hge

/-- C104.  Of two empty vectors it is NaN. -/
theorem C104_jaccard_empty : computeJaccard ([] : List (Cand K)) [] = .ok .nan := by
  simp only [computeJaccard, overlap, bind, Except.bind, List.length_nil, pure, Except.pure, Nat.min_self, List.range_zero, List.foldlM_nil]
  show Except.ok (Dbl.div _ _) = _
  simp [Dbl.div]

theorem agreeing_comm (a b : List (Dbl K)) : agreeing a b = agreeing b a := by
  have hs : ∀ x y : Dbl K, SameDist x y ↔ SameDist y x := by
    intro x y
    cases x <;> cases y <;> simp [SameDist, abs_sub_comm]
  unfold agreeing
  induction a generalizing b with
  | nil => simp
  | cons x a ih =>
    cases b with
    | nil => simp
    | cons y b =>
      simp only [List.zip_cons_cons, List.filter_cons]
      by_cases h : SameDist x y
      · have h' := (hs x y).1 h
        simp [h, h', ih b]
      · have h' : ¬ SameDist y x := fun h'' => h ((hs x y).2 h'')
        simp [h, h', ih b]

/-- C104.  It does not depend on the order of the two vectors. -/
theorem C104_jaccard_symm (a b : List (Cand K)) : computeJaccard a b = computeJaccard b a := by
  unfold computeJaccard
  rw [overlap_eq, overlap_eq, agreeing_comm, add_comm (a.length : Int)]

/-- C104.  It is 1 exactly for vectors of one size whose distances agree at all places. -/
theorem C104_jaccard_one (a b : List (Cand K)) (hne : a ≠ [] ∨ b ≠ []) (hsize : a.length + b.length < 2 ^ 64) :
    computeJaccard a b = .ok (.fin 1) ↔ List.Forall₂ (fun x y => SameDist x.dist y.dist) a b := by
  obtain ⟨v, e, -, -, hv⟩ := C104_jaccard a b hne hsize
  have h1 := agreeing_le (a.map Cand.dist) (b.map Cand.dist)
  rw [List.length_map, List.length_map] at h1
  have hpos : 0 < a.length + b.length := by
    rcases hne with h | h
    · have := List.length_pos_iff.2 h; omega
    · have := List.length_pos_iff.2 h; omega
  have hiff : v = 1 ↔ 2 * agreeing (a.map Cand.dist) (b.map Cand.dist) = a.length + b.length := by
    rw [hv]
    have hp : (0 : K) < a.length + b.length - agreeing (a.map Cand.dist) (b.map Cand.dist) := by
      have h3 : ((agreeing (a.map Cand.dist) (b.map Cand.dist) : ℕ) : K) < ((a.length + b.length : ℕ) : K) := by
        exact_mod_cast (show agreeing (a.map Cand.dist) (b.map Cand.dist) < a.length + b.length by omega)
      push_cast at h3
      linarith
    rw [div_eq_one_iff_eq hp.ne']
    constructor
    · intro h
      have : ((2 * agreeing (a.map Cand.dist) (b.map Cand.dist) : ℕ) : K) = ((a.length + b.length : ℕ) : K) := by
        push_cast; linarith
      exact_mod_cast this
    · intro h
      have : ((2 * agreeing (a.map Cand.dist) (b.map Cand.dist) : ℕ) : K) = ((a.length + b.length : ℕ) : K) := by rw [h]
      push_cast at this
      linarith
  have e1 : computeJaccard a b = .ok (.fin 1) ↔ v = 1 := by
    rw [e]
    constructor
    · intro h
      exact Dbl.fin.inj (Except.ok.inj h)
    · rintro rfl; rfl
  rw [e1, hiff]
  clear e1 hiff hv e hne hsize hpos h1
  have key : ∀ a b : List (Cand K), (2 * agreeing (a.map Cand.dist) (b.map Cand.dist) = a.length + b.length ↔
      List.Forall₂ (fun x y => SameDist x.dist y.dist) a b) := by
    intro a
    induction a with
    | nil =>
      intro b
      cases b with
      | nil => simp [agreeing]
      | cons y b => simp [agreeing]
    | cons x a ih =>
      intro b
      cases b with
      | nil => simp [agreeing]
      | cons y b =>
        have h2 := agreeing_le (a.map Cand.dist) (b.map Cand.dist)
        rw [List.length_map, List.length_map] at h2
        by_cases h : SameDist x.dist y.dist
        · have e : agreeing ((x :: a).map Cand.dist) ((y :: b).map Cand.dist) = agreeing (a.map Cand.dist) (b.map Cand.dist) + 1 := by
            simp [agreeing, h]
          rw [e, List.forall₂_cons, ← ih b]
          simp only [List.length_cons, h, true_and]
          omega
        · have e : agreeing ((x :: a).map Cand.dist) ((y :: b).map Cand.dist) = agreeing (a.map Cand.dist) (b.map Cand.dist) := by
            simp [agreeing, h]
          rw [e, List.forall₂_cons]
          simp only [List.length_cons, h, false_and, iff_false]
          omega
  exact key a b

/-! ### The weighted index -/

/-- C104.  `computeWeightedJaccard` reads outside a vector whenever the sizes differ. -/
theorem C104_weighted_false (a b : List (Cand K)) (h : a.length ≠ b.length) : computeWeightedJaccard a b = .error (.ub "vector index") := by
  unfold computeWeightedJaccard
  have hlt : min a.length b.length < max a.length b.length := by omega
  have e : List.range (max a.length b.length) =
      List.range (min a.length b.length) ++ (List.range (max a.length b.length - min a.length b.length)).map (min a.length b.length + ·) := by
    rw [← List.range_add]
    congr 1
    omega
  obtain ⟨d, hd⟩ : ∃ d, max a.length b.length - min a.length b.length = d + 1 := ⟨_, (Nat.succ_pred_eq_of_pos (by omega)).symm⟩
  rw [e, List.foldlM_append, foldlM_zip weigh a b _ _ le_rfl, hd, List.range_succ_eq_map]
  simp only [bind, Except.bind, List.map_cons, List.foldlM_cons, Nat.add_zero]
  rcases Nat.lt_or_ge a.length b.length with h1 | h1
  · have : a[min a.length b.length]? = none := by rw [List.getElem?_eq_none_iff]; omega
    simp only [pairAt, this]
  · have : b[min a.length b.length]? = none := by rw [List.getElem?_eq_none_iff]; omega
    have e2 : pairAt a b (min a.length b.length) = .error (.ub "vector index") := by
      unfold pairAt
      rw [this]
      cases a[min a.length b.length]? <;> rfl
    rw [e2]

/-- The candidates of a dataset: no coordinate and no distance is negative. -/
def Sound (c : Cand K) : Prop := 0 ≤ c.view.index ∧ 0 ≤ c.view.start ∧ 0 ≤ c.view.length ∧ ∃ d : K, c.dist = .fin d ∧ 0 ≤ d

theorem add_fin (x y : K) : (Dbl.fin x + Dbl.fin y : Dbl K) = .fin (x + y) := rfl

theorem weigh_sound {x y : Cand K} (hx : Sound x) (hy : Sound y) {p q : K} (hp : 0 ≤ p) (hpq : p ≤ q) :
    ∃ p' q' : K, weigh (.fin p, .fin q) x y = (.fin p', .fin q') ∧ 0 ≤ p' ∧ p' - p ≤ q' - q ∧ q < q' ∧ (p' - p = q' - q ↔ close x y) := by
  obtain ⟨h1, h2, h3, d, h4, h5⟩ := hx
  obtain ⟨k1, k2, k3, e, k4, k5⟩ := hy
  unfold weigh
  by_cases hc : close x y
  · rw [if_pos hc]
    exact ⟨p + 1, q + 1, rfl, by linarith, by linarith, by linarith, by simp [hc]⟩
  · rw [if_neg hc]
    have hm : minD x.dist y.dist = .fin (min d e) := by
      rw [h4, k4]
      unfold minD
      by_cases h : e < d
      · rw [if_pos (show (Dbl.fin e : Dbl K) < .fin d from h), min_eq_right h.le]
      · rw [if_neg (show ¬ (Dbl.fin e : Dbl K) < .fin d from h), min_eq_left (not_lt.1 h)]
    have hM : maxD x.dist y.dist = .fin (max d e) := by
      rw [h4, k4]
      unfold maxD
      by_cases h : d < e
      · rw [if_pos (show (Dbl.fin d : Dbl K) < .fin e from h), max_eq_right h.le]
      · rw [if_neg (show ¬ (Dbl.fin d : Dbl K) < .fin e from h), max_eq_left (not_lt.1 h)]
    have hne : d ≠ e := by
      rintro rfl
      apply hc
      rw [close_iff, h4, k4]
      show |d - d| < _
      rw [sub_self, abs_zero]
      positivity
    have hlt : min d e < max d e := min_lt_max.2 hne
    have hle : (min x.view.index y.view.index + min x.view.start y.view.start + min x.view.length y.view.length : Int) ≤
        max x.view.index y.view.index + max x.view.start y.view.start + max x.view.length y.view.length := by
      have a1 := min_le_max (a := x.view.index) (b := y.view.index)
      have a2 := min_le_max (a := x.view.start) (b := y.view.start)
      have a3 := min_le_max (a := x.view.length) (b := y.view.length)
      omega
    have h0 : 0 ≤ (min x.view.index y.view.index + min x.view.start y.view.start + min x.view.length y.view.length : Int) := by
      have a1 := le_min h1 k1
      have a2 := le_min h2 k2
      have a3 := le_min h3 k3
      omega
    unfold lesser greater
    rw [hm, hM]
    generalize (min x.view.index y.view.index + min x.view.start y.view.start + min x.view.length y.view.length : Int) = A at *
    generalize (max x.view.index y.view.index + max x.view.start y.view.start + max x.view.length y.view.length : Int) = B at *
    have hAB : (A : K) ≤ B := by exact_mod_cast hle
    have hA : (0 : K) ≤ A := by exact_mod_cast h0
    have hd0 : 0 ≤ min d e := le_min h5 k5
    refine ⟨p + (A + min d e), q + (B + max d e), rfl, by linarith, by linarith, by linarith, ?_⟩
    constructor
    · intro h; exfalso; linarith
    · intro h; exact absurd h hc

/-- C104.  For two vectors of one size, not empty, `computeWeightedJaccard` lies between 0 and 1, and is 1 exactly if the distances agree at all places. -/
theorem C104_weighted (a b : List (Cand K)) (h : a.length = b.length) (hne : a ≠ []) (ha : ∀ x ∈ a, Sound x) (hb : ∀ x ∈ b, Sound x) :
    ∃ v : K, computeWeightedJaccard a b = .ok (.fin v) ∧ 0 ≤ v ∧ v ≤ 1 ∧ (v = 1 ↔ List.Forall₂ (fun x y => SameDist x.dist y.dist) a b) := by
  have key : ∀ (a b : List (Cand K)), a.length = b.length → (∀ x ∈ a, Sound x) → (∀ x ∈ b, Sound x) → ∀ p q : K, 0 ≤ p → p ≤ q →
      ∃ p' q' : K, (a.zip b).foldl (fun s c => weigh s c.1 c.2) (.fin p, .fin q) = (.fin p', .fin q') ∧ 0 ≤ p' ∧ p' - p ≤ q' - q ∧ q ≤ q' ∧ (a ≠ [] → q < q') ∧
        (p' - p = q' - q ↔ List.Forall₂ (fun x y => SameDist x.dist y.dist) a b) := by
    intro a
    induction a with
    | nil =>
      intro b hl _ _ p q hp hpq
      have : b = [] := List.length_eq_zero_iff.1 hl.symm
      subst this
      exact ⟨p, q, rfl, hp, by linarith, le_rfl, fun h => absurd rfl h, by simp⟩
    | cons x a ih =>
      intro b hl ha hb p q hp hpq
      cases b with
      | nil => simp at hl
      | cons y b =>
        obtain ⟨p1, q1, e1, h1, h2, h3, h4⟩ := weigh_sound (ha x (by simp)) (hb y (by simp)) hp hpq
        obtain ⟨p2, q2, e2, k1, k2, k3, -, k4⟩ := ih b (by simpa using hl) (fun z hz => ha z (by simp [hz])) (fun z hz => hb z (by simp [hz])) p1 q1 h1 (by linarith)
        refine ⟨p2, q2, ?_, k1, by linarith, by linarith, fun _ => by linarith, ?_⟩
        · rw [List.zip_cons_cons, List.foldl_cons, e1]
          exact e2
        · rw [List.forall₂_cons, ← k4, ← close_iff, ← h4]
          constructor
          · intro h
            constructor <;> linarith
          · rintro ⟨h, h'⟩
            linarith
  obtain ⟨p, q, e, h1, h2, -, h3, h4⟩ := key a b h ha hb 0 0 le_rfl le_rfl
  have hq := h3 hne
  simp only [sub_zero] at h2 h4
  refine ⟨p / q, ?_, div_nonneg h1 hq.le, (div_le_one hq).2 h2, ?_⟩
  · unfold computeWeightedJaccard
    have em : max a.length b.length = min a.length b.length := by omega
    rw [em, foldlM_zip weigh a b _ _ le_rfl, zip_take_min]
    simp only [bind, Except.bind, e]
    show Except.ok (Dbl.div _ _) = _
    simp [Dbl.div, hq.ne']
  · rw [div_eq_one_iff_eq hq.ne']
    exact h4

/-! ### Printing -/

theorem splitOn_join {α : Type} [DecidableEq α] (sep : α) (l : List (List α)) (hl : ∀ f ∈ l, sep ∉ f) (hne : l ≠ []) :
    (List.intercalate [sep] l).splitOn sep = l := by
  exact List.splitOn_intercalate _ hl hne

/-- C104.  What `printResults` writes for results, at least one: their distance, series, start and end, with commas between them; splitting the line at the commas gives these back, if numbers are
written without commas. -/
theorem C104_print (showD : Dbl K → List Char) (showI : Int → List Char) (hD : ∀ d, ',' ∉ showD d) (hI : ∀ i, ',' ∉ showI i) (r : List (Cand K)) (hne : r ≠ []) :
    (printResults showD showI r).splitOn ',' = r.flatMap fun c => [showD c.dist, showI c.view.index, showI c.view.start, showI c.view.stop] := by
  set fs : Cand K → List (List Char) := fun c => [showD c.dist, showI c.view.index, showI c.view.start, showI c.view.stop] with hfs
  have hG : ∀ F : List (List Char), F ≠ [] → F.flatMap (· ++ [',']) = List.intercalate [','] F ++ [','] := by
    intro F
    induction F with
    | nil => intro h; exact absurd rfl h
    | cons f F ih =>
      intro _
      cases F with
      | nil => simp [List.intercalate]
      | cons g F =>
        rw [List.flatMap_cons, ih (by simp), List.intercalate_cons_cons]
        simp
  have hone : ∀ i c, printOne showD showI r.length i c ++ (if i < r.length - 1 then [] else [',']) = (fs c).flatMap (· ++ [',']) := by
    intro i c
    have e : c.view.start + c.view.length = c.view.stop := by unfold View.length; omega
    unfold printOne
    rw [e]
    by_cases h : i < r.length - 1 <;> simp [h, hfs]
  have hstep : ∀ n, n < r.length → (List.range n).foldl (fun out i => out ++ (r[i]?.map (printOne showD showI r.length i)).getD []) [] =
      ((r.take n).flatMap fs).flatMap (· ++ [',']) := by
    intro n
    induction n with
    | zero => intro _; rfl
    | succ n ih =>
      intro hn
      have hlt : n < r.length := by omega
      have h1 := hone n r[n]
      rw [if_pos (show n < r.length - 1 by omega), List.append_nil] at h1
      rw [List.range_succ, List.foldl_append, ih hlt, List.take_add_one, List.getElem?_eq_getElem hlt]
      simp only [List.foldl_cons, List.foldl_nil, List.getElem?_eq_getElem hlt, Option.map_some, Option.getD_some, h1, Option.toList, List.flatMap_append, List.flatMap_cons, List.flatMap_nil,
        List.append_nil]
  have hpos := List.length_pos_iff.2 hne
  obtain ⟨n, hn⟩ : ∃ n, r.length = n + 1 := ⟨r.length - 1, by omega⟩
  have hlt : n < r.length := by omega
  have hF : r.flatMap fs ≠ [] := by
    intro h
    rw [List.flatMap_eq_nil_iff] at h
    have := h _ (List.getElem_mem hlt)
    simp [hfs] at this
  have hout : printResults showD showI r ++ [','] = (r.flatMap fs).flatMap (· ++ [',']) := by
    have hr : r.take n ++ [r[n]] = r := by
      have h2 : r.take (n + 1) = r := by rw [← hn]; exact List.take_length
      conv_rhs => rw [← h2, List.take_add_one, List.getElem?_eq_getElem hlt]
      rfl
    have h1 := hone n r[n]
    rw [if_neg (show ¬ n < r.length - 1 by omega)] at h1
    have e : printResults showD showI r = (List.range (n + 1)).foldl (fun out i => out ++ (r[i]?.map (printOne showD showI r.length i)).getD []) [] := by
      unfold printResults
      congr 2
    rw [e, List.range_succ, List.foldl_append, hstep n hlt]
    simp only [List.foldl_cons, List.foldl_nil, List.getElem?_eq_getElem hlt, Option.map_some, Option.getD_some]
    rw [List.append_assoc, h1]
    conv_rhs => rw [← hr]
    simp only [List.flatMap_append, List.flatMap_cons, List.flatMap_nil, List.append_nil]
  rw [hG _ hF] at hout
  rw [List.append_cancel_right hout]
  refine splitOn_join _ _ ?_ hF
  intro f hf
  obtain ⟨c, -, hc⟩ := List.mem_flatMap.1 hf
  simp only [hfs, List.mem_cons, List.not_mem_nil, or_false] at hc
  rcases hc with rfl | rfl | rfl | rfl
  · exact hD _
  · exact hI _
  · exact hI _
  · exact hI _

/-- C104.  No results: nothing is written. -/
theorem C104_print_none (showD : Dbl K → List Char) (showI : Int → List Char) : printResults showD showI ([] : List (Cand K)) = [] := rfl

end

/-! Two results of a search and two others, the first at the same distance. -/
def resA : List (Cand ℚ) := [⟨⟨0, 0, 1, 4⟩, .fin (1 / 2)⟩, ⟨⟨0, 1, 0, 2⟩, .fin 1⟩]
def resB : List (Cand ℚ) := [⟨⟨0, 2, 3, 5⟩, .fin (1 / 2)⟩, ⟨⟨0, 0, 0, 3⟩, .fin 2⟩]

example : computeJaccard resA resB = .ok (.fin (1 / 3)) := by decide +kernel
example : computeWeightedJaccard resA resB = .ok (.fin (4 / 7)) := by decide +kernel
example : resA ≠ [] ∧ resA.length = resB.length ∧ (∀ x ∈ resA, Sound x) ∧ ∀ x ∈ resB, Sound x := by
  refine ⟨by decide, by decide, ?_, ?_⟩ <;> intro x hx <;> simp [resA, resB] at hx <;> rcases hx with rfl | rfl <;>
    exact ⟨by decide, by decide, by decide, _, rfl, by norm_num⟩
example : computeWeightedJaccard resA (resB.take 1) = .error (.ub "vector index") := by decide +kernel
example : String.ofList (printResults (fun d => match d with | .fin x => (toString x).toList | _ => "inf".toList) (fun i => (toString i).toList) resA) =
    "1/2,0,1,4,1,1,0,2" := by decide +kernel

/-- C104.  Although named after it, the value is not the Jaccard index of the two sets of distances: places are compared.  Here two of four distances are common, and the value is 0. -/
theorem C104_jaccard_false : ∃ a b : List (Cand ℚ), a.Pairwise Cand.lt ∧ b.Pairwise Cand.lt ∧ computeJaccard a b = .ok (.fin 0) ∧
    jaccard (a.map Cand.dist).toFinset (b.map Cand.dist).toFinset = 1 / 2 :=
  ⟨[⟨⟨0, 0, 0, 2⟩, .fin 1⟩, ⟨⟨0, 0, 1, 3⟩, .fin 2⟩, ⟨⟨0, 0, 2, 4⟩, .fin 3⟩], [⟨⟨0, 0, 1, 3⟩, .fin 2⟩, ⟨⟨0, 0, 2, 4⟩, .fin 3⟩, ⟨⟨0, 0, 3, 5⟩, .fin 4⟩],
    by decide +kernel, by decide +kernel, by decide +kernel, by decide +kernel⟩

end Genex.Props
