import Verif.Lemmas.Overflow
import Verif.Lemmas.RoundedData

/-! Normalisation and block means of data in range do not overflow (lemmas for C87). -/

set_option linter.unusedSectionVars false

namespace Genex

open Dbl Spec

variable {K : Type} [Field K] [LinearOrder K] [IsStrictOrderedRing K]

/-- Writing what two functions agree on. -/
theorem rewrite_congr (f g : Dbl K → Dbl K) : ∀ (cs : List Int) (ds : Dataset K), cs.Nodup →
    (∀ c ∈ cs, ∃ x, ds.read c = .ok x ∧ f x = g x) →
    cs.foldlM (fun (d : Dataset K) (c : Int) => d.read c >>= fun x => d.write c (f x)) ds =
      cs.foldlM (fun (d : Dataset K) (c : Int) => d.read c >>= fun x => d.write c (g x)) ds := by
  intro cs
  induction cs with
  | nil => intro ds _ _; rfl
  | cons c cs ih =>
    intro ds hn h
    obtain ⟨x, hx, hfg⟩ := h c (by simp)
    rw [List.foldlM_cons, List.foldlM_cons, hx]
    simp only [bind, Except.bind]
    rw [hfg]
    cases hw : ds.write c (g x) with
    | error e => rfl
    | ok ds1 =>
      simp only
      rw [List.nodup_cons] at hn
      refine ih ds1 hn.2 (fun c' hc' => ?_)
      obtain ⟨y, hy, hfg'⟩ := h c' (by simp [hc'])
      refine ⟨y, ?_, hfg'⟩
      rw [read_write hw, if_neg]
      · exact hy
      · rintro rfl
        exact hn.1 hc'

variable {rd : K → K}

theorem normalizeW_eq (hr : Rounding rd) {X : K} (hX : rd X = X) (hX1 : 1 ≤ X) {ds : Dataset K} {rows : List (List K)}
    (H : Holds ds (rows.map (·.map fin))) (hR : ∀ r ∈ rows, ∀ x ∈ r, ∀ r' ∈ rows, ∀ y ∈ r', |rd (x - y)| ≤ X) :
    ds.normalizeW (rndMax rd X) = ds.normalizeR rd := by
  unfold Dataset.normalizeW Dataset.normalizeR
  by_cases hcount : ds.itemCount = 0
  · rw [if_pos hcount, if_pos hcount]
  rw [if_neg hcount, if_neg hcount, cells_ok H]
  simp only [bind, Except.bind]
  obtain ⟨m, em, hm⟩ := minMax_ok ds (cellList ds.maxCol (rows.map (·.map fin))) (.inf, .ninf) ∅ (fun c hc => by
      obtain ⟨i, j, r, x, hr, hx, rfl⟩ := mem_cellList.1 hc
      have := H.cells i r hr j x hx
      rw [List.getElem?_map, Option.map_eq_some_iff] at hr
      obtain ⟨r', hr', rfl⟩ := hr
      rw [List.getElem?_map, Option.map_eq_some_iff] at hx
      obtain ⟨x', hx', rfl⟩ := hx
      exact ⟨x', this⟩) (Or.inl ⟨rfl, rfl⟩)
  rw [readSet H, Set.empty_union] at hm
  rw [em]
  simp only
  rcases hm with ⟨rfl, hm⟩ | ⟨lo, hi, rfl, hlo, hhi⟩
  · -- no cell at all
    have hcl : cellList ds.maxCol (rows.map (·.map fin)) = [] := by
      rw [List.eq_nil_iff_forall_not_mem]
      intro c hc
      obtain ⟨i, j, r, x, hr', hx, rfl⟩ := mem_cellList.1 hc
      rw [List.getElem?_map, Option.map_eq_some_iff] at hr'
      obtain ⟨r', hr', rfl⟩ := hr'
      rw [List.getElem?_map, Option.map_eq_some_iff] at hx
      obtain ⟨x', hx', rfl⟩ := hx
      have : x' ∈ valSet rows := ⟨r', List.mem_of_getElem? hr', List.mem_of_getElem? hx'⟩
      rw [hm] at this
      exact this
    rw [hcl]
    rfl
  obtain ⟨rl, hrl, hlo'⟩ := hlo.1
  obtain ⟨rh, hrh, hhi'⟩ := hhi.1
  have hd := hR rh hrh hi hhi' rl hrl lo hlo'
  simp only [fin_sub_fin, rnd_fin, rndMax_eq hd]
  by_cases h0 : Dbl.eqD (fin (rd (hi - lo)) : Dbl K) 0
  · rw [if_pos h0, if_pos h0]
  · rw [if_neg h0, if_neg h0]
    have hne : rd (hi - lo) ≠ 0 := fun e => h0 ⟨by rw [e]; rfl, by simp⟩
    have hpos : 0 < rd (hi - lo) := by
      have := hr.nonneg (sub_nonneg.2 (hlo.2 hhi.1))
      exact _root_.lt_of_le_of_ne this (Ne.symm hne)
    have hfit : ∀ r ∈ rows.map (·.map fin), (r.length : Int) ≤ ds.maxCol := fun r hr => by
      obtain ⟨i, hi⟩ := List.mem_iff_getElem?.1 hr
      exact H.fits i r hi
    have := rewrite_congr (fun x => rndMax rd X (rndMax rd X (x - fin lo) / fin (rd (hi - lo))))
      (fun x => rnd rd (rnd rd (x - fin lo) / fin (rd (hi - lo)))) (cellList ds.maxCol (rows.map (·.map fin))) ds (cellList_nodup hfit)
      (fun c hc => by
        obtain ⟨i, j, r, x, hr', hx, rfl⟩ := mem_cellList.1 hc
        have hread := H.cells i r hr' j x hx
        rw [List.getElem?_map, Option.map_eq_some_iff] at hr'
        obtain ⟨r', hr', rfl⟩ := hr'
        rw [List.getElem?_map, Option.map_eq_some_iff] at hx
        obtain ⟨x', hx', rfl⟩ := hx
        have hm' := List.mem_of_getElem? hr'
        have hx'' := List.mem_of_getElem? hx'
        refine ⟨_, hread, ?_⟩
        simp only [fin_sub_fin]
        rw [rndMax_eq (hR r' hm' x' hx'' rl hrl lo hlo'), rnd_fin, fin_div_fin hne, rnd_fin, rndMax_of_le hr hX]
        have h1 : 0 ≤ rd (x' - lo) := hr.nonneg (sub_nonneg.2 (hlo.2 ⟨r', hm', hx''⟩))
        have h2 : rd (x' - lo) ≤ rd (hi - lo) := hr.mono _ _ (by have := hhi.2 ⟨r', hm', hx''⟩; linarith)
        rw [abs_of_nonneg (div_nonneg h1 hpos.le)]
        exact ((div_le_one hpos).2 h2).trans hX1)
    simp only [bind, Except.bind] at this
    rw [this]

theorem paaLoopW_eq (hr : Rounding rd) {X B : K} (hX : rd X = X) {b N : ℕ} (hB : 0 ≤ B) (hbN : b ≤ N) (hN : sumOf rd B N ≤ X) (n : ℕ) :
    ∀ (xs : List K) (i count : ℕ) (sum : K) (dest : List (Dbl K)), (∀ x ∈ xs, |x| ≤ B) → |sum| ≤ sumOf rd B count → count < b →
      paaLoopW (rndMax rd X) b n (xs.map fin) i (fin sum) count dest = paaLoopR rd b n (xs.map fin) i (fin sum) count dest := by
  intro xs
  induction xs with
  | nil => intros; rfl
  | cons x xs ih =>
    intro i count sum dest hx hs hc
    have hxB := hx x (by simp)
    have h1 : |rd (sum + x)| ≤ sumOf rd B (count + 1) := by
      rw [hr.abs]
      refine hr.mono _ _ ((abs_add_le _ _).trans ?_)
      linarith
    have h2 : |rd (sum + x)| ≤ X := h1.trans ((sumOf_mono hr hB (by omega)).trans hN)
    simp only [List.map_cons, paaLoopW, paaLoopR, fin_add_fin, rndMax_eq h2, rnd_fin]
    have hxs : ∀ y ∈ xs, |y| ≤ B := fun y hy => hx y (by simp [hy])
    split
    · have h3 : ((count + 1 : ℕ) : K) ≠ 0 := by exact_mod_cast Nat.succ_ne_zero count
      have h4 : (1 : K) ≤ ((count + 1 : ℕ) : K) := by exact_mod_cast Nat.succ_le_succ (Nat.zero_le count)
      have e : rndMax rd X (fin (rd (sum + x)) / Dbl.ofNat (count + 1)) = fin (rd (rd (sum + x) / ((count + 1 : ℕ) : K))) := by
        simp only [Dbl.ofNat]
        rw [fin_div_fin h3, rndMax_of_le hr hX]
        rw [abs_div, abs_of_pos (by linarith : (0 : K) < ((count + 1 : ℕ) : K))]
        exact (div_le_self (abs_nonneg _) h4).trans h2
      have e' : rnd rd (fin (rd (sum + x)) / Dbl.ofNat (count + 1)) = fin (rd (rd (sum + x) / ((count + 1 : ℕ) : K))) := by
        simp only [Dbl.ofNat]
        rw [fin_div_fin h3, rnd_fin]
      rw [e, e']
      simp only [bind, Except.bind]
      cases setPoint dest ((i : Int).tdiv b) (fin (rd (rd (sum + x) / ((count + 1 : ℕ) : K)))) with
      | error _ => rfl
      | ok d => exact ih (i + 1) 0 0 d hxs (by simp [sumOf]) (by omega)
    · rename_i hne
      refine ih (i + 1) (count + 1) _ dest hxs h1 ?_
      rw [not_or] at hne
      have := hne.1
      omega

theorem tsPAAW_eq (hr : Rounding rd) {X B : K} (hX : rd X = X) (hB : 0 ≤ B) (b : ℕ) (hN : sumOf rd B b ≤ X) (x : List K)
    (hx : ∀ y ∈ x, |y| ≤ B) : tsPAAW (rndMax rd X) (x.map fin) b = tsPAAR rd (x.map fin) b := by
  unfold tsPAAW tsPAAR
  by_cases hb : (b : Int) = 0
  · rw [if_pos hb, if_pos hb]
  · rw [if_neg hb, if_neg hb]
    dsimp only
    by_cases h0 : (((x.map (fin (K := K))).length : Int) - 1).tdiv b + 1 < 0
    · rw [if_pos h0, if_pos h0]
    · rw [if_neg h0, if_neg h0]
      exact paaLoopW_eq hr hX hB le_rfl hN _ x 0 0 0 _ hx (by simp [sumOf]) (by omega)

end Genex
