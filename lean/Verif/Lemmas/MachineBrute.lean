import Verif.Model.MachineBrute
import Verif.Lemmas.BruteForce
import Verif.Lemmas.MachineRun

set_option linter.unusedSectionVars false

/-! The exhaustive search with integers of 32 bits (for C96). -/

namespace Genex

open Dbl Spec Registry Props

variable {K : Type} [Field K] [LinearOrder K]

theorem foldlM_flatMap {σ α β : Type} (g : α → List β) (f : σ → β → Res σ) : ∀ (l : List α) (s : σ),
    (l.flatMap g).foldlM f s = l.foldlM (fun s a => (g a).foldlM f s) s
  | [], _ => rfl
  | a :: l, s => by
    rw [List.flatMap_cons, List.foldlM_append, List.foldlM_cons]
    congr 1
    funext s'
    exact foldlM_flatMap g f l s'

section
variable [Arith K] (A : Algos (Cand K)) (ratio : ℚ) {ds : Dataset K} {rows : List (List (Dbl K))} (dist : DistRef) (query : List (Dbl K))

/-- One candidate in the unbounded model. -/
def bruteStep (ds : Dataset K) (st : Int × List (Cand K)) (c : ℕ × ℕ × ℕ) : Res (Int × List (Cand K)) := do
  let v ← ds.getTimeSeries c.1 c.2.1 c.2.2
  topKStep A (fun bound => do let pts ← ds.points v; Arith.eval ratio dist query pts bound) v st

theorem bind_ok_id {α : Type} (x : Res α) : (x >>= fun y => .ok y) = x := by cases x <;> rfl

theorem startsI_eq (H : Holds ds rows) (hI : Fits32 ds) {idx : ℕ} {len ℓ : ℕ} (hlen : (len : Int) ≤ ds.maxCol) (h2 : 2 ≤ ℓ) (hℓ : ℓ ≤ len)
    (st : Int × List (Cand K)) :
    startsI A ratio ds dist query idx ℓ len st =
      ((List.range (len - ℓ + 1)).map (fun s => (idx, s, s + ℓ))).foldlM (bruteStep A ratio dist query ds) st := by
  have hc := hI.cols
  unfold startsI
  rw [int32_bind _ (by omega) (by omega), List.foldlM_map, show ((len : Int) - ℓ + 1).toNat = len - ℓ + 1 by omega]
  refine foldlM_congr _ _ (fun s hs st => ?_)
  rw [List.mem_range] at hs
  rw [int32_bind _ (by omega) (by omega), getTimeSeriesI_eq H hI]
  unfold bruteStep
  push_cast
  cases hv : ds.getTimeSeries idx s (s + ℓ) with
  | error e => rfl
  | ok v =>
    have hb := getTimeSeries_bounds H hI hv
    simp only [bind, Except.bind]
    rw [pointsI_eq hb.1 hb.2]
    cases topKStep A _ v st with
    | error e => rfl
    | ok st' => simp only; rw [int32_ok (by omega) (by omega)]

theorem lengthsI_eq (H : Holds ds rows) (hI : Fits32 ds) {idx : ℕ} {r : List (Dbl K)} (hr : rows[idx]? = some r)
    (st : Int × List (Cand K)) :
    lengthsI A ratio ds dist query idx st =
      ((subCoords r.length).map (fun p => (idx, p))).foldlM (bruteStep A ratio dist query ds) st := by
  have hc := hI.cols
  have hf := H.fits idx r hr
  unfold lengthsI subCoords
  rw [H.getItemLength hr, List.map_flatMap, foldlM_flatMap]
  simp only [bind, Except.bind, Int.toNat_natCast]
  refine foldlM_congr _ _ (fun i hi st => ?_)
  rw [List.mem_range] at hi
  rw [startsI_eq A ratio dist query H hI hf (by omega) (by omega), List.map_map]
  simp only [Function.comp_def]
  cases List.foldlM (bruteStep A ratio dist query ds) st _ with
  | error e => rfl
  | ok st' => simp only; rw [int32_ok (by omega) (by omega)]

theorem bruteI_eq (H : Holds ds rows) (hI : Fits32 ds) (k : Int) (name : String) :
    bruteForceI A ratio ds query k name = bruteForce A ratio ds query k name := by
  unfold bruteForceI bruteForce
  split
  · rfl
  · congr 1
    funext dist
    rw [bruteCoords_ok H]
    have hfold : (List.range ds.itemCount).foldlM (fun st (idx : ℕ) => do
          let st' ← lengthsI A ratio ds dist query idx st
          let _ ← int32 (idx + 1)
          .ok st') (k, []) = (allCoords (rows.map List.length)).foldlM (bruteStep A ratio dist query ds) (k, []) := by
      have hall : allCoords (rows.map List.length) =
          (List.range ds.itemCount).flatMap (fun i => (subCoords (rows.getD i []).length).map (fun p => (i, p))) := by
        have h1 := bruteCoords_ok H
        unfold Dataset.bruteCoords at h1
        rw [mapM_ok _ (fun i => (subCoords (rows.getD i []).length).map (fun p => (i, p))) _ (by
          intro i hi
          rw [List.mem_range, H.count] at hi
          rw [H.getItemLength (getElem?_getD' hi [])]
          simp only [bind, Except.bind, Int.toNat_natCast])] at h1
        simp only [bind, Except.bind, Except.ok.injEq] at h1
        rw [← h1, List.flatMap_def]
      rw [hall, foldlM_flatMap]
      refine foldlM_congr _ _ (fun i hi st => ?_)
      rw [List.mem_range] at hi
      have hrows := hI.rows
      rw [lengthsI_eq A ratio dist query H hI (getElem?_getD' (by rw [← H.count]; exact hi) [])]
      simp only [bind, Except.bind]
      cases List.foldlM (bruteStep A ratio dist query ds) st _ with
      | error e => rfl
      | ok st' => simp only; rw [int32_ok (by omega) (by omega)]
    rw [hfold]
    rfl

end

theorem foldlM_all_ok {σ α : Type} {f : σ → α → Res σ} : ∀ {l : List α} {s t : σ}, l.foldlM f s = .ok t → ∀ a ∈ l, ∃ s' t', f s' a = .ok t'
  | [], _, _, _, a, ha => by cases ha
  | b :: l, s, t, h, a, ha => by
    rw [List.foldlM_cons] at h
    cases hb : f s b with
    | error e => rw [hb] at h; cases h
    | ok s' =>
      rw [hb] at h
      rcases List.mem_cons.1 ha with rfl | ha
      · exact ⟨s, s', hb⟩
      · exact foldlM_all_ok h a ha

end Genex
