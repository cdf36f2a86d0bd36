import Verif.Lemmas.TopK
import Verif.Lemmas.DatasetOps
import Verif.Spec.Search

/-! Exhaustive search. -/

set_option linter.unusedSectionVars false

namespace Genex

open Spec Dbl

variable {K : Type}

theorem mem_subCoords {len s e : ℕ} : (s, e) ∈ subCoords len ↔ s + 2 ≤ e ∧ e ≤ len := by
  unfold subCoords
  simp only [List.mem_flatMap, List.mem_range, List.mem_map, Prod.mk.injEq]
  constructor
  · rintro ⟨i, hi, s', hs', rfl, rfl⟩
    omega
  · rintro ⟨h1, h2⟩
    exact ⟨e - s - 2, by omega, s, by omega, rfl, by omega⟩

theorem subCoords_nodup (len : ℕ) : (subCoords len).Nodup := by
  unfold subCoords
  rw [List.nodup_flatMap]
  constructor
  · intro i _
    exact List.Nodup.map (fun a b h => (Prod.mk.inj h).1) List.nodup_range
  · refine List.Pairwise.imp_of_mem ?_ (List.nodup_range : (List.range (len - 1)).Nodup)
    intro a b _ _ hab p hp hp'
    simp only [List.mem_map, List.mem_range] at hp hp'
    obtain ⟨s, -, rfl⟩ := hp
    obtain ⟨s', -, h⟩ := hp'
    rw [Prod.mk.injEq] at h
    omega

theorem sum_range_rev (n m : ℕ) (h : m ≤ n) :
    ((List.range m).map (fun i => n - i)).sum * 2 + (n - m) * (n - m + 1) = n * (n + 1) := by
  induction m with
  | zero => simp
  | succ m ih =>
    rw [List.range_succ, List.map_append, List.sum_append]
    simp only [List.map_cons, List.map_nil, List.sum_cons, List.sum_nil, Nat.add_zero]
    have := ih (by omega)
    obtain ⟨d, rfl⟩ : ∃ d, n = m + 1 + d := ⟨n - (m + 1), by omega⟩
    rw [show m + 1 + d - (m + 1) = d by omega]
    rw [show m + 1 + d - m = d + 1 by omega] at this ⊢
    nlinarith

theorem subCoords_length (len : ℕ) : (subCoords len).length = len * (len - 1) / 2 := by
  unfold subCoords
  rw [List.length_flatMap]
  simp only [List.length_map, List.length_range]
  cases len with
  | zero => rfl
  | succ n =>
    have h : (List.range (n + 1 - 1)).map (fun i => n + 1 - (i + 2) + 1) = (List.range n).map (fun i => n - i) := by
      rw [Nat.add_sub_cancel]
      apply List.map_congr_left
      intro i hi
      rw [List.mem_range] at hi
      omega
    rw [h]
    have := sum_range_rev n n le_rfl
    simp only [Nat.sub_self, Nat.zero_mul, Nat.add_zero] at this
    rw [Nat.add_sub_cancel, Nat.mul_comm (n + 1) n]
    omega

/-- The coordinates of all subsequences, for given lengths. -/
def allCoords (lens : List ℕ) : List (ℕ × ℕ × ℕ) :=
  (lens.mapIdx (fun i len => (subCoords len).map (fun p => (i, p)))).flatten

theorem mem_allCoords {lens : List ℕ} {i s e : ℕ} :
    (i, s, e) ∈ allCoords lens ↔ ∃ len, lens[i]? = some len ∧ s + 2 ≤ e ∧ e ≤ len := by
  unfold allCoords
  simp only [List.mem_flatten, List.mem_mapIdx]
  constructor
  · rintro ⟨l, ⟨j, hj, rfl⟩, hm⟩
    obtain ⟨p, hp, h⟩ := List.mem_map.1 hm
    rw [Prod.mk.injEq] at h
    obtain ⟨rfl, rfl⟩ := h
    exact ⟨_, List.getElem?_eq_getElem hj, mem_subCoords.1 hp⟩
  · rintro ⟨len, h, hse⟩
    obtain ⟨hi, rfl⟩ := List.getElem?_eq_some_iff.1 h
    exact ⟨_, ⟨i, hi, rfl⟩, List.mem_map.2 ⟨_, mem_subCoords.2 hse, rfl⟩⟩

theorem allCoords_nodup (lens : List ℕ) : (allCoords lens).Nodup := by
  unfold allCoords
  rw [List.nodup_flatten]
  constructor
  · intro l hl
    rw [List.mem_mapIdx] at hl
    obtain ⟨i, hi, rfl⟩ := hl
    exact List.Nodup.map (fun a b h => (Prod.mk.inj h).2) (subCoords_nodup _)
  · rw [List.pairwise_iff_getElem]
    intro a b ha hb hab
    rw [List.getElem_mapIdx, List.getElem_mapIdx]
    intro p hp hp'
    simp only [List.mem_map] at hp hp'
    obtain ⟨q, -, rfl⟩ := hp
    obtain ⟨q', -, h⟩ := hp'
    rw [Prod.mk.injEq] at h
    omega

theorem allCoords_length (lens : List ℕ) : (allCoords lens).length = (lens.map (fun n => n * (n - 1) / 2)).sum := by
  unfold allCoords
  rw [List.length_flatten]
  congr 1
  apply List.ext_getElem?
  intro i
  rw [List.getElem?_map, List.getElem?_map, List.getElem?_mapIdx, Option.map_map]
  cases lens[i]? with
  | none => rfl
  | some n => simp [subCoords_length]

theorem bruteCoords_ok [Field K] [LinearOrder K] {ds : Dataset K} {rows : List (List (Dbl K))} (H : Holds ds rows) :
    ds.bruteCoords = .ok (allCoords (rows.map List.length)) := by
  unfold Dataset.bruteCoords allCoords
  have key : ∀ i ∈ List.range ds.itemCount, (do
      let len ← ds.getItemLength i
      .ok ((subCoords len.toNat).map (fun p => (i, p))) : Res (List (ℕ × ℕ × ℕ))) =
      .ok ((subCoords (rows.getD i []).length).map (fun p => (i, p))) := by
    intro i hi
    rw [List.mem_range, H.count] at hi
    rw [H.getItemLength (getElem?_getD' hi [])]
    simp only [bind, Except.bind, Int.toNat_natCast]
  rw [mapM_ok _ _ _ key]
  simp only [bind, Except.bind]
  congr 2
  apply List.ext_getElem?
  intro i
  rw [List.getElem?_map, List.getElem?_mapIdx, List.getElem?_map, H.count]
  by_cases hi : i < rows.length
  · rw [List.getElem?_range hi, getElem?_getD' hi []]
    rfl
  · have h0 : rows[i]? = none := List.getElem?_eq_none (by omega)
    rw [List.getElem?_eq_none (by rw [List.length_range]; omega), h0]
    rfl

/-- The view of a subsequence. -/
def viewOf (maxCol : Int) (c : ℕ × ℕ × ℕ) : View :=
  { base := c.1 * maxCol, index := c.1, start := c.2.1, stop := c.2.2 }

theorem viewOf_inj {mc : Int} {c c' : ℕ × ℕ × ℕ} (h : viewOf mc c = viewOf mc c') : c = c' := by
  unfold viewOf at h
  simp only [View.mk.injEq, Nat.cast_inj] at h
  obtain ⟨-, h1, h2, h3⟩ := h
  exact Prod.ext h1 (Prod.ext h2 h3)

theorem foldlM_congr {σ α : Type} {f g : σ → α → Res σ} : ∀ (l : List α) (s : σ), (∀ x ∈ l, ∀ s, f s x = g s x) →
    l.foldlM f s = l.foldlM g s := by
  intro l
  induction l with
  | nil => intro s _; rfl
  | cons x xs ih =>
    intro s h
    rw [List.foldlM_cons, List.foldlM_cons, h x (by simp)]
    cases g s x with
    | error e => rfl
    | ok s' => exact ih s' (fun y hy => h y (by simp [hy]))

section

variable [Field K] [LinearOrder K] [IsStrictOrderedRing K] [HasSqrt K] [Arith K]

/-- Exhaustive search for any distance that honours its bound on the subsequences of the dataset. -/
theorem bruteForce_ok {A : Algos (Cand K)} (hA : SortsApart A) [BandOps] (ratio : ℚ) {ds : Dataset K}
    {rows : List (List (Dbl K))} (H : Holds ds rows) (query : List (Dbl K)) (k : ℕ) (hk : 0 < k) (name : String)
    (ref : DistRef) (hname : getDistanceFromName (name ++ "_dtw") = .ok ref) (F : View → Dbl K)
    (hF : ∀ c ∈ allCoords (rows.map List.length), ∀ d,
      Arith.eval ratio ref query (slice (rows.getD c.1 []) c.2.1 c.2.2) d = .ok (F (viewOf ds.maxCol c)) ∨
      (d < F (viewOf ds.maxCol c) ∧ Arith.eval ratio ref query (slice (rows.getD c.1 []) c.2.1 c.2.2) d = .ok .inf))
    (hS : Separated ((allCoords (rows.map List.length)).map
      (fun c => (⟨viewOf ds.maxCol c, F (viewOf ds.maxCol c)⟩ : Cand K)))) :
    ∃ res rest, bruteForce A ratio ds query k name = .ok res ∧
      (res ++ rest).Perm ((allCoords (rows.map List.length)).map
        (fun c => (⟨viewOf ds.maxCol c, F (viewOf ds.maxCol c)⟩ : Cand K))) ∧
      res.length = min k (allCoords (rows.map List.length)).length ∧
      res.Pairwise (fun a b => a.dist ≤ b.dist) ∧ ∀ h ∈ res, ∀ r ∈ rest, h.dist ≤ r.dist := by
  unfold bruteForce
  rw [if_neg (by omega), hname, bruteCoords_ok H]
  simp only [bind, Except.bind]
  set coords := allCoords (rows.map List.length) with hc
  have hval : ∀ c ∈ coords, ds.getTimeSeries c.1 c.2.1 c.2.2 = .ok (viewOf ds.maxCol c) ∧
      ds.points (viewOf ds.maxCol c) = .ok (slice (rows.getD c.1 []) c.2.1 c.2.2) := by
    rintro ⟨i, s, e⟩ hm
    obtain ⟨len, h1, h2, h3⟩ := mem_allCoords.1 hm
    rw [List.getElem?_map, Option.map_eq_some_iff] at h1
    obtain ⟨r, hr, rfl⟩ := h1
    have : rows.getD i [] = r := by rw [List.getD_eq_getElem?_getD, hr]; rfl
    simp only [this]
    exact ⟨H.getTimeSeries hr (by omega) h3, H.points hr h3⟩
  have hfold : ∀ (f : Int × List (Cand K) → ℕ × ℕ × ℕ → Res (Int × List (Cand K))) (s0 : Int × List (Cand K)),
      (∀ c ∈ coords, ∀ st, f st c = topKStep A (fun bound => do
        let pts ← ds.points (viewOf ds.maxCol c)
        Arith.eval ratio ref query pts bound) (viewOf ds.maxCol c) st) →
      coords.foldlM f s0 = (coords.map (viewOf ds.maxCol)).foldlM (fun (st : Int × List (Cand K)) v =>
        topKStep A (fun bound => do
          let pts ← ds.points v
          Arith.eval ratio ref query pts bound) v st) s0 := by
    intro f s0 hf
    rw [List.foldlM_map]
    exact foldlM_congr _ _ hf
  rw [hfold _ _ (by
    intro c hm st
    rw [(hval c hm).1]
    rfl)]
  obtain ⟨st, e, hinv⟩ := topK_loop hA (F := F) hk (fun (st : Int × List (Cand K)) v =>
        topKStep A (fun bound => do
          let pts ← ds.points v
          Arith.eval ratio ref query pts bound) v st) (coords.map (viewOf ds.maxCol)) (by
      intro v hv
      obtain ⟨c, hm, rfl⟩ := List.mem_map.1 hv
      refine ⟨_, ?_, fun st => rfl⟩
      intro d
      rw [(hval c hm).2]
      exact hF c hm d) (by rw [List.map_map]; exact hS)
  rw [e]
  obtain ⟨rest, hp, hl, hle⟩ := hinv.result
  rw [List.map_map] at hp
  have hSst : Separated st.2 := hS.mono (fun a ha => by
    have := hp.mem_iff.1 (List.mem_append.2 (Or.inl ha))
    exact this)
  obtain ⟨sp, so⟩ := hA.sort st.2 hSst
  refine ⟨_, rest, rfl, ?_, ?_, ?_, ?_⟩
  · exact (sp.append_right rest).trans hp
  · rw [sp.length_eq, hl, List.length_map]
  · refine List.Pairwise.imp_of_mem ?_ so
    intro a b ha hb hab
    exact hSst.le_of_not_lt (sp.mem_iff.1 hb) (sp.mem_iff.1 ha) hab
  · intro h hh r hr
    exact hle h (sp.mem_iff.1 hh) r hr

end

end Genex
