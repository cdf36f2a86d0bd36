import Verif.Lemmas.BruteForce
import Verif.Lemmas.Exact
import Verif.Lemmas.StdAlgo
import Verif.Props.Dataset

/-!
# C25, C26: exhaustive search and the order of results
-/

set_option linter.unusedSectionVars false

namespace Genex.Props

open Dbl Spec

variable {K : Type} [Field K] [LinearOrder K] [IsStrictOrderedRing K]

/-! ## C26 -/

/-- C26: the order is a strict weak order on candidates whose distances are numbers or infinite and equal or at least
`1e-9` apart.  Missing: candidates whose distances differ by less, where it is not, see `C26_order_false`. -/
theorem C26_order_partial (l : List (Cand K)) (hn : ∀ c ∈ l, c.dist = .inf ∨ ∃ x, c.dist = fin x)
    (hg : ∀ c ∈ l, ∀ c' ∈ l, ∀ x y, c.dist = fin x → c'.dist = fin y → x ≠ y → 1 / 1000000000 ≤ |x - y|) :
    (∀ a ∈ l, ¬ a.lt a) ∧
    (∀ a ∈ l, ∀ b ∈ l, ∀ c ∈ l, a.lt b → b.lt c → a.lt c) ∧
    (∀ a ∈ l, ∀ b ∈ l, ∀ c ∈ l, ¬ a.lt b → ¬ b.lt a → ¬ b.lt c → ¬ c.lt b → ¬ a.lt c ∧ ¬ c.lt a) := by
  have S : Separated l := ⟨hn, fun c hc c' hc' x y h h' ne => by
    have := hg c hc c' hc' x y h h' ne
    unfold eps
    norm_num at this ⊢
    exact this⟩
  obtain ⟨h1, h2, h3⟩ := S.swo
  refine ⟨h1, h2, fun a ha b hb c hc n1 n2 n3 n4 => ?_⟩
  exact h3 a ha b hb c hc n1 n2 n3 n4

/-- C26 in part, for any two candidates at all: never both are before the other, and none is before itself. -/
theorem C26_asymm_partial (a b : Cand K) (h : a.lt b) : ¬ b.lt a := by
  have hsymm : ∀ x y : Dbl K, (Dbl.abs (x - y) < fin eps ↔ Dbl.abs (y - x) < fin eps) := by
    intro x y
    cases x with
    | fin x => cases y with
      | fin y => rw [Dbl.fin_sub_fin, Dbl.fin_sub_fin, Dbl.abs_fin, Dbl.abs_fin, abs_sub_comm]
      | _ => exact Iff.rfl
    | _ => cases y <;> exact Iff.rfl
  unfold Cand.lt at h ⊢
  by_cases hc : Dbl.abs (a.dist - b.dist) < fin eps
  · rw [if_pos hc] at h
    rw [if_pos ((hsymm _ _).1 hc)]
    split_ifs at h ⊢ <;> omega
  · rw [if_neg hc] at h
    rw [if_neg (fun h' => hc ((hsymm _ _).2 h'))]
    revert h
    cases a.dist <;> cases b.dist <;> simp
    exact fun h => le_of_lt h

/-- C26 is false: of three candidates each is before another in a circle. -/
theorem C26_order_false : ∃ a b c : Cand ℚ, a.lt b ∧ b.lt c ∧ c.lt a ∧ ¬ a.lt c := by
  refine ⟨⟨⟨0, 0, 0, 2⟩, fin (12 / 10 ^ 10)⟩, ⟨⟨0, 1, 0, 2⟩, fin (6 / 10 ^ 10)⟩, ⟨⟨0, 2, 0, 2⟩, fin 0⟩, ?_⟩
  decide +kernel

/-- Four candidates, with ties and an infinite distance, meet the hypotheses of `C26_order_partial`. -/
example := C26_order_partial (K := ℚ)
  [⟨⟨0, 0, 0, 2⟩, fin 1⟩, ⟨⟨0, 0, 1, 3⟩, fin 1⟩, ⟨⟨0, 1, 0, 2⟩, fin (5 / 2)⟩, ⟨⟨0, 1, 0, 5⟩, .inf⟩]
  (by simp) (by simp; norm_num)

/-! ## C25 -/

/-- The search with any arithmetic and any relation `P` for the distances it computes. -/
theorem topk_for [HasSqrt K] [Arith K] {A : Algos (Cand K)} (hA : SortsApart A) (m : Metric) [BandOps] (ratio : ℚ) {P : List K → Dbl K → Prop}
    (hu : ∀ x d d', P x d → P x d' → d = d') (ds : Dataset K) (rows : List (List K)) (H : Holds ds (rows.map (·.map fin)))
    (q : List K) (hP : ∀ x : List K, 2 ≤ x.length →
      ∃ F, P x F ∧ IsDist F ∧ ExactEval (Arith.eval ratio (.warped m) (q.map fin) (x.map fin)) F)
    (k : ℕ) (hk : 1 ≤ k) (hW : SpacedFor P rows) :
    ∃ res, bruteForce A ratio ds (q.map fin) k (metricName m) = .ok res ∧
      res.length = min k (subCount rows) ∧
      (res.map (fun c => (c.view.index, c.view.start, c.view.stop))).Nodup ∧
      (∀ c ∈ res, ∃ (i s e : ℕ) (x : List K), IsSub rows i s e x ∧
        c.view.index = i ∧ c.view.start = s ∧ c.view.stop = e ∧
        ds.points c.view = .ok (x.map fin) ∧ P x c.dist) ∧
      res.Pairwise (fun c c' => c.dist ≤ c'.dist) ∧
      (∀ i s e x d, IsSub rows i s e x → P x d →
        (∀ c ∈ res, ¬ (c.view.index = i ∧ c.view.start = s ∧ c.view.stop = e)) → ∀ c ∈ res, c.dist ≤ d) := by
  set D : List (Dbl K) → Dbl K := fun pts =>
    match Arith.eval ratio (.warped m) (q.map fin) pts .inf with | .ok F => F | .error _ => .nan with hD
  set R := rows.map (·.map (fin : K → Dbl K)) with hR
  set F : View → Dbl K := fun v => D (slice (R.getD v.index.toNat []) v.start.toNat v.stop.toNat) with hFd
  have hsub : ∀ c ∈ allCoords (R.map List.length), ∃ x, IsSub rows c.1 c.2.1 c.2.2 x ∧
      slice (R.getD c.1 []) c.2.1 c.2.2 = x.map fin := by
    rintro ⟨i, s, e⟩ hc
    obtain ⟨len, h1, h2, h3⟩ := mem_allCoords.1 hc
    simp only [hR, List.getElem?_map, Option.map_eq_some_iff] at h1
    obtain ⟨r', ⟨r, hr, rfl⟩, rfl⟩ := h1
    rw [List.length_map] at h3
    refine ⟨_, ⟨r, hr, h2, h3, rfl⟩, ?_⟩
    have : R.getD i [] = r.map fin := by
      rw [List.getD_eq_getElem?_getD, hR, List.getElem?_map, hr]; rfl
    simp only [this, slice, List.map_take, List.map_drop]
  have hmem : ∀ i s e x, IsSub rows i s e x → (i, s, e) ∈ allCoords (R.map List.length) := by
    rintro i s e x ⟨r, hr, h2, h3, -⟩
    refine mem_allCoords.2 ⟨r.length, ?_, h2, h3⟩
    simp [hR, hr]
  have hfun : ∀ i s e x x', IsSub rows i s e x → IsSub rows i s e x' → x = x' := by
    rintro i s e x x' ⟨r, h1, -, -, rfl⟩ ⟨r', h2, -, -, rfl⟩
    rw [h1, Option.some.injEq] at h2
    rw [h2]
  have hex : ∀ i s e x, IsSub rows i s e x → P x (D (x.map fin)) ∧ IsDist (D (x.map fin)) ∧
      ExactEval (Arith.eval ratio (.warped m) (q.map fin) (x.map fin)) (D (x.map fin)) := by
    rintro i s e x ⟨r, -, h2, h3, rfl⟩
    have hlen : 2 ≤ ((r.drop s).take (e - s)).length := by
      rw [List.length_take, List.length_drop]; omega
    obtain ⟨F, h1, h2, h3⟩ := hP ((r.drop s).take (e - s)) (by omega)
    have : D (((r.drop s).take (e - s)).map fin) = F := by
      rw [hD]
      simp only
      rw [h3.at_inf]
    rw [this]
    exact ⟨h1, h2, h3⟩
  have hFc : ∀ c : ℕ × ℕ × ℕ, F (viewOf ds.maxCol c) = D (slice (R.getD c.1 []) c.2.1 c.2.2) := by
    intro c
    simp only [hFd, viewOf, Int.toNat_natCast]
  obtain ⟨res, rest, e, hp, hl, hpw, hrest⟩ := bruteForce_ok hA ratio H (q.map fin) k hk (metricName m) (.warped m)
    (lookup_warped m) F (by
      intro c hc d
      obtain ⟨x, hx, hsl⟩ := hsub c hc
      rw [hFc, hsl]
      exact (hex _ _ _ x hx).2.2 d) (by
      constructor
      · intro c hc
        obtain ⟨p, hp, rfl⟩ := List.mem_map.1 hc
        obtain ⟨x, hx, hsl⟩ := hsub p hp
        simp only [hFc, hsl]
        rcases (hex _ _ _ x hx).2.1 with h | ⟨y, h, -⟩
        · exact Or.inl h
        · exact Or.inr ⟨y, h⟩
      · intro c hc c' hc' u v hu hv huv
        obtain ⟨p, hp, rfl⟩ := List.mem_map.1 hc
        obtain ⟨p', hp', rfl⟩ := List.mem_map.1 hc'
        obtain ⟨x, hx, hsl⟩ := hsub p hp
        obtain ⟨x', hx', hsl'⟩ := hsub p' hp'
        simp only [hFc, hsl, hsl'] at hu hv
        have h1 := (hex _ _ _ x hx).1
        have h2 := (hex _ _ _ x' hx').1
        rw [hu] at h1
        rw [hv] at h2
        have := hW _ _ _ _ _ _ _ _ u v hx hx' h1 h2 huv
        unfold eps
        norm_num at this ⊢
        exact this)
  have hin : ∀ c ∈ res ++ rest, ∃ p ∈ allCoords (R.map List.length),
      c = ⟨viewOf ds.maxCol p, F (viewOf ds.maxCol p)⟩ := by
    intro c hc
    obtain ⟨p, hp, rfl⟩ := List.mem_map.1 (hp.mem_iff.1 hc)
    exact ⟨p, hp, rfl⟩
  have hnd : ((res ++ rest).map (fun c => (c.view.index, c.view.start, c.view.stop))).Nodup := by
    rw [(hp.map _).nodup_iff, List.map_map]
    refine List.Nodup.map ?_ (allCoords_nodup _)
    intro p p' h
    simp only [Function.comp_apply, viewOf, Prod.mk.injEq, Nat.cast_inj] at h
    exact Prod.ext h.1 (Prod.ext h.2.1 h.2.2)
  refine ⟨res, e, ?_, ?_, ?_, hpw, ?_⟩
  · rw [hl, allCoords_length]
    unfold subCount
    simp only [hR, List.map_map, Function.comp_def, List.length_map]
  · rw [List.map_append, List.nodup_append] at hnd
    exact hnd.1
  · intro c hc
    obtain ⟨⟨i, s, e⟩, hm', rfl⟩ := hin c (List.mem_append.2 (Or.inl hc))
    obtain ⟨x, hx, hsl⟩ := hsub _ hm'
    refine ⟨i, s, e, x, hx, rfl, rfl, rfl, ?_, ?_⟩
    · obtain ⟨len, h1, h2, h3⟩ := mem_allCoords.1 hm'
      rw [List.getElem?_map, Option.map_eq_some_iff] at h1
      obtain ⟨r, hr, rfl⟩ := h1
      rw [← hsl]
      have : R.getD i [] = r := by rw [List.getD_eq_getElem?_getD, hr]; rfl
      simp only [this]
      exact H.points hr h3
    · simp only [hFc, hsl]
      exact (hex _ _ _ x hx).1
  · intro i s e x d hx hd hnot c hc
    have hmm := hmem i s e x hx
    have h0 : (⟨viewOf ds.maxCol (i, s, e), F (viewOf ds.maxCol (i, s, e))⟩ : Cand K) ∈ res ++ rest :=
      hp.mem_iff.2 (List.mem_map.2 ⟨_, hmm, rfl⟩)
    rcases List.mem_append.1 h0 with h | h
    · exact absurd ⟨rfl, rfl, rfl⟩ (hnot _ h)
    · have := hrest c hc _ h
      simp only [hFc] at this
      obtain ⟨x', hx', hsl⟩ := hsub _ hmm
      rw [hsl, hfun _ _ _ _ _ hx' hx] at this
      have hd' := (hex _ _ _ x hx).1
      rw [hu _ _ _ hd hd']; exact this

/-- C25: the search returns `min k (number of subsequences)` distinct subsequences with their exact distances in
non-decreasing order, and no subsequence left out is closer than a returned one.  `A` stands for the standard library's heap
and sort algorithms, of which only the contract in the C++ standard is used. -/
theorem C25_topk [HasSqrt K] (A : Algos (Cand K)) (hA : A.Lawful Cand.lt) (m : Metric)
    (hm : m ≠ .sorensen ∧ m ≠ .cosine) (hs : m = .euclidean → LawfulSqrt K) [BandOps] (ratio : ℚ) (hr : 0 ≤ ratio)
    (ds : Dataset K) (rows : List (List K)) (H : Holds ds (rows.map (·.map fin))) (q : List K) (hq : 1 ≤ q.length)
    (k : ℕ) (hk : 1 ≤ k) (hW : WellSpaced m ratio rows q) :
    ∃ res, bruteForce A ratio ds (q.map fin) k (metricName m) = .ok res ∧
      res.length = min k (subCount rows) ∧
      (res.map (fun c => (c.view.index, c.view.start, c.view.stop))).Nodup ∧
      (∀ c ∈ res, ∃ (i s e : ℕ) (x : List K), IsSub rows i s e x ∧
        c.view.index = i ∧ c.view.start = s ∧ c.view.stop = e ∧
        ds.points c.view = .ok (x.map fin) ∧ Dtw m ratio q x c.dist) ∧
      res.Pairwise (fun c c' => c.dist ≤ c'.dist) ∧
      (∀ i s e x d, IsSub rows i s e x → Dtw m ratio q x d →
        (∀ c ∈ res, ¬ (c.view.index = i ∧ c.view.start = s ∧ c.view.stop = e)) → ∀ c ∈ res, c.dist ≤ d) := by
  refine topk_for (P := Dtw m ratio q) hA.apart m ratio (fun _ _ _ => dtw_unique) ds rows H q ?_ k hk hW
  intro x hx
  obtain ⟨F, h1, h2, h3⟩ := dtw_exact m hm hs ratio hr q x hq (by omega) (by omega)
  exact ⟨F, h1, h2, h3⟩

/-- C25: a `k` that is not positive and a metric name that is not known are refused. -/
theorem C25_refuses [HasSqrt K] (A : Algos (Cand K)) [BandOps] (ratio : ℚ) (ds : Dataset K) (query : List (Dbl K)) (k : Int)
    (name : String) (h : k ≤ 0 ∨ ∀ m, name ≠ metricName m) :
    ∃ msg, bruteForce A ratio ds query k name = .error (.genex msg) := by
  unfold bruteForce
  by_cases hk : k ≤ 0
  · rw [if_pos hk]; exact ⟨_, rfl⟩
  · rw [if_neg hk]
    have hn := h.resolve_left hk
    have : ∃ msg, getDistanceFromName (name ++ "_dtw") = .error (.genex msg) := by
      cases e : getDistanceFromName (name ++ "_dtw") with
      | ok d =>
        exfalso
        obtain ⟨m, ⟨h1, -⟩ | ⟨h1, -⟩⟩ := (C48_lookup _ _).1 e
        · have h2 := congrArg (fun s => s.toList.getLast?) h1
          simp only [String.toList_append] at h2
          rw [show ("_dtw" : String).toList = ['_', 'd', 't', 'w'] by decide] at h2
          cases m <;> revert h2 <;> simp [metricName]
        · have h2 := congrArg String.toList h1
          rw [String.toList_append, String.toList_append] at h2
          exact hn m (String.toList_inj.1 (List.append_cancel_right h2))
      | error f =>
        unfold getDistanceFromName at e
        split at e
        · cases e
        · rw [Except.error.injEq] at e; exact ⟨_, by rw [← e]⟩
    obtain ⟨msg, e⟩ := this
    rw [e]
    exact ⟨msg, rfl⟩

/-- All distances from `q` to subsequences, for checking `WellSpaced` on an example. -/
def exDists (m : Metric) [BandOps] (ratio : ℚ) (rows : List (List ℚ)) (q : List ℚ) : List (Res (Dbl ℚ)) :=
  (allCoords (rows.map List.length)).map (fun c =>
    warpedValue (m.dm ℚ) ratio (q.map fin) ((((rows.getD c.1 []).drop c.2.1).take (c.2.2 - c.2.1)).map fin) .inf)

/-- Equal or at least `1e-9` apart. -/
def exGap : Dbl ℚ → Dbl ℚ → Bool
  | .fin u, .fin v => decide (u = v ∨ 1 / 1000000000 ≤ |u - v|)
  | _, _ => true

theorem wellSpaced_of_dists {m : Metric} [BandOps] {ratio : ℚ} {rows : List (List ℚ)} {q : List ℚ} (L : List (Dbl ℚ))
    (hm : m = .manhattan ∨ m = .chebyshev) (h0 : 0 ≤ ratio) (hq : 1 ≤ q.length) (h : exDists m ratio rows q = L.map .ok)
    (hL : ∀ a ∈ L, ∀ b ∈ L, exGap a b = true) : WellSpaced m ratio rows q := by
  have key : ∀ i s e x u, IsSub rows i s e x → Dtw m ratio q x (fin u) → fin u ∈ L := by
    rintro i s e x u ⟨r, hr, h2, h3, rfl⟩ hd
    have : (.ok (fin u) : Res (Dbl ℚ)) ∈ exDists m ratio rows q := by
      refine List.mem_map.2 ⟨(i, s, e), mem_allCoords.2 ⟨r.length, by simp [hr], h2, h3⟩, ?_⟩
      simp only [List.getD_eq_getElem?_getD, hr, Option.getD_some]
      exact (dtw_iff (by rcases hm with rfl | rfl <;> decide) (by rcases hm with rfl | rfl <;> simp) h0 hq
        (by rw [List.length_take, List.length_drop]; omega)).1 hd
    rw [h, List.mem_map] at this
    obtain ⟨y, hy, e⟩ := this
    rw [Except.ok.injEq] at e
    rwa [← e]
  intro i s e x i' s' e' x' u v hx hx' hu hv huv
  have := hL _ (key _ _ _ _ _ hx hu) _ (key _ _ _ _ _ hx' hv)
  simp only [exGap, decide_eq_true_eq] at this
  exact this.resolve_left huv

theorem exRows_spaced : WellSpaced (K := ℚ) .manhattan (1 / 2) [[7, 2, 3], [4, 12]] [3, 2] := by
  exact wellSpaced_of_dists [fin 1, fin (1 / 2), fin (5 / 6), fin (11 / 4)] (by simp) (by norm_num) (by simp) (by decide +kernel) (by decide +kernel)

/-- The hypotheses are met by a dataset with two series, and the search then returns the two nearest of four. -/
example := C25_topk (refAlgos Cand.lt) (refAlgos_lawful _) .manhattan (by simp) (by simp) (1 / 2) (by norm_num) exData
  [[7, 2, 3], [4, 12]] exData_holds [3, 2] (by simp) 2 (by simp) exRows_spaced
example : (bruteForce (refAlgos Cand.lt) (1 / 2) exData [fin 3, fin 2] 2 "manhattan").map
    (fun l => l.map (fun c => (c.view.index, c.view.start, c.view.stop, c.dist))) =
    .ok [(0, 1, 3, fin (1 / 2)), (0, 0, 3, fin (5 / 6))] := by decide +kernel

end Genex.Props
