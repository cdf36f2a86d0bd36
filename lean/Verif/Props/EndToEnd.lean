import Verif.Lemmas.EndToEnd
import Verif.Props.Api
import Verif.Props.Approx
import Verif.Props.BruteForce
import Verif.Props.KSearch

/-!
# C70: from the text file to the answer
-/

set_option linter.unusedSectionVars false

namespace Genex.Props

open Dbl Api Registry

section

variable {K : Type} [Field K] [LinearOrder K] [IsStrictOrderedRing K] [HasSqrt K]

/-- `C70_best` for any object with usable groups. -/
theorem ready_best (E : Env K) (s : Api K) (name : String) (rows : List (List K)) (m : Metric)
    (hm : m ≠ .sorensen ∧ m ≠ .cosine) (hs : m = .euclidean → LawfulSqrt K) (t : Dbl K) (whole : Bool)
    (hI : Inv s) (z : GSet K) (hz : Holds s name z)
    (R : Spec.Ready (rows.map (·.map fin)) (metricName m) t whole z) (hr : 0 ≤ s.ratio) (qname : String) (index start stop : Int) (q : List K)
    (hq : Query E s qname index start stop q) (s' : Api K) (c : Cand K)
    (hc : s.exec E (.bestMatch name qname index start stop) = (s', .ret (.ok (.cand c)))) :
    s' = s ∧ ∃ i p ℓ y x, Names c i p ℓ ∧ Spec.SubOf rows ℓ i p y ∧ Spec.Comparable s.ratio q.length ℓ ∧
      Spec.Dtw m s.ratio q y c.dist ∧ c.dist = fin x := by
  rw [best_exec hI hq hz] at hc
  cases e : z.getBestMatch s.ratio (q.map .fin) with
  | error f => rw [e] at hc; cases hc
  | ok c' =>
    rw [e] at hc
    cases hc
    obtain ⟨ℓ, i, p, y, x, h1, h2, h3, -, h5, h6⟩ := C34_best_match z rows s.ratio hr m hm hs t whole R q c e
    exact ⟨rfl, i, p, ℓ, y, x, by rw [Names, h3]; exact ⟨rfl, rfl, rfl⟩, h2, h1.2, h5, h6⟩

/-- C70: what `getBestMatch` answers for a grouped dataset is a part of a line of the file, with its DTW distance from the query,
for the band ratio now set. -/
theorem C70_best (E : Env K) (s : Api K) (name : String) (rows : List (List K)) (m : Metric)
    (hm : m ≠ .sorensen ∧ m ≠ .cosine) (hs : m = .euclidean → LawfulSqrt K) (t : Dbl K) (whole : Bool)
    (hg : Registry.Grouped E name rows (metricName m) t whole s) (hr : 0 ≤ s.ratio) (qname : String) (index start stop : Int) (q : List K)
    (hq : Query E s qname index start stop q) (s' : Api K) (c : Cand K)
    (hc : s.exec E (.bestMatch name qname index start stop) = (s', .ret (.ok (.cand c)))) :
    s' = s ∧ ∃ i p ℓ y x, Names c i p ℓ ∧ Spec.SubOf rows ℓ i p y ∧ Spec.Comparable s.ratio q.length ℓ ∧
      Spec.Dtw m s.ratio q y c.dist ∧ c.dist = fin x := by
  obtain ⟨z, hz, R⟩ := hg.ready
  exact ready_best E s name rows m hm hs t whole hg.inv z hz R hr qname index start stop q hq s' c hc

/-- `C70_returns` for any object with usable groups. -/
theorem ready_returns (E : Env K) (s : Api K) (name : String) (rows : List (List K)) (m : Metric)
    (hm : m ≠ .sorensen ∧ m ≠ .cosine) (hs : m = .euclidean → LawfulSqrt K) (t : Dbl K)
    (hI : Inv s) (z : GSet K) (hz : Holds s name z)
    (R : Spec.Ready (rows.map (·.map fin)) (metricName m) t false z) (hr : 0 ≤ s.ratio) (qname : String) (index start stop : Int) (q : List K)
    (hq : Query E s qname index start stop q) (h2 : 2 ≤ q.length) (hrow : ∃ r ∈ rows, q.length ≤ r.length) :
    ∃ c, s.exec E (.bestMatch name qname index start stop) = (s, .ret (.ok (.cand c))) := by
  obtain ⟨c, hc⟩ := C34_returns z rows s.ratio hr m hm hs t false R q h2 (.inl ⟨rfl, hrow⟩)
  refine ⟨c, ?_⟩
  rw [best_exec hI hq hz, hc]
  rfl

/-- C70: if all lengths were grouped, `getBestMatch` answers every query of at least two points that is not longer than some line of
the file. -/
theorem C70_returns (E : Env K) (s : Api K) (name : String) (rows : List (List K)) (m : Metric)
    (hm : m ≠ .sorensen ∧ m ≠ .cosine) (hs : m = .euclidean → LawfulSqrt K) (t : Dbl K)
    (hg : Registry.Grouped E name rows (metricName m) t false s) (hr : 0 ≤ s.ratio) (qname : String) (index start stop : Int) (q : List K)
    (hq : Query E s qname index start stop q) (h2 : 2 ≤ q.length) (hrow : ∃ r ∈ rows, q.length ≤ r.length) :
    ∃ c, s.exec E (.bestMatch name qname index start stop) = (s, .ret (.ok (.cand c))) := by
  obtain ⟨z, hz, R⟩ := hg.ready
  exact ready_returns E s name rows m hm hs t hg.inv z hz R hr qname index start stop q hq h2 hrow

/-- `C70_near` for any object with usable groups. -/
theorem ready_near (E : Env K) (s : Api K) (name : String) (rows : List (List K)) (m : Metric)
    (hm : m = .euclidean ∨ m = .chebyshev) (hs : m = .euclidean → LawfulSqrt K) (τ : K) (hτ : 0 ≤ τ)
    (hI : Inv s) (z : GSet K) (hz : Holds s name z)
    (R : Spec.Ready (rows.map (·.map fin)) (metricName m) (fin τ) false z) (hr : 0 ≤ s.ratio) (qname : String) (index start stop : Int)
    (q : List K) (hq : Query E s qname index start stop q) (s' : Api K) (c : Cand K)
    (hc : s.exec E (.bestMatch name qname index start stop) = (s', .ret (.ok (.cand c))))
    (ℓ i p : ℕ) (y : List K) (h2 : 2 ≤ ℓ) (hy : Spec.SubOf rows ℓ i p y) (hcom : Spec.Comparable s.ratio q.length ℓ) (x : K)
    (hx : Spec.Dtw m s.ratio q y (fin x)) :
    c.dist ≤ fin (x + (if m = .euclidean then τ / 4 else τ / 2)) := by
  rw [best_exec hI hq hz] at hc
  cases e : z.getBestMatch s.ratio (q.map .fin) with
  | error f => rw [e] at hc; cases hc
  | ok c' =>
    rw [e] at hc
    cases hc
    have hcon : Spec.Considered z.ds.maxCol false s.ratio q.length ℓ := by
      refine ⟨⟨?_, by simpa using h2⟩, hcom⟩
      obtain ⟨r, hr1, hr2, -⟩ := hy
      have := R.usable.1.fits i (r.map fin) (by rw [List.getElem?_map, hr1]; rfl)
      rw [List.length_map] at this
      omega
    rcases hm with rfl | rfl
    · have := hs rfl
      rw [if_pos rfl]
      exact C69_euclidean z rows s.ratio hr τ hτ false R q c e ℓ i p y hcon hy x hx
    · rw [if_neg (by decide)]
      exact C69_chebyshev z rows s.ratio hr τ hτ false R q c e ℓ i p y hcon hy x hx

/-- C70: if all lengths were grouped with threshold `τ`, no part of a line of the file of a comparable length is nearer to the query
than the answer by more than `τ / 4` (euclidean) or `τ / 2` (chebyshev). -/
theorem C70_near (E : Env K) (s : Api K) (name : String) (rows : List (List K)) (m : Metric)
    (hm : m = .euclidean ∨ m = .chebyshev) (hs : m = .euclidean → LawfulSqrt K) (τ : K) (hτ : 0 ≤ τ)
    (hg : Registry.Grouped E name rows (metricName m) (fin τ) false s) (hr : 0 ≤ s.ratio) (qname : String) (index start stop : Int)
    (q : List K) (hq : Query E s qname index start stop q) (s' : Api K) (c : Cand K)
    (hc : s.exec E (.bestMatch name qname index start stop) = (s', .ret (.ok (.cand c))))
    (ℓ i p : ℕ) (y : List K) (h2 : 2 ≤ ℓ) (hy : Spec.SubOf rows ℓ i p y) (hcom : Spec.Comparable s.ratio q.length ℓ) (x : K)
    (hx : Spec.Dtw m s.ratio q y (fin x)) :
    c.dist ≤ fin (x + (if m = .euclidean then τ / 4 else τ / 2)) := by
  obtain ⟨z, hz, R⟩ := hg.ready
  exact ready_near E s name rows m hm hs τ hτ hg.inv z hz R hr qname index start stop q hq s' c hc ℓ i p y h2 hy hcom x hx

/-- `C70_kbest` for any object with usable groups. -/
theorem ready_kbest (E : Env K) (hA : E.A.Lawful Cand.lt) (hB : E.B.Lawful GIdx.lt) (s : Api K) (name : String)
    (rows : List (List K)) (m : Metric) (hm : m ≠ .sorensen ∧ m ≠ .cosine) (hs : m = .euclidean → LawfulSqrt K) (t : Dbl K)
    (hI : Inv s) (z : GSet K) (hz : Holds s name z)
    (R : Spec.Ready (rows.map (·.map fin)) (metricName m) t false z) (hr : 0 ≤ s.ratio) (qname : String) (index start stop : Int)
    (q : List K) (hq : Query E s qname index start stop q) (h1 : 1 ≤ q.length)
    (hrow : ∃ r ∈ rows, q.length ≤ r.length ∧ 2 ≤ r.length)
    (k h : ℕ) (hh : 1 ≤ h) (hkh : k ≤ h) (hW : Spec.WellSpaced m s.ratio rows q) :
    ∃ res : List (Cand K), s.exec E (.kBest k h name qname index start stop) =
        (s, .ret (.ok (.entries (res.map GSet.Entry.cand ++ List.replicate (k - partCount rows s.ratio q.length) .pad)))) ∧
      res.length = min k (partCount rows s.ratio q.length) ∧
      (res.map (fun c => (c.view.index, c.view.start, c.view.stop))).Nodup ∧
      (∀ c ∈ res, ∃ i p ℓ y, Names c i p ℓ ∧ Spec.SubOf rows ℓ i p y ∧ 2 ≤ ℓ ∧ Spec.Comparable s.ratio q.length ℓ ∧
        Spec.Dtw m s.ratio q y c.dist) ∧
      res.Pairwise (fun c c' => c.dist ≤ c'.dist) ∧
      (partCount rows s.ratio q.length ≤ h → ∀ i p ℓ y d, Spec.SubOf rows ℓ i p y → 2 ≤ ℓ → Spec.Comparable s.ratio q.length ℓ →
        Spec.Dtw m s.ratio q y d → (∀ c ∈ res, ¬ Names c i p ℓ) → ∀ c ∈ res, c.dist ≤ d) := by
  have hfit : ∀ r ∈ rows, (r.length : Int) ≤ z.ds.maxCol := by
    intro r hr
    obtain ⟨i, hi⟩ := List.mem_iff_getElem?.1 hr
    have := R.usable.1.fits i (r.map fin) (by rw [List.getElem?_map, hi]; rfl)
    rwa [List.length_map] at this
  obtain ⟨r0, hr0, hr0q, hr02⟩ := hrow
  have hmax : 0 ≤ z.ds.maxCol := R.usable.2.1
  have hlong : (longest rows : Int) ≤ z.ds.maxCol := by
    have := longest_le (rows := rows) (n := z.ds.maxCol.toNat) (fun r hr => by have := hfit r hr; omega)
    omega
  have hav : Spec.available rows z.ds.maxCol false s.ratio q.length = partCount rows s.ratio q.length := by
    rw [← available_longest (z.ds.maxCol.toNat - longest rows)]
    congr 1
    push_cast
    omega
  obtain ⟨res, e, r1, r2, r3, r4, r5⟩ := kbest_result z rows s.ratio hr m hm hs t false R E.A hA E.B hB q (by omega)
    (by have := hfit r0 hr0; omega) (by have := hfit r0 hr0; omega) hW k h hh hkh
  rw [hav] at e r1 r5
  refine ⟨res, by rw [kBest_exec hI hq hz, e]; rfl, r1, ?_, ?_, r4, ?_⟩
  · rw [List.nodup_iff_pairwise_ne, List.pairwise_map] at r2 ⊢
    refine r2.imp_of_mem ?_
    intro c c' hc hc' hne heq
    obtain ⟨ℓ, i, p, x, -, -, hv, -⟩ := r3 c hc
    obtain ⟨ℓ', i', p', x', -, -, hv', -⟩ := r3 c' hc'
    refine hne ?_
    rw [hv, hv'] at heq ⊢
    simp only [Spec.subView, Prod.mk.injEq, Nat.cast_inj] at heq ⊢
    obtain ⟨h1, h2, h3⟩ := heq
    rw [h1, h2, show ((p' : Int) + (ℓ : Int)) = p' + ℓ' by rw [h2] at h3; exact h3]
  · intro c hc
    obtain ⟨ℓ, i, p, x, hcon, hsub, hv, hd⟩ := r3 c hc
    exact ⟨i, p, ℓ, x, by rw [Names, hv]; exact ⟨rfl, rfl, rfl⟩, hsub, by simpa using hcon.1.2, hcon.2, hd⟩
  · intro hle i p ℓ y d hy hℓ hcom hd hn
    refine r5 hle (Spec.subView z.ds.maxCol i p ℓ) d ⟨ℓ, i, p, y, ⟨⟨?_, by simpa using hℓ⟩, hcom⟩, hy, rfl, hd⟩ ?_
    · obtain ⟨r, h1, h2, -⟩ := hy
      have := hfit r (List.mem_of_getElem? h1)
      omega
    · intro hc
      obtain ⟨c, hc, hv⟩ := List.mem_map.1 hc
      exact hn c hc (by rw [Names, hv]; exact ⟨rfl, rfl, rfl⟩)

/-- C70: if all lengths were grouped, `getKBestMatches` with a budget of at least `k` answers with parts of lines of the file of
comparable lengths, with their DTW distances, nearest first and none twice; `k` of them, or all there are and then default-constructed
entries.  If distances are equal or at least `1e-9` apart. -/
theorem C70_kbest (E : Env K) (hA : E.A.Lawful Cand.lt) (hB : E.B.Lawful GIdx.lt) (s : Api K) (name : String)
    (rows : List (List K)) (m : Metric) (hm : m ≠ .sorensen ∧ m ≠ .cosine) (hs : m = .euclidean → LawfulSqrt K) (t : Dbl K)
    (hg : Registry.Grouped E name rows (metricName m) t false s) (hr : 0 ≤ s.ratio) (qname : String) (index start stop : Int)
    (q : List K) (hq : Query E s qname index start stop q) (h1 : 1 ≤ q.length)
    (hrow : ∃ r ∈ rows, q.length ≤ r.length ∧ 2 ≤ r.length)
    (k h : ℕ) (hh : 1 ≤ h) (hkh : k ≤ h) (hW : Spec.WellSpaced m s.ratio rows q) :
    ∃ res : List (Cand K), s.exec E (.kBest k h name qname index start stop) =
        (s, .ret (.ok (.entries (res.map GSet.Entry.cand ++ List.replicate (k - partCount rows s.ratio q.length) .pad)))) ∧
      res.length = min k (partCount rows s.ratio q.length) ∧
      (res.map (fun c => (c.view.index, c.view.start, c.view.stop))).Nodup ∧
      (∀ c ∈ res, ∃ i p ℓ y, Names c i p ℓ ∧ Spec.SubOf rows ℓ i p y ∧ 2 ≤ ℓ ∧ Spec.Comparable s.ratio q.length ℓ ∧
        Spec.Dtw m s.ratio q y c.dist) ∧
      res.Pairwise (fun c c' => c.dist ≤ c'.dist) ∧
      (partCount rows s.ratio q.length ≤ h → ∀ i p ℓ y d, Spec.SubOf rows ℓ i p y → 2 ≤ ℓ → Spec.Comparable s.ratio q.length ℓ →
        Spec.Dtw m s.ratio q y d → (∀ c ∈ res, ¬ Names c i p ℓ) → ∀ c ∈ res, c.dist ≤ d) := by
  obtain ⟨z, hz, R⟩ := hg.ready
  exact ready_kbest E hA hB s name rows m hm hs t hg.inv z hz R hr qname index start stop q hq h1 hrow k h hh hkh hW

/-- C70: the exhaustive search in a loaded dataset returns the `k` parts of lines of the file nearest to the query, nearest first, if
distances are equal or at least `1e-9` apart. -/
theorem C70_exhaustive (E : Env K) (hA : E.A.Lawful Cand.lt) (s : Api K) (name : String) (rows : List (List K)) (m : Metric)
    (hm : m ≠ .sorensen ∧ m ≠ .cosine) (hs : m = .euclidean → LawfulSqrt K) (hl : Loaded E name rows s) (hr : 0 ≤ s.ratio)
    (qname : String) (index start stop : Int) (q : List K) (hq : Query E s qname index start stop q) (h1 : 1 ≤ q.length)
    (k : ℕ) (hk : 1 ≤ k) (hW : Spec.WellSpaced m s.ratio rows q) :
    ∃ res, s.exec E (.bruteForce k name qname index start stop (metricName m)) = (s, .ret (.ok (.cands res))) ∧
      res.length = min k (Spec.subCount rows) ∧
      (res.map (fun c => (c.view.index, c.view.start, c.view.stop))).Nodup ∧
      (∀ c ∈ res, ∃ i p e x, Spec.IsSub rows i p e x ∧ Names c i p (e - p) ∧ Spec.Dtw m s.ratio q x c.dist) ∧
      res.Pairwise (fun c c' => c.dist ≤ c'.dist) ∧
      (∀ i p e x d, Spec.IsSub rows i p e x → Spec.Dtw m s.ratio q x d → (∀ c ∈ res, ¬ Names c i p (e - p)) →
        ∀ c ∈ res, c.dist ≤ d) := by
  obtain ⟨g, hg, H, -⟩ := hl.data
  obtain ⟨res, e, r1, r2, r3, r4, r5⟩ := C25_topk E.A hA m hm hs s.ratio hr g.ds rows H q h1 k hk hW
  refine ⟨res, ?_, r1, r2, ?_, r4, ?_⟩
  · rw [brute_exec hl.inv hq hg, e]
    rfl
  · intro c hc
    obtain ⟨i, p, e, x, h, h3, h4, h5, -, h6⟩ := r3 c hc
    refine ⟨i, p, e, x, h, ⟨h3, h4, ?_⟩, h6⟩
    obtain ⟨-, -, hpe, -⟩ := h
    rw [h5]
    omega
  · intro i p e x d hx hd hn
    refine r5 i p e x d hx hd ?_
    rintro c hc ⟨h3, h4, h5⟩
    refine hn c hc ⟨h3, h4, ?_⟩
    obtain ⟨-, -, hpe, -⟩ := hx
    rw [h5]
    omega

end

/-! ## A session -/

/-- Two series of three points. -/
def exTriples : Call ℚ := .load "f" (some "1 4 2\n2 3 5".toList) [] [' '] 0 0 false

def exTripleRows : List (List ℚ) := [[1, 4, 2], [2, 3, 5]]

theorem exTriples_has : FileHas exEnv.parse "1 4 2\n2 3 5".toList [' '] 0 0 false exTripleRows :=
  ⟨by decide, by decide +kernel, by decide +kernel⟩

/-- The interface after loading two datasets. -/
def exBoth : Api ℚ := (run fresh [exTiny, exTriples]).1

theorem exBoth_loaded : Loaded exEnv "f" exTripleRows exBoth := by
  obtain ⟨o, ho⟩ := kind_ok (r := ((run fresh [exTiny]).1.exec exEnv exTriples).2) (by decide +kernel)
  exact .mk (h' := []) (path := []) (s₁ := exBoth) (o := o) (run_fresh [exTiny] (by decide +kernel)) exTriples_has
    (Prod.ext rfl ho) (.nil _) (by simp)

/-- Then grouping the second one. -/
def exBothGrouped : Api ℚ × Reply ℚ :=
  match exBoth.deref 1 with
  | none => (exBoth, .dangling)
  | some g =>
    let out := g.groupAllLengths (GSpace.group g.ds exBoth.ratio (fun _ => false) "chebyshev" (fin 1) false)
      (fun gs => (gs, .ok 0)) 1
    (exBoth.store 1 out.1, .ret (out.2.map .int))

theorem exBothGrouped_step :
    Step exEnv exBoth (.group "f" (fin 1) "chebyshev" 1 false) exBothGrouped.1 exBothGrouped.2 := by
  have hf : mapFind exBoth.datasets "f" = some 1 := by decide +kernel
  obtain ⟨g, hg⟩ : ∃ g, exBoth.deref 1 = some g := Option.isSome_iff_exists.1 (by decide +kernel)
  unfold Step GroupCall exBothGrouped
  simp only [hf, hg]
  exact ⟨fun _ => false, _, ⟨_, fun h => by omega, rfl⟩, rfl, rfl⟩

/-- Then another band, and the first dataset is unloaded and loaded again. -/
def exServed : Api ℚ := (run exBothGrouped.1 [.setRatio (1 / 2), .unload "d", exTiny]).1

theorem exServed_grouped : Registry.Grouped exEnv "f" exTripleRows (metricName .chebyshev) (fin 1) false exServed := by
  obtain ⟨o, ho⟩ := kind_ok (r := exBothGrouped.2) (by decide +kernel)
  refine .mk exBoth_loaded (o := o) (ho ▸ exBothGrouped_step)
    (run_history (.nil _) [.setRatio (1 / 2), .unload "d", exTiny] (by decide +kernel)) ?_
  generalize (run exBothGrouped.1 [.setRatio (1 / 2), .unload "d", exTiny]).2 = R
  intro e he
  have := (List.of_mem_zip he).1
  simp only [List.map_cons, List.map_nil, List.mem_cons, List.not_mem_nil, or_false] at this
  rcases this with h | h | h <;> rw [h] <;> simp [Changes, named, exTiny]

/-- The points that a reply shows. -/
def shown : Reply ℚ → Option (List (Dbl ℚ))
  | .ret (.ok (.series l)) => some l
  | _ => none

theorem shown_some {r : Reply ℚ} {l : List (Dbl ℚ)} (h : shown r = some l) : r = .ret (.ok (.series l)) := by
  unfold shown at h
  split at h
  · cases h; rfl
  · cases h

theorem exServed_query : Query exEnv exServed "f" 0 1 3 [4, 2] :=
  ⟨_, Prod.ext rfl (shown_some (r := (exServed.exec exEnv (.series "f" 0 1 3)).2) (by decide +kernel))⟩

/-- The matches that a reply shows: series, start, end, distance. -/
def found : Reply ℚ → List (Int × Int × Int × Dbl ℚ)
  | .ret (.ok (.cand c)) => [(c.view.index, c.view.start, c.view.stop, c.dist)]
  | .ret (.ok (.cands l)) => l.map (fun c => (c.view.index, c.view.start, c.view.stop, c.dist))
  | _ => []

example : found (exServed.exec exEnv (.bestMatch "f" "f" 0 1 3)).2 = [(0, 1, 3, fin 0)] := by decide +kernel
example (s' : Api ℚ) (c : Cand ℚ) := C70_best (s' := s') (c := c) exEnv exServed "f" exTripleRows .chebyshev (by decide) (by simp)
  (fin 1) false exServed_grouped (by decide +kernel) "f" 0 1 3 [4, 2] exServed_query
example := C70_returns exEnv exServed "f" exTripleRows .chebyshev (by decide) (by simp) (fin 1) exServed_grouped
  (by decide +kernel) "f" 0 1 3 [4, 2] exServed_query (by decide) (by decide)
example (s' : Api ℚ) (c : Cand ℚ) := C70_near (s' := s') (c := c) exEnv exServed "f" exTripleRows .chebyshev (by decide) (by simp)
  1 (by decide) exServed_grouped (by decide +kernel) "f" 0 1 3 [4, 2] exServed_query
example : Spec.Dtw .chebyshev exServed.ratio ([4, 2] : List ℚ) [3, 5] (fin 3) :=
  (dtw_iff (by decide) (by simp) (by decide +kernel) (by simp) (by simp)).2 (by decide +kernel)

theorem exServed_spaced : Spec.WellSpaced (K := ℚ) .manhattan exServed.ratio exTripleRows [4, 2] :=
  wellSpaced_of_dists [fin (5 / 4), fin 0, fin (1 / 2), fin (3 / 4), fin 1, fin 1] (by simp) (by decide +kernel) (by simp) (by decide +kernel) (by decide +kernel)

example := C70_exhaustive exEnv (refAlgos_lawful _) exServed "f" exTripleRows .manhattan (by decide) (by simp) exServed_grouped.loaded
  (by decide +kernel) "f" 0 1 3 [4, 2] exServed_query (by decide) 2 (by decide) exServed_spaced
example : found (exServed.exec exEnv (.bruteForce 2 "f" "f" 0 1 3 "manhattan")).2 = [(0, 1, 3, fin 0), (0, 0, 3, fin (1 / 2))] := by
  decide +kernel

/-- The second dataset normalised: the least number is 1, the greatest 5. -/
def exUnit : Api ℚ := (exBoth.exec exEnv (.normalize "f")).1

def exUnitRows : List (List ℚ) := [[0, 3 / 4, 1 / 4], [1 / 4, 1 / 2, 1]]

theorem exUnit_scales : Scales exTripleRows exUnitRows := by
  refine ⟨1, 5, ⟨⟨[1, 4, 2], by decide, by decide⟩, ?_⟩, ⟨⟨[2, 3, 5], by decide, by decide⟩, ?_⟩, by decide +kernel⟩
  · rintro x ⟨r, hr, hx⟩
    revert x
    revert r
    decide +kernel
  · rintro x ⟨r, hr, hx⟩
    revert x
    revert r
    decide +kernel

theorem exUnit_loaded : Loaded exEnv "f" exUnitRows exUnit := by
  obtain ⟨o, ho⟩ := kind_ok (r := (exBoth.exec exEnv (.normalize "f")).2) (by decide +kernel)
  exact .normalised (h := []) (s₁ := exUnit) (o := o) exBoth_loaded exUnit_scales (Prod.ext rfl ho) (.nil _) (by simp)

theorem exUnit_query : Query exEnv exUnit "f" 0 1 3 [3 / 4, 1 / 4] :=
  ⟨_, Prod.ext rfl (shown_some (r := (exUnit.exec exEnv (.series "f" 0 1 3)).2) (by decide +kernel))⟩

theorem exUnit_spaced : Spec.WellSpaced (K := ℚ) .manhattan exUnit.ratio exUnitRows [3 / 4, 1 / 4] :=
  wellSpaced_of_dists [fin (5 / 16), fin 0, inf, fin (3 / 16), fin (1 / 4), inf] (by simp) (by decide +kernel) (by simp) (by decide +kernel) (by decide +kernel)

example := C70_exhaustive exEnv (refAlgos_lawful _) exUnit "f" exUnitRows .manhattan (by decide) (by simp) exUnit_loaded
  (by decide +kernel) "f" 0 1 3 [3 / 4, 1 / 4] exUnit_query (by decide) 2 (by decide) exUnit_spaced

theorem exServed_spaced' : Spec.WellSpaced (K := ℚ) .chebyshev exServed.ratio exTripleRows [4, 2] :=
  wellSpaced_of_dists [fin 3, fin 0, fin 3, fin 2, fin 3, fin 3] (by simp) (by decide +kernel) (by simp) (by decide +kernel)
    (by decide +kernel)

example := C70_kbest exEnv (refAlgos_lawful _) (refAlgos_lawful _) exServed "f" exTripleRows .chebyshev (by decide) (by simp) (fin 1)
  exServed_grouped (by decide +kernel) "f" 0 1 3 [4, 2] exServed_query (by decide) (by decide) 2 4 (by decide) (by decide)
  exServed_spaced'
example : partCount exTripleRows exServed.ratio 2 = 6 := by decide +kernel

end Genex.Props
