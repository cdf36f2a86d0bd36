import Verif.Lemmas.PyAnswer
import Verif.Lemmas.Paa
import Verif.Props.EndToEnd
import Verif.Props.Interface
import Verif.Props.Py

/-!
# C90: the answers of the Python module
-/

set_option linter.unusedSectionVars false

namespace Genex.Props

open Dbl Api Registry Py

section

variable {K : Type} [Field K] [LinearOrder K] [HasSqrt K]

/-- C90: a call that reaches the interface gives the promised object, or the exception that the interface threw; only undefined
behaviour and calls without end have no such outcome. -/
theorem C90_tells [Arith K] [BandOps] (E : Env K) (F : Files K) (s s' : Api K) (name : String) (hne : name ≠ "getMatching")
    (pos : List (Val K)) (kw : List (String × Val K)) (hk : (kw.map Prod.fst).Nodup) (c : AnyCall K)
    (hc : request F name pos kw = .call c) (o : Py.Outcome K) (h : Turn E F s name pos kw s' o) :
    ∃ r, Api.Step E s c s' r ∧ Tells c r o := by
  unfold Turn at h
  rw [hc] at h
  obtain ⟨r, hr, rfl⟩ := h
  obtain ⟨ps, vals, ws, -, -, -, M, -⟩ := (request_iff F name hne pos kw hk c).1 hc
  exact ⟨r, hr, tells_of M hr⟩

/-- C90: the same for `getMatching` with its nine arguments. -/
theorem C90_matching [Arith K] [BandOps] (E : Env K) (F : Files K) (s s' : Api K) (n₁ n₂ d : String) (i₁ s₁ e₁ i₂ s₂ e₂ : Int)
    (o : Py.Outcome K) (hsm : ∀ z ∈ [i₁, s₁, e₁, i₂, s₂, e₂], -2 ^ 31 ≤ z ∧ z < 2 ^ 31)
    (h : Turn E F s "getMatching" [.str n₁, .int i₁, .int s₁, .int e₁, .str n₂, .int i₂, .int s₂, .int e₂, .str d] [] s' o) :
    ∃ r, Api.Step E s (.call (.matching n₁ i₁ s₁ e₁ n₂ i₂ s₂ e₂ d)) s' r ∧
      Tells (.call (.matching n₁ i₁ s₁ e₁ n₂ i₂ s₂ e₂ d)) r o := by
  have hd : Documented F "getMatching" [.str n₁, .int i₁, .int s₁, .int e₁, .str n₂, .int i₂, .int s₂, .int e₂, .str d] []
      (.call (.matching n₁ i₁ s₁ e₁ n₂ i₂ s₂ e₂ d)) := by
    refine ⟨_, _, _, rfl, ⟨by simp, rfl, fun i hi => rfl, ?_, by simp⟩, ?_, .getMatching _ _ _ _ _ _ _ _ _⟩
    · intro i p hi hp
      have := (List.getElem?_eq_some_iff.1 hp).1
      simp only [List.length_cons, List.length_nil] at this hi
      omega
    · have a1 := hsm i₁ (by simp)
      have a2 := hsm s₁ (by simp)
      have a3 := hsm e₁ (by simp)
      have a4 := hsm i₂ (by simp)
      have a5 := hsm s₂ (by simp)
      have a6 := hsm e₂ (by simp)
      exact .cons (.str _) (.cons (.int a1.1 a1.2) (.cons (.int a2.1 a2.2) (.cons (.int a3.1 a3.2) (.cons (.str _)
        (.cons (.int a4.1 a4.2) (.cons (.int a5.1 a5.2) (.cons (.int a6.1 a6.2) (.cons (.str _) .nil))))))))
  have hc := C82_matching_full F _ rfl _ hd
  unfold Turn at h
  rw [hc] at h
  obtain ⟨r, hr, rfl⟩ := h
  exact ⟨r, hr, tells_of (F := F) (.getMatching n₁ n₂ d i₁ s₁ e₁ i₂ s₂ e₂) hr⟩

end

section

variable {K : Type} [Field K] [LinearOrder K] [IsStrictOrderedRing K] [HasSqrt K] (E : Env K) (F : Files K) (s : Api K) (name : String)
    (rows : List (List K)) (hsize : rows.length < 2 ^ 31 ∧ ∀ r ∈ rows, r.length < 2 ^ 31)

include hsize

/-- A part of a line, read back. -/
theorem part_reads (hl : Loaded E name rows s) {ℓ j p : ℕ} {y : List K} (hy : Spec.SubOf rows ℓ j p y) (hℓ : 1 ≤ ℓ) :
    Query E s name j p (p + ℓ) y ∧ IntSized (j : Int) ∧ IntSized (p : Int) ∧ IntSized ((p : Int) + ℓ) ∧ y.length = ℓ := by
  obtain ⟨g, hg, H, -⟩ := hl.data
  obtain ⟨r, h1, h2, rfl⟩ := hy
  obtain ⟨id, k1, k2⟩ := hl.inv.holds.1 hg
  obtain ⟨v1, v2⟩ := H.view_points h1 (show p < p + ℓ by omega) h2
  have hj := (List.getElem?_eq_some_iff.1 h1).1
  have hrl := hsize.2 r (List.mem_of_getElem? h1)
  have hrs := hsize.1
  refine ⟨⟨s, ?_⟩, ?_, ?_, ?_, ?_⟩
  · simp only [exec]
    rw [withSet_some k1 k2]
    push_cast at v1
    simp only [queryOf, v1, bind, Except.bind, v2, Except.map, sub, Nat.add_sub_cancel_left]
  · unfold IntSized; omega
  · unfold IntSized; omega
  · unfold IntSized; omega
  · simp; omega

/-- C90: `sim` on a dataset that was loaded from a file and grouped returns `{"dist": x, "data": {"index": j, "start": p, "end": p + ℓ}}`
for a part of line `j`; `getTimeSeries` with these numbers shows the part, and `distance` with them and the query returns `x`, which is
the DTW distance. -/
theorem C90_best (m : Metric) (hm : m ≠ .sorensen ∧ m ≠ .cosine) (hs : m = .euclidean → LawfulSqrt K) (t : Dbl K) (whole : Bool)
    (hne : ∃ r ∈ rows, r ≠ []) (hg : PyGrouped E name rows (metricName m) t whole s) (hr : 0 ≤ s.ratio) (qname : String) (i a b : Int)
    (q : List K) (hq : Reads E F s qname i a b q) (hq1 : 1 ≤ q.length) (s' : Api K) (o : Obj K)
    (h : Turn E F s "sim" [.str name, .str qname, .int i, .int a, .int b] [] s' (.value o)) :
    s' = s ∧ ∃ (j p ℓ : ℕ) (y : List K) (x : K), o.IsMatch (fin x) j p (p + ℓ) ∧ Spec.SubOf rows ℓ j p y ∧
      Spec.Comparable s.ratio q.length ℓ ∧ Spec.Dtw m s.ratio q y (fin x) ∧ Reads E F s name j p (p + ℓ) y ∧
      Turn E F s "distance" [.str name, .int j, .int p, .int (p + ℓ), .str qname, .int i, .int a, .int b,
        .str (metricName m ++ "_dtw")] [] s (.value (.float (fin x))) := by
  obtain ⟨hQ, hi, ha, hb⟩ := hq.query
  have hG := hg.grouped
  unfold Turn at h
  rw [request_sim_small hi ha hb] at h
  obtain ⟨r, hst, ho⟩ := h
  obtain ⟨z, hz, R⟩ := hG.ready
  simp only [Api.Step] at hst
  rw [best_exec hG.inv hQ hz] at hst
  cases e : z.getBestMatch s.ratio (q.map .fin) with
  | error f =>
    rw [e] at hst
    cases hst
    cases f <;> cases ho
  | ok c =>
    rw [e] at hst
    cases hst
    obtain ⟨ℓ, j, p, y, x, h1, h2, h3, -, h5, h6⟩ := C34_best_match z rows s.ratio hr m hm hs t whole R q c e
    have hℓ : 1 ≤ ℓ := by
      have := h1.1.2
      cases whole with
      | false => simp at this; omega
      | true =>
        obtain ⟨r, hr1, hr2⟩ := hne
        obtain ⟨k, hk⟩ := List.mem_iff_getElem?.1 hr1
        have hfit := R.usable.1.fits k (r.map fin) (by rw [List.getElem?_map, hk]; rfl)
        rw [List.length_map] at hfit
        have := List.length_pos_of_ne_nil hr2
        have := h1.1
        simp [Spec.InRange] at this
        omega
    obtain ⟨p1, p2, p3, p4, p5⟩ := part_reads E s name rows hsize hG.loaded h2 hℓ
    rw [h6] at h5
    refine ⟨rfl, j, p, ℓ, y, x, ?_, h2, h1.2, h5, reads_of p1 p2 p3 p4, ?_⟩
    · cases ho
      have := candDict_match c
      rw [h6, h3] at this
      exact this
    · unfold Turn
      rw [request_distance_small p2 p3 p4 hi ha hb]
      obtain ⟨d, hd1, hd2⟩ := C71_dtw E s m hm hs hr qname name i a b j p (p + ℓ) q y hQ p1 hq1 (by omega)
      have hdx : d = fin x := by
        rw [dtw_iff hm hs hr hq1 (by omega)] at hd1 h5
        rw [hd1] at h5
        cases h5
        rfl
      subst hdx
      rw [← C71_symmetric E s m hm hs hr name qname j p (p + ℓ) i a b y q p1 hQ (by omega) hq1] at hd2
      exact ⟨_, hd2, rfl⟩

omit hsize in
/-- C90: if all lengths were grouped, `sim` returns an answer for every query of at least two points that is not longer than some line. -/
theorem C90_returns (m : Metric) (hm : m ≠ .sorensen ∧ m ≠ .cosine) (hs : m = .euclidean → LawfulSqrt K) (t : Dbl K)
    (hg : PyGrouped E name rows (metricName m) t false s) (hr : 0 ≤ s.ratio) (qname : String) (i a b : Int)
    (q : List K) (hq : Reads E F s qname i a b q) (h2 : 2 ≤ q.length) (hrow : ∃ r ∈ rows, q.length ≤ r.length) :
    ∃ o, Turn E F s "sim" [.str name, .str qname, .int i, .int a, .int b] [] s (.value o) := by
  obtain ⟨hQ, hi, ha, hb⟩ := hq.query
  obtain ⟨c, hc⟩ := C70_returns E s name rows m hm hs t hg.grouped hr qname i a b q hQ h2 hrow
  unfold Turn
  rw [request_sim_small hi ha hb]
  exact ⟨_, _, hc, rfl⟩

omit hsize in
/-- C90: and no part of a line of a comparable length is nearer to the query than `o["dist"]` says, by more than `τ / 4` (euclidean) or
`τ / 2` (chebyshev). -/
theorem C90_near (m : Metric) (hm : m = .euclidean ∨ m = .chebyshev) (hs : m = .euclidean → LawfulSqrt K) (τ : K) (hτ : 0 ≤ τ)
    (hg : PyGrouped E name rows (metricName m) (fin τ) false s) (hr : 0 ≤ s.ratio) (qname : String) (i a b : Int)
    (q : List K) (hq : Reads E F s qname i a b q) (s' : Api K) (o : Obj K)
    (h : Turn E F s "sim" [.str name, .str qname, .int i, .int a, .int b] [] s' (.value o))
    (ℓ j p : ℕ) (y : List K) (h2 : 2 ≤ ℓ) (hy : Spec.SubOf rows ℓ j p y) (hcom : Spec.Comparable s.ratio q.length ℓ) (x : K)
    (hx : Spec.Dtw m s.ratio q y (fin x)) :
    ∃ d, o.item "dist" = some (.float d) ∧ d ≤ fin (x + (if m = .euclidean then τ / 4 else τ / 2)) := by
  obtain ⟨hQ, hi, ha, hb⟩ := hq.query
  unfold Turn at h
  rw [request_sim_small hi ha hb] at h
  obtain ⟨r, hst, ho⟩ := h
  obtain ⟨z, hz, -⟩ := hg.grouped.ready
  simp only [Api.Step] at hst
  have hst' := hst
  rw [best_exec hg.grouped.inv hQ hz] at hst'
  cases e : z.getBestMatch s.ratio (q.map .fin) with
  | error f =>
    rw [e] at hst'
    cases hst'
    cases f <;> cases ho
  | ok c =>
    rw [e] at hst'
    cases hst'
    cases ho
    exact ⟨c.dist, (candDict_match c).1, C70_near E s name rows m hm hs τ hτ hg.grouped hr qname i a b q hQ s c hst ℓ j p y h2 hy hcom x hx⟩

omit hsize in
/-- C90: the exhaustive search `ksimbf` in a loaded dataset returns a list that shows the `k` parts of lines nearest to the query, or all
of them, nearest first, none twice; if distances are equal or at least `1e-9` apart. -/
theorem C90_exhaustive (hA : E.A.Lawful Cand.lt) (m : Metric) (hm : m ≠ .sorensen ∧ m ≠ .cosine) (hs : m = .euclidean → LawfulSqrt K)
    (hl : PyLoaded E name rows s) (hr : 0 ≤ s.ratio) (qname : String) (i a b : Int) (q : List K) (hq : Reads E F s qname i a b q)
    (h1 : 1 ≤ q.length) (k : ℕ) (hk : 1 ≤ k) (hk' : k < 2 ^ 31) (hW : Spec.WellSpaced m s.ratio rows q) :
    ∃ (os : List (Obj K)) (res : List (Cand K)),
      Turn E F s "ksimbf" [.int k, .str name, .str qname, .int i, .int a, .int b, .str (metricName m)] [] s (.value (.list os)) ∧
      Matches os res ∧ os.length = min k (Spec.subCount rows) ∧
      (res.map (fun c => (c.view.index, c.view.start, c.view.stop))).Nodup ∧
      (∀ c ∈ res, ∃ j p e x, Spec.IsSub rows j p e x ∧ Names c j p (e - p) ∧ Spec.Dtw m s.ratio q x c.dist) ∧
      res.Pairwise (fun c c' => c.dist ≤ c'.dist) ∧
      (∀ j p e x d, Spec.IsSub rows j p e x → Spec.Dtw m s.ratio q x d → (∀ c ∈ res, ¬ Names c j p (e - p)) →
        ∀ c ∈ res, c.dist ≤ d) := by
  obtain ⟨hQ, hi, ha, hb⟩ := hq.query
  obtain ⟨res, e, r1, r2, r3, r4, r5⟩ := C70_exhaustive E hA s name rows m hm hs hl.loaded hr qname i a b q hQ h1 k hk hW
  refine ⟨res.map candDict, res, ?_, cands_match res, by rw [List.length_map, r1], r2, r3, r4, r5⟩
  unfold Turn
  rw [request_ksimbf_small (by unfold IntSized; omega) hi ha hb]
  exact ⟨_, e, rfl⟩

omit hsize in
/-- C90: if all lengths were grouped, `ksim` with a budget of at least `k` returns a list that shows parts of lines of comparable lengths,
with their DTW distances, nearest first and none twice; `k` of them, or all there are and then default-constructed entries; if distances
are equal or at least `1e-9` apart. -/
theorem C90_kbest (hA : E.A.Lawful Cand.lt) (hB : E.B.Lawful GIdx.lt) (m : Metric) (hm : m ≠ .sorensen ∧ m ≠ .cosine)
    (hs : m = .euclidean → LawfulSqrt K) (t : Dbl K) (hg : PyGrouped E name rows (metricName m) t false s) (hr : 0 ≤ s.ratio)
    (qname : String) (i a b : Int) (q : List K) (hq : Reads E F s qname i a b q) (h2 : 2 ≤ q.length)
    (hrow : ∃ r ∈ rows, q.length ≤ r.length) (k h : ℕ) (hh : 1 ≤ h) (hkh : k ≤ h) (hh' : h < 2 ^ 31)
    (hW : Spec.WellSpaced m s.ratio rows q) :
    ∃ (os : List (Obj K)) (res : List (Cand K)),
      Turn E F s "ksim" [.int k, .int h, .str name, .str qname, .int i, .int a, .int b] [] s (.value (.list os)) ∧
      Entries os (res.map GSet.Entry.cand ++ List.replicate (k - partCount rows s.ratio q.length) .pad) ∧
      res.length = min k (partCount rows s.ratio q.length) ∧
      (res.map (fun c => (c.view.index, c.view.start, c.view.stop))).Nodup ∧
      (∀ c ∈ res, ∃ j p ℓ y, Names c j p ℓ ∧ Spec.SubOf rows ℓ j p y ∧ 2 ≤ ℓ ∧ Spec.Comparable s.ratio q.length ℓ ∧
        Spec.Dtw m s.ratio q y c.dist) ∧
      res.Pairwise (fun c c' => c.dist ≤ c'.dist) ∧
      (partCount rows s.ratio q.length ≤ h → ∀ j p ℓ y d, Spec.SubOf rows ℓ j p y → 2 ≤ ℓ → Spec.Comparable s.ratio q.length ℓ →
        Spec.Dtw m s.ratio q y d → (∀ c ∈ res, ¬ Names c j p ℓ) → ∀ c ∈ res, c.dist ≤ d) := by
  obtain ⟨hQ, hi, ha, hb⟩ := hq.query
  obtain ⟨res, e, r1, r2, r3, r4, r5⟩ := C70_kbest E hA hB s name rows m hm hs t hg.grouped hr qname i a b q hQ (by omega)
    (by obtain ⟨r, hr, hle⟩ := hrow; exact ⟨r, hr, hle, by omega⟩) k h hh hkh hW
  refine ⟨_, res, ?_, entries_match _, r1, r2, r3, r4, r5⟩
  unfold Turn
  rw [request_ksim_small (by unfold IntSized; omega) (by unfold IntSized; omega) hi ha hb]
  exact ⟨_, e, rfl⟩

/-- C90: `normalize` of a loaded dataset returns `(min, max)` over all numbers of the file, and then `getTimeSeries` shows every part of a
line scaled to `(x - min) / (max - min)`, or 0 if all numbers are equal. -/
theorem C90_normalize (hl : PyLoaded E name rows s) (hne : ∃ r ∈ rows, r ≠ []) :
    ∃ s₁ lo hi, Turn E F s "normalize" [.str name] [] s₁ (.value (.tuple [.float (fin lo), .float (fin hi)])) ∧
      IsLeast {x | ∃ r ∈ rows, x ∈ r} lo ∧ IsGreatest {x | ∃ r ∈ rows, x ∈ r} hi ∧
      ∀ ℓ j p y, Spec.SubOf rows ℓ j p y → 1 ≤ ℓ →
        Reads E F s₁ name j p (p + ℓ) (y.map (fun x => if lo = hi then 0 else (x - lo) / (hi - lo))) := by
  obtain ⟨g, hg, H, -⟩ := hl.loaded.data
  obtain ⟨ds', lo, hi, e, hlo, hhi, H', -⟩ := C23_normalize g.ds rows H hne
  obtain ⟨id, k1, k2⟩ := hl.loaded.inv.holds.1 hg
  have hex : s.exec E (.normalize name) = (s.store id { g with ds := ds' }, .ret (.ok (.pair (fin lo, fin hi)))) := by
    simp only [exec]
    rw [withSet_some k1 k2]
    simp only [Arith.normalize, e]
  refine ⟨s.store id { g with ds := ds' }, lo, hi, ?_, hlo, hhi, ?_⟩
  · unfold Turn
    rw [request_normalize]
    exact ⟨_, hex, rfl⟩
  intro ℓ j p y hy hℓ
  obtain ⟨-, p2, p3, p4, -⟩ := part_reads E s name rows hsize hl.loaded hy hℓ
  refine reads_of ?_ p2 p3 p4
  obtain ⟨r, h1, h2, rfl⟩ := hy
  have H2 : Spec.Holds ds' ((rows.map (·.map (fun x => if lo = hi then 0 else (x - lo) / (hi - lo)))).map (·.map fin)) := by
    simpa [List.map_map, Function.comp_def] using H'
  obtain ⟨v1, v2⟩ := H2.view_points (i := j) (r := r.map (fun x => if lo = hi then 0 else (x - lo) / (hi - lo)))
    (by rw [List.getElem?_map, h1]; rfl) (show p < p + ℓ by omega) (by rw [List.length_map]; exact h2)
  have hI₁ : Inv (s.store id { g with ds := ds' }) := inv_step hl.loaded.inv (E := E) (c := .call _) hex
  obtain ⟨id', k3, k4⟩ := hI₁.holds.1 (holds_self_store (g := { g with ds := ds' }) k1 k2)
  refine ⟨s.store id { g with ds := ds' }, ?_⟩
  simp only [exec]
  rw [withSet_some k3 k4]
  push_cast at v1
  simp only [queryOf, v1, bind, Except.bind, v2]
  simp only [Except.map, sub, List.map_drop, List.map_take, Nat.add_sub_cancel_left]

end

/-! ## A session -/

/-- One file, with two series of three points. -/
def exPyFiles : Files ℚ := ⟨fun p => if p = "f.txt" then some "1 4 2\n2 3 5".toList else none, fun _ => none, fun _ => none,
  fun _ => true, fun x => match x with | .fin x => x | _ => 0⟩

/-- `loadDataset("f", "f.txt")`. -/
def exPy1 : Api ℚ × Reply ℚ :=
  (fresh : Api ℚ).exec exEnv (.load "f" (some "1 4 2\n2 3 5".toList) "f.txt".toList " ".toList 0 0 false)

theorem exPy_loaded : PyLoaded exEnv "f" exTripleRows exPy1.1 := by
  obtain ⟨o, ho⟩ := kind_ok (r := exPy1.2) (by decide +kernel)
  refine .mk (l := []) (l' := []) (F := exPyFiles) (path := "f.txt") (sep := " ") (maxNumRow := 0) (startCol := 0) (hasName := false)
    (s₁ := exPy1.1) (.nil _) (by decide +kernel) exTriples_has (o := toObj o) ⟨exPy1.2, rfl, ?_⟩ (.nil _) (by simp)
  rw [ho]
  rfl

/-- `group("f", 1.0, "chebyshev")`. -/
def exPy2 : Api ℚ × Reply ℚ :=
  match exPy1.1.deref 0 with
  | none => (exPy1.1, .dangling)
  | some g =>
    let out := g.groupAllLengths (GSpace.group g.ds exPy1.1.ratio (fun _ => false) "chebyshev" (fin 1) false)
      (fun gs => (gs, .ok 0)) 1
    (exPy1.1.store 0 out.1, .ret (out.2.map .int))

theorem exPy2_step : Api.Step exEnv exPy1.1 (.group "f" (fin 1) "chebyshev" 1 false) exPy2.1 exPy2.2 := by
  have hf : mapFind exPy1.1.datasets "f" = some 0 := by decide +kernel
  obtain ⟨g, hg⟩ : ∃ g, exPy1.1.deref 0 = some g := Option.isSome_iff_exists.1 (by decide +kernel)
  unfold Api.Step GroupCall exPy2
  simp only [hf, hg]
  exact ⟨fun _ => false, _, ⟨_, fun h => by omega, rfl⟩, rfl, rfl⟩

/-- `setWarpingBandRatio(0.5)`. -/
def exPy3 : Api ℚ := { exPy2.1 with ratio := 1 / 2 }

theorem exPy_grouped : PyGrouped exEnv "f" exTripleRows (metricName .chebyshev) (fin 1) false exPy3 := by
  obtain ⟨o, ho⟩ := kind_ok (r := exPy2.2) (by decide +kernel)
  refine .mk (l := [(exPyFiles, "setWarpingBandRatio", [.float (fin (1 / 2))], [])]) (F := exPyFiles) (numThreads := 1) (s₁ := exPy2.1)
    exPy_loaded (o := toObj o) ⟨exPy2.2, exPy2_step, ?_⟩ ?_ ?_
  · rw [ho]
    rfl
  · exact .snoc (h := []) (.nil _) (o := .value .none) ⟨.ret (.ok .unit), rfl, rfl⟩ trivial
  · intro e he
    simp only [List.mem_singleton] at he
    subst he
    exact ⟨by simp, by simp⟩

theorem exPy_query : Reads exEnv exPyFiles exPy3 "f" 0 1 3 [4, 2] :=
  reads_of ⟨_, Prod.ext rfl (shown_some (r := (exPy3.exec exEnv (.series "f" 0 1 3)).2) (by decide +kernel))⟩
    (by unfold IntSized; omega) (by unfold IntSized; omega) (by unfold IntSized; omega)

theorem exTriple_size : exTripleRows.length < 2 ^ 31 ∧ ∀ r ∈ exTripleRows, r.length < 2 ^ 31 := by decide

example (s' : Api ℚ) (o : Obj ℚ) := C90_best (s' := s') (o := o) exEnv exPyFiles exPy3 "f" exTripleRows exTriple_size .chebyshev (by decide)
  (by simp) (fin 1) false (by decide) exPy_grouped (by decide +kernel) "f" 0 1 3 [4, 2] exPy_query (by decide)
example : ∃ o, Turn exEnv exPyFiles exPy3 "sim" [.str "f", .str "f", .int 0, .int 1, .int 3] [] exPy3 (.value o) :=
  C90_returns exEnv exPyFiles exPy3 "f" exTripleRows .chebyshev (by decide) (by simp) (fin 1) exPy_grouped
    (by decide +kernel) "f" 0 1 3 [4, 2] exPy_query (by decide) (by decide)
example (s' : Api ℚ) (o : Obj ℚ) := C90_near (s' := s') (o := o) exEnv exPyFiles exPy3 "f" exTripleRows .chebyshev (by decide) (by simp)
  1 (by decide) exPy_grouped (by decide +kernel) "f" 0 1 3 [4, 2] exPy_query

theorem exPy_spaced : Spec.WellSpaced (K := ℚ) .chebyshev exPy3.ratio exTripleRows [4, 2] :=
  wellSpaced_of_dists [fin 3, fin 0, fin 3, fin 2, fin 3, fin 3] (by simp) (by decide +kernel) (by simp) (by decide +kernel)
    (by decide +kernel)

example := C90_exhaustive exEnv exPyFiles exPy3 "f" exTripleRows (refAlgos_lawful _) .chebyshev (by decide) (by simp)
  exPy_grouped.pyLoaded (by decide +kernel) "f" 0 1 3 [4, 2] exPy_query (by decide) 2 (by decide) (by decide) exPy_spaced
example := C90_kbest exEnv exPyFiles exPy3 "f" exTripleRows (refAlgos_lawful _) (refAlgos_lawful _) .chebyshev (by decide) (by simp)
  (fin 1) exPy_grouped (by decide +kernel) "f" 0 1 3 [4, 2] exPy_query (by decide) (by decide) 2 4 (by decide) (by decide) (by decide)
  exPy_spaced
example := C90_normalize exEnv exPyFiles exPy1.1 "f" exTripleRows exTriple_size exPy_loaded (by decide)

/-- `normalize("f")`. -/
def exPyUnit : Api ℚ := (exPy1.1.exec exEnv (.normalize "f")).1

theorem exPyUnit_loaded : PyLoaded exEnv "f" exUnitRows exPyUnit := by
  obtain ⟨o, ho⟩ := kind_ok (r := (exPy1.1.exec exEnv (.normalize "f")).2) (by decide +kernel)
  refine .normalised (l := []) (F := exPyFiles) (s₁ := exPyUnit) (o := toObj o) exPy_loaded exUnit_scales
    ⟨(exPy1.1.exec exEnv (.normalize "f")).2, rfl, ?_⟩ (.nil _) (by simp)
  rw [ho]
  rfl

theorem exPyUnit_query : Reads exEnv exPyFiles exPyUnit "f" 0 1 3 [3 / 4, 1 / 4] :=
  reads_of ⟨_, Prod.ext rfl (shown_some (r := (exPyUnit.exec exEnv (.series "f" 0 1 3)).2) (by decide +kernel))⟩
    (by unfold IntSized; omega) (by unfold IntSized; omega) (by unfold IntSized; omega)

example := C90_exhaustive exEnv exPyFiles exPyUnit "f" exUnitRows (refAlgos_lawful _) .manhattan (by decide) (by simp)
  exPyUnit_loaded (by decide +kernel) "f" 0 1 3 [3 / 4, 1 / 4] exPyUnit_query (by decide) 2 (by decide) (by decide)
  ((by decide +kernel : exPyUnit.ratio = exUnit.ratio) ▸ exUnit_spaced)

example := C90_tells exEnv exPyFiles exPy3 exPy3 "sim" (by decide) [.str "f", .str "f", .int 0, .int 1, .int 3] [] (by simp)
  (.call (.bestMatch "f" "f" 0 1 3)) rfl

/-- An unknown name gives the exception of the interface. -/
example : Turn exEnv exPyFiles exPy3 "sim" [.str "g", .str "f", .int 0] [] exPy3
    (.raised (.genex "There is no dataset with the given name")) :=
  ⟨(exPy3.exec exEnv (.bestMatch "g" "f" 0 (-1) (-1))).2, rfl, rfl⟩

example (o : Py.Outcome ℚ) := C90_matching exEnv exPyFiles exPy3 exPy3 "f" "f" "chebyshev_dtw" 0 0 2 1 0 2 o (by decide)

end Genex.Props
