import Verif.Lemmas.PyDouble
import Verif.Props.PyAnswer

/-!
# C113: the answers of the Python module, in the arithmetic of `double`
-/

set_option linter.unusedSectionVars false

namespace Genex.Props

open Dbl Api Registry Py

section

variable {K : Type} [Field K] [LinearOrder K] [IsStrictOrderedRing K] [FloorRing K] [HasSqrt K] [A : Arith K] [BandOps]
  (hA : A = doubleArith) (E : Env K) (F : Files K) (s : Api K) (name : String) (W : ℕ) (rows : List (List K))

/-- What `sim` has found, if it returned an object. -/
theorem sim_found {qname : String} {i a b : Int} (hi : IntSized i) (ha : IntSized a) (hb : IntSized b) {s' : Api K} {o : Obj K}
    (h : Turn E F s "sim" [.str name, .str qname, .int i, .int a, .int b] [] s' (.value o)) :
    ∃ c, s.exec E (.bestMatch name qname i a b) = (s', .ret (.ok (.cand c))) ∧ o.IsMatch c.dist c.view.index c.view.start c.view.stop := by
  obtain ⟨r, hst, ht⟩ := C90_tells E F s s' "sim" (by decide) _ [] (by simp) (.call (.bestMatch name qname i a b))
    (request_sim_small hi ha hb) _ h
  cases ht with
  | value hans =>
    cases hans with
    | sim hm => exact ⟨_, hst, hm⟩

include hA

/-- C113: in double arithmetic, `sim` on a dataset that was loaded from a file and grouped returns `{"dist": x, "data": {"index": j,
"start": p, "end": p + ℓ}}` for a part of line `j`, which `getTimeSeries` with these numbers shows; `x` is its DTW distance up to the error,
and the call changes nothing. -/
theorem C113_best (hsize : rows.length < 2 ^ 31 ∧ ∀ r ∈ rows, r.length < 2 ^ 31) (m : Metric) (hm : m ≠ .sorensen ∧ m ≠ .cosine)
    (hs : m = .euclidean → LawfulSqrt K) (t : Dbl K) (whole : Bool) (hne : ∃ r ∈ rows, r ≠ [])
    (hg : PyServedGroups E name W rows (metricName m) t whole s) (hr : 0 ≤ s.ratio) (qname : String) (i a b : Int)
    (q : List K) (hq : Reads E F s qname i a b q) (hqs : Sized Spec.roundDouble (2 ^ 480) [q])
    (ε : K) (hε : 12 * ((q.length : K) + W) ≤ ε * 2 ^ 53) (hε1 : ε ≤ 1) (s' : Api K) (o : Obj K)
    (h : Turn E F s "sim" [.str name, .str qname, .int i, .int a, .int b] [] s' (.value o)) :
    s' = s ∧ ∃ (j p ℓ : ℕ) (y : List K) (x D : K), o.IsMatch (fin x) j p (p + ℓ) ∧ Spec.SubOf rows ℓ j p y ∧
      Spec.Comparable s.ratio q.length ℓ ∧ Spec.Dtw m s.ratio q y (fin D) ∧ |x - D| ≤ ε * D + 4 * (1 / 2 ^ 537) ∧
      Reads E F s name j p (p + ℓ) y := by
  obtain ⟨hQ, hi, ha, hb⟩ := hq.query
  obtain ⟨R, file, k1, k2, hG⟩ := hg.grouped
  obtain ⟨c, hc, hmatch⟩ := sim_found E F s name hi ha hb h
  obtain ⟨h0, j, p, ℓ, y, x, D, ⟨n1, n2, n3⟩, hsub, hcom, hx, hD, herr, hℓ⟩ := C88_best hA k2 k1 m hm hs t whole hG hr qname i a b q hQ hqs ε hε hε1 _ c hc
  rw [hx, n1, n2, n3] at hmatch
  exact ⟨h0, j, p, ℓ, y, x, D, hmatch, hsub, hcom, hD, herr, (served_reads hA hsize hg.served hsub (hℓ hne)).1⟩

/-- C113: if all lengths were grouped, `sim` returns an answer for every query of at least two points that is not longer than some line. -/
theorem C113_returns (m : Metric) (hm : m ≠ .sorensen ∧ m ≠ .cosine) (hs : m = .euclidean → LawfulSqrt K) (t : Dbl K)
    (hg : PyServedGroups E name W rows (metricName m) t false s) (hr : 0 ≤ s.ratio) (qname : String) (i a b : Int)
    (q : List K) (hq : Reads E F s qname i a b q) (hqs : Sized Spec.roundDouble (2 ^ 480) [q]) (h2 : 2 ≤ q.length) (hl : q.length ≤ 2 ^ 52)
    (hrow : ∃ r ∈ rows, q.length ≤ r.length) :
    ∃ o, Turn E F s "sim" [.str name, .str qname, .int i, .int a, .int b] [] s (.value o) := by
  obtain ⟨hQ, hi, ha, hb⟩ := hq.query
  obtain ⟨R, file, k1, k2, hG⟩ := hg.grouped
  obtain ⟨c, hc⟩ := C88_returns hA k2 k1 m hm hs t hG hr qname i a b q hQ hqs h2 hl hrow
  unfold Turn
  rw [request_sim_small hi ha hb]
  exact ⟨_, _, hc, rfl⟩

/-- C113: no part of a comparable length is nearer to the query than the part that `sim` names, by more than `τ / 4` (euclidean) or `τ / 2`
(chebyshev), up to the error. -/
theorem C113_near (m : Metric) (hm : m = .euclidean ∨ m = .chebyshev) (hs : m = .euclidean → LawfulSqrt K) (τ : K) (hτ : 0 ≤ τ)
    (hg : PyServedGroups E name W rows (metricName m) (fin τ) false s) (hr : 0 ≤ s.ratio) (qname : String) (i a b : Int)
    (q : List K) (hq : Reads E F s qname i a b q) (hqs : Sized Spec.roundDouble (2 ^ 480) [q])
    (ε : K) (hε : 12 * ((q.length : K) + W) ≤ ε * 2 ^ 53) (hε1 : ε < 1) (s' : Api K) (o : Obj K)
    (h : Turn E F s "sim" [.str name, .str qname, .int i, .int a, .int b] [] s' (.value o))
    (ℓ j p : ℕ) (y : List K) (h2 : 2 ≤ ℓ) (hy : Spec.SubOf rows ℓ j p y) (hcom : Spec.Comparable s.ratio q.length ℓ) (x : K)
    (hx : Spec.Dtw m s.ratio q y (fin x)) :
    ∃ d, ∃ (j' p' ℓ' : ℕ) (y' : List K) (D : K), o.IsMatch d j' p' (p' + ℓ') ∧ Spec.SubOf rows ℓ' j' p' y' ∧ Spec.Dtw m s.ratio q y' (fin D) ∧
      (1 - ε) ^ 2 * D ≤ (1 + ε) ^ 2 * (x + (τ + 8 * (1 / 2 ^ 537)) / ((if m = .euclidean then 4 else 2) * (1 - ε))) + 16 * (1 / 2 ^ 537) := by
  obtain ⟨hQ, hi, ha, hb⟩ := hq.query
  obtain ⟨R, file, k1, k2, hG⟩ := hg.grouped
  obtain ⟨c, hc, hmatch⟩ := sim_found E F s name hi ha hb h
  obtain ⟨j', p', ℓ', y', D, ⟨n1, n2, n3⟩, h3, h4, h5⟩ := C88_near hA k2 k1 m hm hs τ hτ hG hr qname i a b q hQ hqs ε hε hε1 s' c hc ℓ j p y h2 hy
    hcom x hx
  rw [n1, n2, n3] at hmatch
  exact ⟨_, j', p', ℓ', y', D, hmatch, h3, h4, h5⟩

/-- C113: the exhaustive search `ksimbf` returns a list that shows `k` parts of lines, or all of them, nearest first, none twice, each with
its DTW distance up to the error, and no other is nearer by more than the error; if computed distances are equal or at least `1e-9` apart. -/
theorem C113_exhaustive (hLA : E.A.Lawful (Cand.ltR Spec.roundDouble)) (m : Metric) (hm : m ≠ .sorensen ∧ m ≠ .cosine)
    (hs : m = .euclidean → LawfulSqrt K) (hl : PyServed E name W rows s) (hr : 0 ≤ s.ratio) (qname : String) (i a b : Int) (q : List K)
    (hq : Reads E F s qname i a b q) (hqs : Sized Spec.roundDouble (2 ^ 480) [q]) (h1 : 1 ≤ q.length)
    (ε : K) (hε : 12 * ((q.length : K) + W) ≤ ε * 2 ^ 53) (hε1 : ε ≤ 1) (k : ℕ) (hk : 1 ≤ k) (hk' : k < 2 ^ 31)
    (hsp : Spec.SpacedFor (Computed Spec.roundDouble m s.ratio q) rows) :
    ∃ (os : List (Obj K)) (res : List (Cand K)),
      Turn E F s "ksimbf" [.int k, .str name, .str qname, .int i, .int a, .int b, .str (metricName m)] [] s (.value (.list os)) ∧
      Matches os res ∧ os.length = min k (Spec.subCount rows) ∧
      (res.map (fun c => (c.view.index, c.view.start, c.view.stop))).Nodup ∧
      (∀ c ∈ res, ∃ j p e x, Spec.IsSub rows j p e x ∧ Names c j p (e - p) ∧
        Spec.NearDtw m s.ratio ε (4 * (1 / 2 ^ 537)) q x c.dist ∧
        ∀ j' p' e' y D', Spec.IsSub rows j' p' e' y → Spec.Dtw m s.ratio q y (fin D') → (∀ c ∈ res, ¬ Names c j' p' (e' - p')) →
          ∃ D, Spec.Dtw m s.ratio q x (fin D) ∧ (1 - ε) * D ≤ (1 + ε) * D' + 8 * (1 / 2 ^ 537)) ∧
      res.Pairwise (fun c c' => c.dist ≤ c'.dist) := by
  obtain ⟨hQ, hi, ha, hb⟩ := hq.query
  obtain ⟨R, file, k1, k2, hG⟩ := hl.serves
  obtain ⟨res, e, r1, r2, r3, r4⟩ := C88_exhaustive hA k2 k1 hLA m hm hs hG hr qname i a b q hQ hqs h1 ε hε hε1 k hk hsp
  refine ⟨res.map candDict, res, ?_, cands_match res, by rw [List.length_map, r1], r2, r3, r4⟩
  unfold Turn
  rw [request_ksimbf_small (by unfold IntSized; omega) hi ha hb]
  exact ⟨_, e, rfl⟩

/-- C113: if all lengths were grouped, `ksim` with a budget of at least `k` returns a list that shows parts of lines of comparable lengths,
with their DTW distances up to the error, nearest first and none twice; `k` of them, or all there are and then default-constructed entries.
If the budget allows for all of them, no other is nearer by more than the error. -/
theorem C113_kbest (hLA : E.A.Lawful (Cand.ltR Spec.roundDouble)) (hLB : E.B.Lawful GIdx.lt) (m : Metric) (hm : m ≠ .sorensen ∧ m ≠ .cosine)
    (hs : m = .euclidean → LawfulSqrt K) (t : Dbl K) (hg : PyServedGroups E name W rows (metricName m) t false s) (hr : 0 ≤ s.ratio)
    (qname : String) (i a b : Int) (q : List K) (hq : Reads E F s qname i a b q) (hqs : Sized Spec.roundDouble (2 ^ 480) [q]) (h2 : 2 ≤ q.length)
    (hrow : ∃ r ∈ rows, q.length ≤ r.length) (ε : K) (hε : 12 * ((q.length : K) + W) ≤ ε * 2 ^ 53) (hε1 : ε ≤ 1)
    (k h : ℕ) (hh : 1 ≤ h) (hkh : k ≤ h) (hh' : h < 2 ^ 31) (hsp : Spec.SpacedFor (Computed Spec.roundDouble m s.ratio q) rows) :
    ∃ (os : List (Obj K)) (res : List (Cand K)),
      Turn E F s "ksim" [.int k, .int h, .str name, .str qname, .int i, .int a, .int b] [] s (.value (.list os)) ∧
      Entries os (res.map GSet.Entry.cand ++ List.replicate (k - partCount rows s.ratio q.length) .pad) ∧
      res.length = min k (partCount rows s.ratio q.length) ∧
      (res.map (fun c => (c.view.index, c.view.start, c.view.stop))).Nodup ∧
      (∀ c ∈ res, ∃ j p ℓ y, Names c j p ℓ ∧ Spec.SubOf rows ℓ j p y ∧ 2 ≤ ℓ ∧ Spec.Comparable s.ratio q.length ℓ ∧
        Spec.NearDtw m s.ratio ε (4 * (1 / 2 ^ 537)) q y c.dist ∧
        (partCount rows s.ratio q.length ≤ h → ∀ j' p' ℓ' y' D', Spec.SubOf rows ℓ' j' p' y' → 2 ≤ ℓ' → Spec.Comparable s.ratio q.length ℓ' →
          Spec.Dtw m s.ratio q y' (fin D') → (∀ c ∈ res, ¬ Names c j' p' ℓ') →
          ∃ D, Spec.Dtw m s.ratio q y (fin D) ∧ (1 - ε) * D ≤ (1 + ε) * D' + 8 * (1 / 2 ^ 537))) ∧
      res.Pairwise (fun c c' => c.dist ≤ c'.dist) := by
  obtain ⟨hQ, hi, ha, hb⟩ := hq.query
  obtain ⟨R, file, k1, k2, hG⟩ := hg.grouped
  obtain ⟨res, e, r1, r2, r3, r4⟩ := C88_kbest hA k2 k1 hLA hLB m hm hs t hG hr qname i a b q hQ hqs h2 hrow ε hε hε1 k h hh hkh hsp
  refine ⟨_, res, ?_, entries_match _, r1, r2, r3, r4⟩
  unfold Turn
  rw [request_ksim_small (by unfold IntSized; omega) (by unfold IntSized; omega) hi ha hb]
  exact ⟨_, e, rfl⟩

/-- C113: `normalize` returns `(min, max)` over all numbers, and then `getTimeSeries` shows every part of a line scaled to numbers in `[0, 1]`
that differ from the exact ones by at most `4 / 2 ^ 53` of them (and underflow). -/
theorem C113_normalize (hsize : rows.length < 2 ^ 31 ∧ ∀ r ∈ rows, r.length < 2 ^ 31) (hl : PyServed E name W rows s)
    (hne : ∃ r ∈ rows, r ≠ []) :
    ∃ s₁ lo hi, ∃ f : K → K, Turn E F s "normalize" [.str name] [] s₁ (.value (.tuple [.float (fin lo), .float (fin hi)])) ∧
      IsLeast {x | ∃ r ∈ rows, x ∈ r} lo ∧ IsGreatest {x | ∃ r ∈ rows, x ∈ r} hi ∧ PyServed E name W (rows.map (·.map f)) s₁ ∧
      (∀ ℓ j p y, Spec.SubOf rows ℓ j p y → 1 ≤ ℓ → Reads E F s₁ name j p (p + ℓ) (y.map f)) ∧
      ∀ r ∈ rows, ∀ x ∈ r, 0 ≤ f x ∧ f x ≤ 1 ∧ (lo = hi → f x = 0) ∧
        (lo ≠ hi → |f x - (x - lo) / (hi - lo)| ≤ 4 * (1 / 2 ^ 53) * ((x - lo) / (hi - lo)) + (1 / 2 ^ 537) ^ 2) := by
  obtain ⟨R, file, k1, k2, k3⟩ := hl.serves
  have hsz := (serves_double hA k2 k1 k3).2.1
  obtain ⟨s₁, lo, hi, hex, hlo, hhi, -⟩ := C88_normalize hA k2 k1 k3 hne
  have hT : Turn E F s "normalize" [.str name] [] s₁ (.value (.tuple [.float (fin lo), .float (fin hi)])) := by
    unfold Turn
    rw [request_normalize]
    exact ⟨_, hex, rfl⟩
  have hS : PyServed E name W (rows.map (·.map (scaleR Spec.roundDouble lo hi))) s₁ :=
    .normalised (l := []) hl ⟨lo, hi, hlo, hhi, rfl⟩ hT (.nil _) (by simp)
  refine ⟨s₁, lo, hi, scaleR Spec.roundDouble lo hi, hT, hlo, hhi, hS, ?_, scaleR_unit (fun r hr => (hsz r hr).1) hlo hhi⟩
  rintro ℓ j p y ⟨r, h1, h2, rfl⟩ hℓ
  refine (served_reads hA ⟨by simpa using hsize.1, ?_⟩ hS ⟨r.map (scaleR Spec.roundDouble lo hi), by rw [List.getElem?_map, h1]; rfl, by simpa using h2, by rw [List.map_take, List.map_drop]⟩ hℓ).1
  intro x hx
  obtain ⟨z, hz, rfl⟩ := List.mem_map.1 hx
  rw [List.length_map]
  exact hsize.2 z hz

/-- C113: every part of a line of served data can be read, and is a query of these theorems. -/
theorem C113_query (hsize : rows.length < 2 ^ 31 ∧ ∀ r ∈ rows, r.length < 2 ^ 31) (hl : PyServed E name W rows s) (ℓ j p : ℕ) (y : List K)
    (hy : Spec.SubOf rows ℓ j p y) (hℓ : 1 ≤ ℓ) : Reads E F s name j p (p + ℓ) y ∧ Sized Spec.roundDouble (2 ^ 480) [y] :=
  served_reads hA hsize hl hy hℓ

end

/-! ## A session in which a sixth and a third are rounded -/

section examples

attribute [local instance 2000] exBandD exDouble

def exPyFilesD : Files ℚ := ⟨fun p => if p = "f.txt" then some "1 4 2\n2 3 7".toList else none, fun _ => none, fun _ => none,
  fun _ => true, fun x => match x with | .fin x => x | _ => 0⟩

/-- `loadDataset("f", "f.txt")`. -/
def exPyD1 : Api ℚ := afterD fresh (.load "f" (some "1 4 2\n2 3 7".toList) "f.txt".toList " ".toList 0 0 false)

theorem exPyD1_served : PyServed exEnvD "f" 3 exRawD exPyD1 := by
  obtain ⟨o, ho⟩ := kind_ok (r := ((fresh : Api ℚ).exec exEnvD (.load "f" (some "1 4 2\n2 3 7".toList) "f.txt".toList " ".toList 0 0 false)).2)
    (by decide +kernel)
  refine .mk (l := []) (l' := []) (F := exPyFilesD) (path := "f.txt") (sep := " ") (maxNumRow := 0) (startCol := 0) (hasName := false)
    (s₁ := exPyD1) (.nil _) (by decide +kernel) exRawD_has exRawD_sized (by decide +kernel) (by decide +kernel)
    (o := toObj o) ⟨((fresh : Api ℚ).exec exEnvD (.load "f" (some "1 4 2\n2 3 7".toList) "f.txt".toList " ".toList 0 0 false)).2, rfl, ?_⟩
    (.nil _) (by simp)
  rw [ho]
  rfl

/-- `normalize("f")`. -/
def exPyD2 : Api ℚ := afterD exPyD1 (.normalize "f")

theorem exPyD2_served : PyServed exEnvD "f" 3 exRowsD exPyD2 := by
  obtain ⟨o, ho⟩ := kind_ok (r := (exPyD1.exec exEnvD (.normalize "f")).2) (by decide +kernel)
  refine .normalised (l := []) (F := exPyFilesD) (s₁ := exPyD2) (o := toObj o) exPyD1_served exRowsD_scaled
    ⟨(exPyD1.exec exEnvD (.normalize "f")).2, rfl, ?_⟩ (.nil _) (by simp)
  rw [ho]
  rfl

/-- `group("f", 0.5, "chebyshev")`. -/
def exPyD3 : Api ℚ × Reply ℚ :=
  match exPyD2.deref 0 with
  | none => (exPyD2, .dangling)
  | some g =>
    let out := g.groupAllLengths (GSpace.group g.ds exPyD2.ratio (fun _ => false) "chebyshev" (fin (1 / 2)) false)
      (fun gs => (gs, .ok 0)) 1
    (exPyD2.store 0 out.1, .ret (out.2.map .int))

theorem exPyD3_step : Api.Step exEnvD exPyD2 (.group "f" (fin (1 / 2)) "chebyshev" 1 false) exPyD3.1 exPyD3.2 := by
  have hf : mapFind exPyD2.datasets "f" = some 0 := by decide +kernel
  obtain ⟨g, hg⟩ : ∃ g, exPyD2.deref 0 = some g := Option.isSome_iff_exists.1 (by decide +kernel)
  unfold Api.Step GroupCall exPyD3
  simp only [hf, hg]
  exact ⟨fun _ => false, _, ⟨_, fun h => by omega, rfl⟩, rfl, rfl⟩

/-- `setWarpingBandRatio(0.5)`. -/
def exPyD4 : Api ℚ := { exPyD3.1 with ratio := 1 / 2 }

theorem exPyD_grouped : PyServedGroups exEnvD "f" 3 exRowsD (metricName .chebyshev) (fin (1 / 2)) false exPyD4 := by
  obtain ⟨o, ho⟩ := kind_ok (r := exPyD3.2) (by decide +kernel)
  refine .mk (l := [(exPyFilesD, "setWarpingBandRatio", [.float (fin (1 / 2))], [])]) (F := exPyFilesD) (numThreads := 1) (s₁ := exPyD3.1)
    exPyD2_served (o := toObj o) ⟨exPyD3.2, exPyD3_step, ?_⟩ ?_ ?_
  · rw [ho]
    rfl
  · exact .snoc (h := []) (.nil _) (o := .value .none) ⟨.ret (.ok .unit), rfl, rfl⟩ trivial
  · intro e he
    simp only [List.mem_singleton] at he
    subst he
    exact ⟨by simp, by simp⟩

theorem exPyD_size : exRowsD.length < 2 ^ 31 ∧ ∀ r ∈ exRowsD, r.length < 2 ^ 31 := by decide

theorem exPyD_query : Reads exEnvD exPyFilesD exPyD4 "f" 0 1 3 exQueryD ∧ Sized Spec.roundDouble (2 ^ 480) [exQueryD] :=
  C113_query rfl exEnvD exPyFilesD exPyD4 "f" 3 exRowsD exPyD_size exPyD_grouped.served 2 0 1 exQueryD
    ⟨[0, 1 / 2, 6004799503160661 / 2 ^ 55], by decide +kernel, by decide, rfl⟩ (by decide)

/-- `sim("f", "f", 0, 1, 3)` returns a match whose distance is near the DTW distance. -/
example : ∃ (o : Obj ℚ) (j p ℓ : ℕ) (x : ℚ), Turn exEnvD exPyFilesD exPyD4 "sim" [.str "f", .str "f", .int 0, .int 1, .int 3] [] exPyD4 (.value o) ∧
    o.IsMatch (fin x) j p (p + ℓ) := by
  obtain ⟨o, ho⟩ := C113_returns rfl exEnvD exPyFilesD exPyD4 "f" 3 exRowsD .chebyshev (by decide) (by simp) _ exPyD_grouped
    (by decide +kernel) "f" 0 1 3 exQueryD exPyD_query.1 exPyD_query.2 (by decide) (by decide) (by decide +kernel)
  obtain ⟨-, j, p, ℓ, y, x, D, h, -⟩ := C113_best rfl exEnvD exPyFilesD exPyD4 "f" 3 exRowsD exPyD_size .chebyshev (by decide) (by simp) _ _
    (by decide +kernel) exPyD_grouped (by decide +kernel) "f" 0 1 3 exQueryD exPyD_query.1 exPyD_query.2 (1 / 10 ^ 14) exErrorD (by norm_num) _ o ho
  exact ⟨o, j, p, ℓ, x, ho, h⟩
example : found (exPyD4.exec exEnvD (.bestMatch "f" "f" 0 1 3)).2 = [(0, 1, 3, fin 0)] := by decide +kernel
example (s' : Api ℚ) (o : Obj ℚ) := C113_near (s' := s') (o := o) rfl exEnvD exPyFilesD exPyD4 "f" 3 exRowsD .chebyshev (by decide) (by simp)
  (1 / 2) (by norm_num) exPyD_grouped (by decide +kernel) "f" 0 1 3 exQueryD exPyD_query.1 exPyD_query.2 (1 / 10 ^ 14) exErrorD (by norm_num)

example := C113_exhaustive rfl exEnvD exPyFilesD exPyD4 "f" 3 exRowsD (refAlgos_lawful _) .manhattan (by decide) (by simp) exPyD_grouped.served
  (by decide +kernel) "f" 0 1 3 exQueryD exPyD_query.1 exPyD_query.2 (by decide) (1 / 10 ^ 14) exErrorD (by norm_num) 2 (by decide) (by decide)
  ((by decide +kernel : exPyD4.ratio = exServedD.ratio) ▸ exSpacedD)
example := C113_kbest rfl exEnvD exPyFilesD exPyD4 "f" 3 exRowsD (refAlgos_lawful _) (refAlgos_lawful _) .chebyshev (by decide) (by simp) _
  exPyD_grouped (by decide +kernel) "f" 0 1 3 exQueryD exPyD_query.1 exPyD_query.2 (by decide) (by decide +kernel) (1 / 10 ^ 14) exErrorD
  (by norm_num) 2 4 (by decide) (by decide) (by decide) ((by decide +kernel : exPyD4.ratio = exServedD.ratio) ▸ exSpacedD')
example := C113_normalize rfl exEnvD exPyFilesD exPyD1 "f" 3 exRawD (by decide) exPyD1_served (by decide)

end examples

end Genex.Props
