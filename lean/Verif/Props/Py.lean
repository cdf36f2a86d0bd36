import Verif.Lemmas.Py
import Verif.Props.KSearch
import Verif.Props.Api

/-!
# C82: the Python module
-/

set_option linter.unusedSectionVars false

namespace Genex.Props

open Dbl Api Registry Py

section

variable {K : Type}

/-- C82, part: every documented call makes the documented call of the interface, with the defaults for what is left out, if keywords
are used for optional parameters only.  Missing: keywords for the other parameters (`C82_required_false`), and `getMatching`
(`C82_matching_false`). -/
theorem C82_call_partial [IntCast K] (F : Files K) (name : String) (hne : name ≠ "getMatching") (pos : List (Val K))
    (kw : List (String × Val K)) (hk : (kw.map Prod.fst).Nodup)
    (hopt : ∀ ps, signature name = some ps → ∀ e ∈ kw, ∃ p : Par K, p ∈ ps ∧ p.dflt.isSome ∧ p.name = e.1) (c : AnyCall K)
    (h : Documented F name pos kw c) : request F name pos kw = .call c := by
  obtain ⟨ps, vals, ws, h1, h2, h3, h4⟩ := h
  exact (request_iff F name hne pos kw hk c).2 ⟨ps, vals, ws, h1, h2, h3, h4, hopt ps h1⟩

/-- C82: nothing else reaches the interface. -/
theorem C82_only [IntCast K] (F : Files K) (name : String) (hne : name ≠ "getMatching") (pos : List (Val K))
    (kw : List (String × Val K)) (hk : (kw.map Prod.fst).Nodup) (c : AnyCall K) (h : request F name pos kw = .call c) :
    Documented F name pos kw c := by
  obtain ⟨ps, vals, ws, h1, h2, h3, h4, -⟩ := (request_iff F name hne pos kw hk c).1 h
  exact ⟨ps, vals, ws, h1, h2, h3, h4⟩

/-- C82 is false for keywords: a call that names a parameter without default never reaches the interface. -/
theorem C82_required_false [IntCast K] (F : Files K) (name : String) (hne : name ≠ "getMatching") (pos : List (Val K))
    (kw : List (String × Val K)) (hk : (kw.map Prod.fst).Nodup) (ps : List (Par K)) (hs : signature name = some ps) (p : Par K)
    (hp : p ∈ ps) (hd : p.dflt = none) (hkw : p.name ∈ kw.map Prod.fst) (c : AnyCall K) : request F name pos kw ≠ .call c := by
  intro h
  obtain ⟨ps', vals, ws, h1, h2, h3, h4, h5⟩ := (request_iff F name hne pos kw hk c).1 h
  rw [hs] at h1
  cases h1
  obtain ⟨e, he, hee⟩ := List.mem_map.1 hkw
  obtain ⟨q, hq, hqd, hqn⟩ := h5 e he
  rcases table (K := K) name hne with ⟨-, h⟩ | ⟨f, ps', -, h, -, hn, -⟩
  · rw [hs] at h; cases h
  rw [hs] at h
  cases h
  obtain ⟨i, hi⟩ := List.mem_iff_getElem?.1 hp
  obtain ⟨j, hj⟩ := List.mem_iff_getElem?.1 hq
  have := name_inj hn hj hi (hqn.trans hee)
  subst this
  rw [hj] at hi
  cases hi
  rw [hd] at hqd
  cases hqd

/-- C82: `AttributeError` is for the names that are not documented. -/
theorem C82_unknown [IntCast K] (F : Files K) (name : String) (pos : List (Val K)) (kw : List (String × Val K)) :
    request F name pos kw = .unknown ↔ (signature name : Option (List (Par K))) = none := by
  have h2 : ∀ f : Fn K, functions.find? (fun f : Fn K => f.name == name) = some f → request F name pos kw ≠ .unknown := by
    intro f hf h
    unfold request at h
    rw [hf] at h
    simp only at h
    split at h
    · cases h
    split at h
    · cases h
    split at h
    · cases h
    split at h <;> cases h
  by_cases hne : name = "getMatching"
  · subst hne
    exact ⟨fun h => absurd h (h2 _ rfl), fun h => by cases h⟩
  · rcases table (K := K) name hne with ⟨hf, hs⟩ | ⟨f, ps, hf, hs, -⟩
    · refine ⟨fun _ => hs, fun _ => ?_⟩
      unfold request
      rw [hf]
    · exact ⟨fun h => absurd h (h2 f hf), fun h => by rw [hs] at h; cases h⟩

/-- C82: `OverflowError` is for calls that bind, with values of the right types, of which an integer does not fit its `int`.  All other
calls that do not reach the interface are argument errors. -/
theorem C82_overflow [IntCast K] (F : Files K) (name : String) (hne : name ≠ "getMatching") (pos : List (Val K))
    (kw : List (String × Val K)) (hk : (kw.map Prod.fst).Nodup) :
    request F name pos kw = .overflow ↔
      ∃ ps vals, signature name = some ps ∧ Binds ps pos kw vals ∧
        (∀ e ∈ kw, ∃ p : Par K, p ∈ ps ∧ p.dflt.isSome ∧ p.name = e.1) ∧ Overflows ps vals :=
  request_overflow F name hne pos kw hk

/-- C82: `getMatching` with all its arguments makes the documented call. -/
theorem C82_matching_full [IntCast K] (F : Files K) (pos : List (Val K)) (hl : pos.length = 9) (c : AnyCall K)
    (h : Documented F "getMatching" pos [] c) : request F "getMatching" pos [] = .call c := by
  obtain ⟨ps, vals, ws, h1, h2, h3, h4⟩ := h
  cases h1
  have : vals = pos := by
    apply List.ext_getElem?
    intro i
    by_cases hi : i < pos.length
    · exact h2.positional i hi
    · rw [List.getElem?_eq_none (by rw [h2.length]; simp; omega), List.getElem?_eq_none (by omega)]
  subst this
  obtain ⟨a, b⟩ := (fitsAll_iff h2.length).1 h3
  have hb := means_body h4 _ rfl
  simp only [request]
  have hf : functions.find? (fun f : Fn K => f.name == "getMatching") = some _ := rfl
  rw [hf]
  simp only
  have hbind : bindArgs (K := K) [.str, .int, .int, .int, .str, .int, .int, .int, .str]
      [("start2", .int (-1)), ("end2", .int (-1))] vals [] = some vals := by
    unfold bindArgs
    rw [if_neg (by simp; omega), if_pos ⟨rfl, by simpa using hl⟩]
  rw [hbind]
  simp only [List.map_cons, List.map_nil] at a b
  simp only at hb
  simp only [a, b, Bool.true_eq_false, if_false, hb]

/-- C82 is false for `getMatching`: the defaults of the range belong to the last two parameters, the end of the range and the
distance, so a call that leaves out any of its nine arguments, or names one, fails, whatever the arguments are. -/
theorem C82_matching_false [IntCast K] (F : Files K) (pos : List (Val K)) (kw : List (String × Val K))
    (hk : (kw.map Prod.fst).Nodup) (hl : pos.length < 9) (c : AnyCall K) (h : Documented F "getMatching" pos kw c) :
    request F "getMatching" pos kw = .argument := by
  obtain ⟨ps, vals, ws, h1, h2, -, -⟩ := h
  cases h1
  have hr := h2.rest 8 _ (by omega) rfl
  have hv : vals[8]? ≠ none := by
    rw [Ne, List.getElem?_eq_none_iff, h2.length]; simp
  have hs : (kw.lookup "distanceName").isSome := by
    rw [Option.isSome_iff_ne_none]
    intro h0
    rw [h0] at hr
    exact hv hr
  rw [lookup_isSome] at hs
  obtain ⟨e, he, hee⟩ := List.mem_map.1 hs
  have hnn : (nms (K := K) (params [.str, .int, .int, .int, .str, .int, .int, .int, .str]
      [("start2", .int (-1)), ("end2", .int (-1))])).Nodup := by rw [nms_params]; simp
  have hbind : bindArgs (K := K) [.str, .int, .int, .int, .str, .int, .int, .int, .str]
      [("start2", .int (-1)), ("end2", .int (-1))] pos kw = none := by
    unfold bindArgs
    split
    · rfl
    split
    · rename_i hc
      rw [hc.1] at he; cases he
    split
    · rfl
    dsimp only
    split
    · rfl
    · rw [if_pos]
      by_contra hu
      rw [used_ge hk (hnn.sublist ((List.drop_sublist _ _).filterMap _))] at hu
      have := hu e he
      have := ((List.drop_sublist _ _).filterMap _).subset this
      rw [← nms, nms_params, hee] at this
      simp at this
  simp only [request]
  have hf : functions.find? (fun f : Fn K => f.name == "getMatching") = some _ := rfl
  rw [hf]
  simp only
  rw [hbind]

end

section

variable {K : Type} [Field K] [LinearOrder K] [HasSqrt K] [Arith K]

/-- C82: a session of Python calls is a history of calls of the interface, so what C46, C47, C61 and C81 say of histories holds for it. -/
theorem C82_session [BandOps] (E : Env K) {s s' : Api K} {l : List (Files K × String × List (Val K) × List (String × Val K))}
    (hs : Session E s l s') : ∃ h, History E s h s' ∧ h.length ≤ l.length := by
  induction hs with
  | nil => exact ⟨[], .nil _, le_rfl⟩
  | snoc h1 h2 h3 ih =>
    obtain ⟨h, hh, hl⟩ := ih
    unfold Turn at h2
    split at h2
    · obtain ⟨rfl, -⟩ := h2; exact ⟨h, hh, by simp; omega⟩
    · obtain ⟨rfl, -⟩ := h2; exact ⟨h, hh, by simp; omega⟩
    · obtain ⟨rfl, -⟩ := h2; exact ⟨h, hh, by simp; omega⟩
    · obtain ⟨r, hr, rfl⟩ := h2
      refine ⟨_, .snoc hh hr ?_, by simp; omega⟩
      unfold outcome at h3
      split at h3 <;> first | exact h3.elim | trivial

/-- C82: a call with wrong arguments changes nothing. -/
theorem C82_refused [BandOps] (E : Env K) (F : Files K) (s s' : Api K) (name : String) (pos : List (Val K)) (kw : List (String × Val K))
    {o : Py.Outcome K} (h : Turn E F s name pos kw s' o) (ho : o = .argument ∨ o = .overflow ∨ o = .unknown) : s' = s := by
  unfold Turn at h
  split at h
  · exact h.1
  · exact h.1
  · exact h.1
  · obtain ⟨r, -, rfl⟩ := h
    unfold outcome at ho
    split at ho <;> simp at ho

/-- C82 is false for `ksim`, which is to return fewer than `k` matches if there are fewer: what it returns has always exactly `k`
entries. -/
theorem C82_ksim_false [BandOps] (E : Env K) (F : Files K) (s s' : Api K) (pos : List (Val K)) (kw : List (String × Val K))
    (hk : (kw.map Prod.fst).Nodup) (k : ℕ) (hp : pos.head? = some (.int k)) {o : Obj K}
    (h : Turn E F s "ksim" pos kw s' (.value o)) : ∃ l, o = .list l ∧ l.length = k := by
  unfold Turn at h
  split at h
  · cases h.2
  · cases h.2
  · cases h.2
  rename_i c hc
  obtain ⟨r, hr, ho⟩ := h
  obtain ⟨ps, vals, ws, h1, h2, h3, h4, -⟩ := (request_iff F "ksim" (by decide) pos kw hk c).1 hc
  cases h1
  obtain ⟨p, pos, rfl⟩ : ∃ p l, pos = p :: l := by cases pos <;> simp at hp ⊢
  have hv := h2.positional 0 (by simp)
  simp at hp hv
  subst hp
  have hb := means_body h4 _ rfl
  simp only at hb
  split at hb
  swap
  · cases hb
  rename_i k' ke t q i a b
  cases hb
  obtain rfl : k' = k := by
    cases h3 with
    | cons hf _ =>
      simp at hv
      subst hv
      cases hf
      rfl
  obtain rfl : r = (s.exec E (.kBest k ke t q i a b)).2 := by
    rw [show s.exec E (.kBest k ke t q i a b) = (s', r) from hr]
  simp only [exec, withSet] at ho
  split at ho
  · cases ho
  split at ho
  · cases ho
  split at ho
  · cases ho
  split at ho
  · cases ho
  rename_i t' _ _ _ _ _ q' _
  cases hq : queryOf q' i a b with
  | error e =>
    simp only [hq, bind, Except.bind, outcome] at ho
    split at ho <;> first | (cases ho; done) | simp_all
  | ok pts =>
    simp only [hq, bind, Except.bind] at ho
    cases hg : t'.getKBestMatches E.A E.B s.ratio pts k ke with
    | error e =>
      simp only [hg, Except.map, outcome] at ho
      split at ho <;> first | (cases ho; done) | simp_all
    | ok l =>
      simp only [hg, Except.map, outcome, result, toObj] at ho
      cases ho
      refine ⟨_, rfl, ?_⟩
      rw [List.length_map]
      unfold GSet.getKBestMatches at hg
      split at hg
      · cases hg
      split at hg
      · cases hg
      simp only [bind, Except.bind] at hg
      split at hg
      · cases hg
      split at hg
      · cases hg
      cases hg
      simp
      omega

end

/-! ## Examples -/

def exFiles : Files ℚ := ⟨fun p => if p = "f" then some "1 4\n2 3".toList else none, fun _ => none, fun _ => none, fun _ => true,
  fun x => match x with | .fin x => x | _ => 0⟩

/-- `loadDataset("d", "f", hasNameCol=True)`. -/
theorem exPyLoad : request exFiles "loadDataset" [.str "d", .str "f"] [("hasNameCol", .bool true)] =
    .call (.call (.load "d" (some "1 4\n2 3".toList) ['f'] [' '] 0 0 true)) := rfl

example : Documented exFiles "loadDataset" [.str "d", .str "f"] [("hasNameCol", .bool true)]
    (.call (.load "d" (some "1 4\n2 3".toList) ['f'] [' '] 0 0 true)) :=
  C82_only exFiles "loadDataset" (by decide) _ _ (by simp) _ exPyLoad

example : request exFiles "sim" [.str "d", .str "e", .int 0] [] = .call (.call (.bestMatch "d" "e" 0 (-1) (-1))) := rfl
example : request exFiles "sim" [.str "d", .str "e", .int 0] [("start", .int 1), ("end", .int 3)] =
    .call (.call (.bestMatch "d" "e" 0 1 3)) := rfl
example : request exFiles "sim" [.str "d", .str "e", .int 4294967296] [] = .overflow := rfl
example := (C82_overflow exFiles "sim" (by decide) [.str "d", .str "e", .int 4294967296] [] (by simp)).1 rfl
example := (C82_unknown exFiles "simm" [] []).2 rfl
example : request exFiles "sim" [.str "d", .str "e", .str "0"] [] = .argument := rfl
example : request exFiles "group" [.str "d", .int 2] [("numThreads", .int 4)] =
    .call (.group "d" (fin ((2 : Int) : ℚ)) "euclidean" 4 false) := rfl

/-- The hypotheses of `C82_call_partial` hold of the call above. -/
example := C82_call_partial exFiles "loadDataset" (by decide) [.str "d", .str "f"] [("hasNameCol", .bool true)] (by simp)
  (by
    intro ps hs e he
    cases hs
    simp only [List.mem_singleton] at he
    subst he
    exact ⟨⟨"hasNameCol", .bool, some (.bool false)⟩, by simp, rfl, rfl⟩) _
  (C82_only exFiles "loadDataset" (by decide) _ _ (by simp) _ exPyLoad)

/-- `loadDataset(name="d", path="f")`. -/
example := C82_required_false exFiles "loadDataset" (by decide) [] [("name", .str "d"), ("path", .str "f")] (by simp) _ rfl
  ⟨"name", .str, none⟩ (by simp) rfl (by simp)

/-- `getMatching("d", 0, 0, 2, "e", 1, distanceName="euclidean_dtw")` is a documented call. -/
theorem exPyMatching : Documented exFiles "getMatching" [.str "d", .int 0, .int 0, .int 2, .str "e", .int 1]
    [("distanceName", .str "euclidean_dtw")] (.call (.matching "d" 0 0 2 "e" 1 (-1) (-1) "euclidean_dtw")) := by
  refine ⟨_, [.str "d", .int 0, .int 0, .int 2, .str "e", .int 1, .int (-1), .int (-1), .str "euclidean_dtw"], _, rfl, ?_,
    ?_, .getMatching _ _ _ _ _ _ _ _ _⟩
  · refine ⟨by simp, rfl, ?_, ?_, ?_⟩
    · intro i hi
      simp only [List.length_cons, List.length_nil] at hi
      match i, hi with
      | 0, _ => rfl
      | 1, _ => rfl
      | 2, _ => rfl
      | 3, _ => rfl
      | 4, _ => rfl
      | 5, _ => rfl
    · intro i p hi hp
      simp only [List.length_cons, List.length_nil] at hi
      match i, hi with
      | 6, _ => cases hp; rfl
      | 7, _ => cases hp; rfl
      | 8, _ => cases hp; rfl
      | _ + 9, _ => cases hp
    · intro e he
      simp only [List.mem_singleton] at he
      subst he
      exact ⟨8, _, by simp, rfl, rfl⟩
  · exact .cons (.str _) (.cons (.int (by norm_num) (by norm_num)) (.cons (.int (by norm_num) (by norm_num))
      (.cons (.int (by norm_num) (by norm_num)) (.cons (.str _) (.cons (.int (by norm_num) (by norm_num))
        (.cons (.int (by norm_num) (by norm_num)) (.cons (.int (by norm_num) (by norm_num)) (.cons (.str _) .nil))))))))

example : request exFiles "getMatching" [.str "d", .int 0, .int 0, .int 2, .str "e", .int 1]
    [("distanceName", .str "euclidean_dtw")] = .argument :=
  C82_matching_false exFiles _ _ (by simp) (by simp) _ exPyMatching

/-- With eight arguments the distance is the number -1. -/
example : request exFiles "getMatching" [.str "d", .int 0, .int 0, .int 2, .str "e", .int 1, .int 0, .int 2] [] = .argument := rfl

/-- With nine arguments the call works. -/
example : request exFiles "getMatching" [.str "d", .int 0, .int 0, .int 2, .str "e", .int 1, .int 0, .int 2, .str "euclidean_dtw"] [] =
    .call (.call (.matching "d" 0 0 2 "e" 1 0 2 "euclidean_dtw")) := rfl

example := C82_matching_full exFiles [.str "d", .int 0, .int 0, .int 2, .str "e", .int 1, .int 0, .int 2, .str "euclidean_dtw"] rfl
  (.call (.matching "d" 0 0 2 "e" 1 0 2 "euclidean_dtw")) (by
    refine ⟨_, _, _, rfl, ⟨by simp, rfl, fun i hi => rfl, ?_, by simp⟩, ?_, .getMatching _ _ _ _ _ _ _ _ _⟩
    · intro i p hi hp
      have := (List.getElem?_eq_some_iff.1 hp).1
      simp only [List.length_cons, List.length_nil] at this hi
      omega
    · exact .cons (.str _) (.cons (.int (by norm_num) (by norm_num)) (.cons (.int (by norm_num) (by norm_num))
        (.cons (.int (by norm_num) (by norm_num)) (.cons (.str _) (.cons (.int (by norm_num) (by norm_num))
          (.cons (.int (by norm_num) (by norm_num)) (.cons (.int (by norm_num) (by norm_num)) (.cons (.str _) .nil)))))))))

/-- The documented third argument before the last, given by its name, becomes the end of the range. -/
example : request exFiles "getMatching" [.str "d", .int 0, .int 0, .int 2, .str "e", .int 1, .int 5]
    [("end2", .str "euclidean_dtw"), ("start2", .int 7)] = .call (.call (.matching "d" 0 0 2 "e" 1 5 7 "euclidean_dtw")) := rfl

/-- The dataset of C39 under the name "d"; its only queries are its own series. -/
def exPyState : Api ℚ := ⟨[some exGrouped.1], [("d", 0)], [], 1, 1 / 2⟩

/-- Five matches are asked for, there are four subsequences, and five entries are returned. -/
example : ∃ s' o, Turn exEnv exFiles exPyState "ksim" [.int 5, .int 5, .str "d", .str "d", .int 0, .int 1, .int 3] [] s' (.value o) :=
  ⟨_, _, _, rfl, by
    have h : exGrouped.1.getKBestMatches exEnv.A exEnv.B exPyState.ratio [fin 2, fin 3] 5 5 =
        .ok [.cand ⟨⟨0, 0, 1, 3⟩, fin 0⟩, .cand ⟨⟨0, 0, 0, 3⟩, fin (5 / 6)⟩, .cand ⟨⟨0, 0, 0, 2⟩, fin (3 / 2)⟩,
          .cand ⟨⟨3, 1, 0, 2⟩, fin (11 / 4)⟩, .pad] := by decide +kernel
    have hq : queryOf exGrouped.1 0 1 3 = .ok [fin 2, fin 3] := by decide +kernel
    show _ = outcome _ (.ret (do
      let pts ← queryOf exGrouped.1 0 1 3
      (exGrouped.1.getKBestMatches exEnv.A exEnv.B exPyState.ratio pts 5 5).map .entries))
    rw [hq]
    simp only [bind, Except.bind]
    rw [h]
    rfl⟩

/-- A refused call, then one that sets the band. -/
theorem exPySession : Session exEnv exPyState [(exFiles, "sim", [.str "d"], []), (exFiles, "setWarpingBandRatio", [.float (fin 1)], [])]
    { exPyState with ratio := 1 } :=
  .snoc (h := [_]) (.snoc (h := []) (.nil _) (o := .argument) ⟨rfl, rfl⟩ trivial) (o := .value .none) ⟨.ret (.ok .unit), rfl, rfl⟩ trivial

example := C82_session exEnv exPySession
example := C82_refused exEnv exFiles exPyState exPyState "sim" [.str "d"] [] (o := .argument) ⟨rfl, rfl⟩ (.inl rfl)

end Genex.Props
