import Verif.Lemmas.TerminalDouble
import Verif.Props.Terminal

/-!
# C112: from the lines typed to the text on the screen, in the arithmetic of `double`
-/

set_option linter.unusedSectionVars false

namespace Genex.Props

open Dbl Api Registry Spec Cli Manual

section

variable {K : Type} [Field K] [LinearOrder K] [IsStrictOrderedRing K] [FloorRing K] [HasSqrt K] [A : Arith K] [BandOps]
  (hA : A = doubleArith) (E : Env K) (S : Screen K) (hP : S.progress = [] ∨ S.progress.getLast? = some '\n') (h : List (Entered K))

include hA hP

/-- C112: in double arithmetic, after a file has been loaded and grouped at the terminal, the text that `sim` shows names one part of one
line, of a comparable length, with the text of a number that is its DTW distance from the points asked for up to the error `ε`; no part
of a comparable length is nearer by more than a quarter (euclidean) or half (chebyshev) of the threshold typed, up to the error. -/
theorem C112_sim (hS : Tidy S) (e : Entered K) (c : Console K) (ht : Terminal E S Console.fresh (h ++ [e]) c) (name : String) (W : ℕ)
    (rows : List (List K)) (m : Metric) (hm : m ≠ .sorensen ∧ m ≠ .cosine) (hs : m = .euclidean → LawfulSqrt K) (τ : K)
    (hg : ServedGroups E h name W rows (metricName m) (fin τ))
    (qname : String) (index a b : Int) (q : List K) (hq : AsksServed E h qname index a b q) (h2 : 2 ≤ q.length)
    (hrow : ∃ r ∈ rows, q.length ≤ r.length) (ε : K) (hε : 12 * ((q.length : K) + W) ≤ ε * 2 ^ 53) (hε1 : ε < 1)
    (args : List String) (hty : e.Typed args) (hu : Usage e.env args (.call (.call (.bestMatch name qname index a b)))) :
    ∃ (i p ℓ : ℕ) (y : List K) (x D : K) (d : ℕ), bestIn e.text = [((i : Int), (p : Int), (p : Int) + ℓ)] ∧
      afterWords "Distance = " e.text = [S.num d (fin x)] ∧ SubOf rows ℓ i p y ∧ Comparable cliBand q.length ℓ ∧
      Dtw m cliBand q y (fin D) ∧ |x - D| ≤ ε * D + 4 * (1 / 2 ^ 537) ∧ d ∈ [4, 6, 16] ∧ ((∀ l ∈ h, ¬ Starts l.line "timer") → d = 4) ∧
      (0 ≤ τ → m = .euclidean ∨ m = .chebyshev → ∀ i' p' ℓ' y' x', 2 ≤ ℓ' → SubOf rows ℓ' i' p' y' → Comparable cliBand q.length ℓ' →
        Dtw m cliBand q y' (fin x') → (1 - ε) ^ 2 * D ≤
          (1 + ε) ^ 2 * (x' + (τ + 8 * (1 / 2 ^ 537)) / ((if m = .euclidean then 4 else 2) * (1 - ε))) + 16 * (1 / 2 ^ 537)) := by
  obtain ⟨b', hb, he⟩ := terminal_split ht
  obtain ⟨R, file, k1, k2, hG⟩ := servedGroups_grouped hP hb hg
  obtain ⟨hQ, hqs⟩ := asksServed_query hA hP hb hq
  have hr := terminal_ratio hb
  have hr0 : 0 ≤ b'.api.ratio := by rw [hr]; norm_num [cliBand]
  have hp := usage_runs hty hu (usage_best hu)
  obtain ⟨r, hc⟩ := C88_returns hA k2 k1 m hm hs (fin τ) hG hr0 qname index a b q hQ hqs h2 (query_short hε hε1.le) hrow
  obtain ⟨hl, ps, hsay, htx⟩ := terminal_says he hp hc
  obtain ⟨g1, g2⟩ := C110_sim E e.env S hS b' c e.line hl name qname index a b ps r hp hsay
  obtain ⟨-, i, p, ℓ, y, x, D, ⟨n1, n2, n3⟩, hsub, hcom, hx, hD, herr, -⟩ := C88_best hA k2 k1 m hm hs (fin τ) false hG hr0 qname index a b q hQ
    hqs ε hε hε1.le _ r hc
  rw [hr] at hcom hD
  refine ⟨i, p, ℓ, y, x, D, if b'.timer then 4 else b'.digits, ?_, ?_, hsub, hcom, hD, herr, (terminal_shown hb).1, (terminal_shown hb).2, ?_⟩
  · rw [htx, g1, n1, n2, n3]
  · rw [htx, g2, hx]
  · intro hτ hm' i' p' ℓ' y' x' hℓ hy' hcom' hx'
    obtain ⟨i₁, p₁, ℓ₁, y₁, D₁, ⟨o1, o2, o3⟩, hs₁, hD₁, hle⟩ := C88_near hA k2 k1 m hm' hs τ hτ hG hr0 qname index a b q hQ hqs ε hε hε1 _ r hc
      ℓ' i' p' y' hℓ hy' (by rw [hr]; exact hcom') x' (by rw [hr]; exact hx')
    rw [hr] at hD₁
    obtain rfl : i₁ = i := by rw [n1] at o1; exact_mod_cast o1.symm
    obtain rfl : p₁ = p := by rw [n2] at o2; exact_mod_cast o2.symm
    obtain rfl : ℓ₁ = ℓ := by rw [n3] at o3; omega
    obtain ⟨r1, a1, -, a3⟩ := hsub
    obtain ⟨r2, b1, -, b3⟩ := hs₁
    rw [a1] at b1
    cases b1
    obtain rfl : y₁ = y := by rw [a3, b3]
    rw [fin.inj (dtw_unique hD hD₁)]
    exact hle

/-- C112: and it can be typed: the program answers. -/
theorem C112_sim_answers (c : Console K) (ht : Terminal E S Console.fresh h c) (name : String) (W : ℕ) (rows : List (List K)) (m : Metric)
    (hm : m ≠ .sorensen ∧ m ≠ .cosine) (hs : m = .euclidean → LawfulSqrt K) (t : Dbl K) (hg : ServedGroups E h name W rows (metricName m) t)
    (qname : String) (index a b : Int) (q : List K) (hq : AsksServed E h qname index a b q) (h2 : 2 ≤ q.length) (hl52 : q.length ≤ 2 ^ 52)
    (hrow : ∃ r ∈ rows, q.length ≤ r.length) (P : CliEnv K) (line : String) (hl : '\n' ∉ line.toList) (args : List String)
    (hw : Words line.toList (args.map String.toList)) (hu : Usage P args (.call (.call (.bestMatch name qname index a b)))) :
    ∃ T c', Terminal E S Console.fresh (h ++ [⟨P, line, T⟩]) c' := by
  obtain ⟨R, file, k1, k2, hG⟩ := servedGroups_grouped hP ht hg
  obtain ⟨hQ, hqs⟩ := asksServed_query hA hP ht hq
  have hr0 : 0 ≤ c.api.ratio := by rw [terminal_ratio ht]; norm_num [cliBand]
  obtain ⟨r, hc⟩ := C88_returns hA k2 k1 m hm hs t hG hr0 qname index a b q hQ hqs h2 hl52 hrow
  have hp := usage_runs (e := ⟨P, line, []⟩) hw hu (usage_best hu)
  have := says_call E P c line (.call (.bestMatch name qname index a b)) c.api (.cand r) hp hc
  exact ⟨_, _, .snoc ht hl this (by simp)⟩

/-- C112: `ksim` after that, in each of its forms but the one with a range and `ke`: as in C111, each distance up to the error, and none left
out is nearer by more than the error. -/
theorem C112_ksim (hLA : E.A.Lawful (Cand.ltR roundDouble)) (hLB : E.B.Lawful GIdx.lt) (hS : Tidy S)
    (e : Entered K) (c : Console K) (ht : Terminal E S Console.fresh (h ++ [e]) c) (name : String) (W : ℕ) (rows : List (List K)) (m : Metric)
    (hm : m ≠ .sorensen ∧ m ≠ .cosine) (hs : m = .euclidean → LawfulSqrt K) (t : Dbl K) (hg : ServedGroups E h name W rows (metricName m) t)
    (qname : String) (index a b : Int) (q : List K) (hq : AsksServed E h qname index a b q) (h2 : 2 ≤ q.length)
    (hrow : ∃ r ∈ rows, q.length ≤ r.length) (ε : K) (hε : 12 * ((q.length : K) + W) ≤ ε * 2 ^ 53) (hε1 : ε ≤ 1)
    (hsp : SpacedFor (Computed roundDouble m cliBand q) rows) (k ke : ℕ) (h1 : 1 ≤ ke) (hke : k ≤ ke)
    (kText iText : String) (range : Option (String × String)) (keText : Option String) (hk : e.env.stoi kText = .ok (k : Int))
    (hi : e.env.stoi iText = .ok index) (hrange : OptRange e.env range a b) (hke' : Opt e.env k keText ke)
    (hboth : range = none ∨ keText = none) (hty : e.Typed (ksimForm kText name qname iText range keText)) :
    ∃ (res : List (ℕ × ℕ × ℕ × Dbl K)) (d : ℕ),
      answersIn e.text = res.map (matchLine S d) ++
        List.replicate (k - partCount rows cliBand q.length) (0, 0, 0, S.num d (fin 0)) ∧
      res.length = min k (partCount rows cliBand q.length) ∧ (res.map fun r => (r.1, r.2.1, r.2.2.1)).Nodup ∧
      (∀ r ∈ res, ∃ y, SubOf rows r.2.2.1 r.1 r.2.1 y ∧ 2 ≤ r.2.2.1 ∧ Comparable cliBand q.length r.2.2.1 ∧
        NearDtw m cliBand ε (4 * (1 / 2 ^ 537)) q y r.2.2.2 ∧
        (partCount rows cliBand q.length ≤ ke → ∀ i' p' ℓ' y' D', SubOf rows ℓ' i' p' y' → 2 ≤ ℓ' → Comparable cliBand q.length ℓ' →
          Dtw m cliBand q y' (fin D') → (i', p', ℓ') ∉ res.map (fun r => (r.1, r.2.1, r.2.2.1)) →
          ∃ D, Dtw m cliBand q y (fin D) ∧ (1 - ε) * D ≤ (1 + ε) * D' + 8 * (1 / 2 ^ 537))) ∧
      res.Pairwise (fun r r' => r.2.2.2 ≤ r'.2.2.2) ∧ d ∈ [4, 6, 16] ∧ ((∀ l ∈ h, ¬ Starts l.line "timer") → d = 4) := by
  obtain ⟨b', hb, he⟩ := terminal_split ht
  obtain ⟨R, file, k1, k2, hG⟩ := servedGroups_grouped hP hb hg
  obtain ⟨hQ, hqs⟩ := asksServed_query hA hP hb hq
  have hr := terminal_ratio hb
  have hr0 : 0 ≤ b'.api.ratio := by rw [hr]; norm_num [cliBand]
  have hp := C55_partial e.env e.line kText name qname iText range keText hk hi hrange hke' hty hboth
  obtain ⟨res, hc, r1, r2, r3, r4⟩ := C88_kbest hA k2 k1 hLA hLB m hm hs t hG hr0 qname index a b q hQ hqs h2 hrow ε hε hε1 k ke h1 hke
    (by rw [hr]; exact hsp)
  rw [hr] at hc r1 r3
  obtain ⟨hl, ps, hsay, htx⟩ := terminal_says he hp hc
  have g := C110_ksim E e.env S hS b' c e.line hl k ke name qname index a b ps res _ hp hsay
  let f : Cand K → ℕ × ℕ × ℕ × Dbl K := fun c =>
    (c.view.index.toNat, c.view.start.toNat, (c.view.stop - c.view.start).toNat, c.dist)
  have hf : ∀ c ∈ res, ∀ i p ℓ, Names c i p ℓ → f c = (i, p, ℓ, c.dist) := by
    rintro c - i p ℓ ⟨e1, e2, e3⟩
    simp only [f, e1, e2, e3]
    simp
  refine ⟨res.map f, if b'.timer then 4 else b'.digits, ?_, ?_, ?_, ?_, ?_, (terminal_shown hb).1, (terminal_shown hb).2⟩
  · rw [htx, g, List.map_map]
    congr 1
    refine List.map_congr_left fun r hr => ?_
    obtain ⟨i, p, ℓ, y, hn, -⟩ := r3 r hr
    rw [Function.comp, hf r hr i p ℓ hn, matchLine, hn.1, hn.2.1, hn.2.2]
  · rw [List.length_map, r1]
  · rw [List.map_map, List.nodup_iff_pairwise_ne, List.pairwise_map]
    rw [List.nodup_iff_pairwise_ne, List.pairwise_map] at r2
    refine r2.imp_of_mem ?_
    intro x y hx hy hne heq
    obtain ⟨i, p, ℓ, _, hn, -⟩ := r3 x hx
    obtain ⟨i', p', ℓ', _, hn', -⟩ := r3 y hy
    simp only [Function.comp, hf x hx i p ℓ hn, hf y hy i' p' ℓ' hn', Prod.mk.injEq] at heq
    obtain ⟨rfl, rfl, rfl⟩ := heq
    refine hne ?_
    rw [hn.1, hn.2.1, hn.2.2, hn'.1, hn'.2.1, hn'.2.2]
  · intro r hr
    obtain ⟨x, hx, rfl⟩ := List.mem_map.1 hr
    obtain ⟨i, p, ℓ, y, hn, h3, h4, h5, h6, h7⟩ := r3 x hx
    rw [hf x hx i p ℓ hn]
    refine ⟨y, h3, h4, h5, h6, fun hle i' p' ℓ' y' D' hy' hℓ' hcom' hD' hno => h7 hle i' p' ℓ' y' D' hy' hℓ' hcom' hD' ?_⟩
    intro w hw hnw
    refine hno ?_
    rw [List.map_map]
    exact List.mem_map.2 ⟨w, hw, by simp only [Function.comp, hf w hw i' p' ℓ' hnw]⟩
  · rw [List.pairwise_map]
    exact r4

/-- C112: and it can be typed: the program answers. -/
theorem C112_ksim_answers (hLA : E.A.Lawful (Cand.ltR roundDouble)) (hLB : E.B.Lawful GIdx.lt)
    (c : Console K) (ht : Terminal E S Console.fresh h c) (name : String) (W : ℕ) (rows : List (List K)) (m : Metric)
    (hm : m ≠ .sorensen ∧ m ≠ .cosine) (hs : m = .euclidean → LawfulSqrt K) (t : Dbl K) (hg : ServedGroups E h name W rows (metricName m) t)
    (qname : String) (index a b : Int) (q : List K) (hq : AsksServed E h qname index a b q) (h2 : 2 ≤ q.length)
    (hrow : ∃ r ∈ rows, q.length ≤ r.length) (hε : 12 * ((q.length : K) + W) ≤ 2 ^ 53)
    (hsp : SpacedFor (Computed roundDouble m cliBand q) rows) (k ke : ℕ) (h1 : 1 ≤ ke) (hke : k ≤ ke)
    (P : CliEnv K) (line kText iText : String) (range : Option (String × String)) (keText : Option String) (hk : P.stoi kText = .ok (k : Int))
    (hi : P.stoi iText = .ok index) (hrange : OptRange P range a b) (hke' : Opt P k keText ke)
    (hboth : range = none ∨ keText = none) (hl : '\n' ∉ line.toList)
    (hw : Words line.toList ((ksimForm kText name qname iText range keText).map String.toList)) :
    ∃ T c', Terminal E S Console.fresh (h ++ [⟨P, line, T⟩]) c' := by
  obtain ⟨R, file, k1, k2, hG⟩ := servedGroups_grouped hP ht hg
  obtain ⟨hQ, hqs⟩ := asksServed_query hA hP ht hq
  have hr := terminal_ratio ht
  have hr0 : 0 ≤ c.api.ratio := by rw [hr]; norm_num [cliBand]
  have hp := C55_partial P line kText name qname iText range keText hk hi hrange hke' hw hboth
  obtain ⟨res, hc, -⟩ := C88_kbest hA k2 k1 hLA hLB m hm hs t hG hr0 qname index a b q hQ hqs h2 hrow 1 (by rw [one_mul]; exact hε) le_rfl k ke h1 hke
    (by rw [hr]; exact hsp)
  have := says_call E P c line (.call (.kBest k ke name qname index a b)) c.api _ hp hc
  exact ⟨_, _, .snoc ht hl this (by simp)⟩

/-- C112: `ksimBF` in a dataset that has been loaded: the lines are matches, as many as asked for or as there are parts of lines, each with
its DTW distance up to the error, nearest first, and none left out is nearer by more than the error. -/
theorem C112_ksimBF [LawfulSqrt K] (hLA : E.A.Lawful (Cand.ltR roundDouble)) (hS : Tidy S)
    (e : Entered K) (c : Console K) (ht : Terminal E S Console.fresh (h ++ [e]) c) (name : String) (W : ℕ) (rows : List (List K))
    (hg : ServedBy E name W h rows) (qname : String) (index a b : Int) (q : List K) (hq : AsksServed E h qname index a b q) (h1 : 1 ≤ q.length)
    (ε : K) (hε : 12 * ((q.length : K) + W) ≤ ε * 2 ^ 53) (hε1 : ε ≤ 1)
    (hsp : SpacedFor (Computed roundDouble .euclidean cliBand q) rows) (k : ℕ) (hk : 1 ≤ k) (dist : String) (args : List String)
    (hty : e.Typed args) (hu : Usage e.env args (.call (.call (.bruteForce k name qname index a b dist)))) :
    ∃ (res : List (ℕ × ℕ × ℕ × Dbl K)) (d : ℕ),
      answersIn e.text = res.map (matchLine S d) ∧
      res.length = min k (subCount rows) ∧ (res.map fun r => (r.1, r.2.1, r.2.2.1)).Nodup ∧
      (∀ r ∈ res, ∃ y, SubOf rows r.2.2.1 r.1 r.2.1 y ∧ 2 ≤ r.2.2.1 ∧ NearDtw .euclidean cliBand ε (4 * (1 / 2 ^ 537)) q y r.2.2.2 ∧
        ∀ i' p' ℓ' y' D', SubOf rows ℓ' i' p' y' → 2 ≤ ℓ' → Dtw .euclidean cliBand q y' (fin D') →
          (i', p', ℓ') ∉ res.map (fun r => (r.1, r.2.1, r.2.2.1)) →
          ∃ D, Dtw .euclidean cliBand q y (fin D) ∧ (1 - ε) * D ≤ (1 + ε) * D' + 8 * (1 / 2 ^ 537)) ∧
      res.Pairwise (fun r r' => r.2.2.2 ≤ r'.2.2.2) ∧ d ∈ [4, 6, 16] ∧ ((∀ l ∈ h, ¬ Starts l.line "timer") → d = 4) := by
  obtain ⟨b', hb, he⟩ := terminal_split ht
  obtain ⟨R, file, k1, k2, hG⟩ := servedBy_serves hP hb hg
  obtain ⟨hQ, hqs⟩ := asksServed_query hA hP hb hq
  have hr := terminal_ratio hb
  have hr0 : 0 ≤ b'.api.ratio := by rw [hr]; norm_num [cliBand]
  have hp := usage_runs hty hu (usage_brute hu).1
  have hdist := (usage_brute hu).2
  subst hdist
  obtain ⟨res, hc, r1, r2, r3, r4⟩ := C88_exhaustive hA k2 k1 hLA .euclidean (by decide) (fun _ => inferInstance) hG hr0 qname index a b q hQ hqs h1
    ε hε hε1 k hk (by rw [hr]; exact hsp)
  rw [hr] at r3
  obtain ⟨hl, ps, hsay, htx⟩ := terminal_says he hp hc
  have g := C110_ksimBF E e.env S hS b' c e.line hl k name qname index a b "euclidean" ps res hp hsay
  let f : Cand K → ℕ × ℕ × ℕ × Dbl K := fun c =>
    (c.view.index.toNat, c.view.start.toNat, (c.view.stop - c.view.start).toNat, c.dist)
  have hf : ∀ c ∈ res, ∀ i p ℓ, Names c i p ℓ → f c = (i, p, ℓ, c.dist) := by
    rintro c - i p ℓ ⟨e1, e2, e3⟩
    simp only [f, e1, e2, e3]
    simp
  refine ⟨res.map f, if b'.timer then 4 else b'.digits, ?_, ?_, ?_, ?_, ?_, (terminal_shown hb).1, (terminal_shown hb).2⟩
  · rw [htx, g, List.map_map]
    refine List.map_congr_left fun r hr => ?_
    obtain ⟨i, p, ℓ, y, -, hn, -⟩ := r3 r hr
    rw [Function.comp, hf r hr i p _ hn, matchLine, hn.1, hn.2.1, hn.2.2]
  · rw [List.length_map, r1]
  · rw [List.map_map, List.nodup_iff_pairwise_ne, List.pairwise_map]
    rw [List.nodup_iff_pairwise_ne, List.pairwise_map] at r2
    refine r2.imp_of_mem ?_
    intro x y hx hy hne heq
    obtain ⟨i, p, ℓ, _, -, hn, -⟩ := r3 x hx
    obtain ⟨i', p', ℓ', _, -, hn', -⟩ := r3 y hy
    simp only [Function.comp, hf x hx i p _ hn, hf y hy i' p' _ hn', Prod.mk.injEq] at heq
    obtain ⟨rfl, rfl, h3⟩ := heq
    refine hne ?_
    rw [hn.1, hn.2.1, hn.2.2, hn'.1, hn'.2.1, hn'.2.2, h3]
  · intro r hr
    obtain ⟨x, hx, rfl⟩ := List.mem_map.1 hr
    obtain ⟨i, p, e', y, ⟨row, h3, h4, h5, h6⟩, hn, h7, h8⟩ := r3 x hx
    rw [hf x hx i p _ hn]
    refine ⟨y, ⟨row, h3, by dsimp only; omega, h6⟩, by dsimp only; omega, h7, ?_⟩
    rintro i' p' ℓ' y' D' ⟨row', q1, q2, q3⟩ hℓ' hD' hno
    refine h8 i' p' (p' + ℓ') y' D' ⟨row', q1, by omega, q2, by rw [Nat.add_sub_cancel_left]; exact q3⟩ hD' ?_
    intro w hw hnw
    refine hno ?_
    rw [Nat.add_sub_cancel_left] at hnw
    rw [List.map_map]
    exact List.mem_map.2 ⟨w, hw, by simp only [Function.comp, hf w hw i' p' ℓ' hnw]⟩
  · rw [List.pairwise_map]
    exact r4

/-- C112: and it can be typed: the program answers. -/
theorem C112_ksimBF_answers [LawfulSqrt K] (hLA : E.A.Lawful (Cand.ltR roundDouble)) (c : Console K)
    (ht : Terminal E S Console.fresh h c) (name : String) (W : ℕ) (rows : List (List K))
    (hg : ServedBy E name W h rows) (qname : String) (index a b : Int) (q : List K) (hq : AsksServed E h qname index a b q) (h1 : 1 ≤ q.length)
    (hε : 12 * ((q.length : K) + W) ≤ 2 ^ 53)
    (hsp : SpacedFor (Computed roundDouble .euclidean cliBand q) rows) (k : ℕ) (hk : 1 ≤ k) (dist : String) (P : CliEnv K) (line : String)
    (hl : '\n' ∉ line.toList) (args : List String) (hw : Words line.toList (args.map String.toList))
    (hu : Usage P args (.call (.call (.bruteForce k name qname index a b dist)))) :
    ∃ T c', Terminal E S Console.fresh (h ++ [⟨P, line, T⟩]) c' := by
  obtain ⟨R, file, k1, k2, hG⟩ := servedBy_serves hP ht hg
  obtain ⟨hQ, hqs⟩ := asksServed_query hA hP ht hq
  have hr := terminal_ratio ht
  have hr0 : 0 ≤ c.api.ratio := by rw [hr]; norm_num [cliBand]
  have hp := usage_runs (e := ⟨P, line, []⟩) hw hu (usage_brute hu).1
  have hdist := (usage_brute hu).2
  subst hdist
  obtain ⟨res, hc, -⟩ := C88_exhaustive hA k2 k1 hLA .euclidean (by decide) (fun _ => inferInstance) hG hr0 qname index a b q hQ hqs h1
    1 (by rw [one_mul]; exact hε) le_rfl k hk (by rw [hr]; exact hsp)
  have := says_call E P c line (.call (.bruteForce k name qname index a b "euclidean")) c.api _ hp hc
  exact ⟨_, _, .snoc ht hl this (by simp)⟩

/-- C112: `normalize` of a dataset with some number can be typed: the program answers without an error, and from then on the numbers are
in `[0, 1]` and differ from those of the file scaled exactly by at most `4 / 2 ^ 53` of them (and underflow). -/
theorem C112_normalize (c : Console K) (ht : Terminal E S Console.fresh h c) (name : String) (W : ℕ) (raw : List (List K))
    (hl : ServedBy E name W h raw) (hne : ∃ r ∈ raw, r ≠ []) (P : CliEnv K) (line : String) (hline : '\n' ∉ line.toList)
    (hw : Words line.toList (["normalize", name].map String.toList)) :
    ∃ T c' lo hi, ∃ f : K → K, Terminal E S Console.fresh (h ++ [⟨P, line, T⟩]) c' ∧ (⟨P, line, T⟩ : Entered K).Fine ∧
      IsLeast {x | ∃ r ∈ raw, x ∈ r} lo ∧ IsGreatest {x | ∃ r ∈ raw, x ∈ r} hi ∧
      ServedBy E name W (h ++ [⟨P, line, T⟩]) (raw.map (·.map f)) ∧
      ∀ r ∈ raw, ∀ x ∈ r, 0 ≤ f x ∧ f x ≤ 1 ∧ (lo = hi → f x = 0) ∧
        (lo ≠ hi → |f x - (x - lo) / (hi - lo)| ≤ 4 * (1 / 2 ^ 53) * ((x - lo) / (hi - lo)) + (1 / 2 ^ 537) ^ 2) := by
  obtain ⟨R, file, k1, k2, k3⟩ := servedBy_serves hP ht hl
  have hsz := (serves_double hA k2 k1 k3).2.1
  obtain ⟨s₁, lo, hi, hex, hlo, hhi, -⟩ := C88_normalize hA k2 k1 k3 hne
  have hp := usage_runs (e := ⟨P, line, []⟩) hw (.normalize name) (by simp)
  have hsay := says_call E P c line (.call (.normalize name)) _ _ hp hex
  have hfine := normalize_fine (S := S) (c := c) (P := P) hline hw (x := (fin lo, fin hi))
  exact ⟨_, _, lo, hi, scaleR roundDouble lo hi, .snoc ht hline hsay (by simp), hfine, hlo, hhi,
    .normalize (h₂ := []) hl hw ⟨lo, hi, hlo, hhi, rfl⟩ hfine (by simp), scaleR_unit (fun r hr => (hsz r hr).1) hlo hhi⟩

/-- C112: `print` shows the numbers asked for with 16 digits, each with a space after it. -/
theorem C112_print (e : Entered K) (c : Console K) (ht : Terminal E S Console.fresh (h ++ [e]) c) (name : String) (index a b : Int)
    (q : List K) (hq : AsksServed E h name index a b q) (args : List String) (hty : e.Typed args)
    (hu : Usage e.env args (.call (.call (.series name index a b)))) :
    e.text = (q.map fun x => S.num 16 (fin x) ++ [' ']).flatten ++ ['\n'] := by
  obtain ⟨b', hb, he⟩ := terminal_split ht
  obtain ⟨s', hQ⟩ := (asksServed_query hA hP hb hq).1
  have hp := usage_runs hty hu (usage_series hu)
  obtain ⟨hl, ps, ⟨-, t2⟩, htx⟩ := terminal_says he hp hQ
  unfold output at t2
  rw [hp] at t2
  simp only [Option.some.injEq, Prod.mk.injEq, before, List.nil_append] at t2
  rw [htx, ← t2.1, texts_app]
  unfold report pointPieces
  rw [texts_flat]
  simp [Piece.texts, Piece.text, Function.comp_def]

/-- C112: and it can be typed. -/
theorem C112_print_answers (c : Console K) (ht : Terminal E S Console.fresh h c) (name : String) (index a b : Int) (q : List K)
    (hq : AsksServed E h name index a b q) (P : CliEnv K) (line : String) (hl : '\n' ∉ line.toList) (args : List String)
    (hw : Words line.toList (args.map String.toList)) (hu : Usage P args (.call (.call (.series name index a b)))) :
    ∃ T c', Terminal E S Console.fresh (h ++ [⟨P, line, T⟩]) c' := by
  obtain ⟨s', hQ⟩ := (asksServed_query hA hP ht hq).1
  have hp := usage_runs (e := ⟨P, line, []⟩) hw hu (usage_series hu)
  have := says_call E P c line (.call (.series name index a b)) s' _ hp hQ
  exact ⟨_, _, .snoc ht hl this (by simp)⟩

end

/-! ## A session with `normalize`, in which a sixth and a third are rounded -/

section examples

attribute [local instance 2000] exBandD exDouble

def exShowD : CliEnv ℚ := ⟨exStoi, fun s => (exStoi s).map fun n => fin n, fun p => if p = "g" then some "1 4 2\n2 3 7".toList else none,
  fun _ => none, fun _ => none, fun _ => true, 1⟩

def exTypeLoad : AnyCall ℚ := .call (.load "d" (some "1 4 2\n2 3 7".toList) ['g'] [' '] 0 0 false)

def exTypeLoaded : Api ℚ := afterD fresh (.load "d" (some "1 4 2\n2 3 7".toList) ['g'] [' '] 0 0 false)

/-- `load d g` and what is shown. -/
def exDoubleLoad : Entered ℚ := ⟨exShowD, "load d g", Piece.texts exScreen
  (before exTypeLoad ++ (report true 6 (splitLine "load d g") exTypeLoad (.info ⟨"d", 2, 3, false, false, "", 0⟩)).1 ++ [.endl])⟩

theorem exDoubleLoad_says : Terminal exEnvD exScreen Console.fresh [exDoubleLoad] ⟨exTypeLoaded, true, 6⟩ := by
  have h := says_call exEnvD exShowD Console.fresh "load d g" exTypeLoad exTypeLoaded (.info ⟨"d", 2, 3, false, false, "", 0⟩) rfl (by
    rw [← infoOf_some (r := ((fresh : Api ℚ).exec exEnvD (.load "d" (some "1 4 2\n2 3 7".toList) ['g'] [' '] 0 0 false)).2) (by decide +kernel)]
    rfl)
  exact .snoc (h := []) (.nil _) (by decide) h (by simp)

def exTypeUnit : Api ℚ := afterD exTypeLoaded (.normalize "d")

def exTypeNorm : AnyCall ℚ := .call (.normalize "d")

/-- `normalize d` and what is shown. -/
def exDoubleNorm : Entered ℚ := ⟨exShowD, "normalize d", Piece.texts exScreen
  (before exTypeNorm ++ (report true 6 (splitLine "normalize d") exTypeNorm (.pair (fin 1, fin 7))).1 ++ [.endl])⟩

theorem exDoubleNorm_says : Terminal exEnvD exScreen Console.fresh [exDoubleLoad, exDoubleNorm] ⟨exTypeUnit, true, 6⟩ := by
  have h := says_call exEnvD exShowD ⟨exTypeLoaded, true, 6⟩ "normalize d" exTypeNorm exTypeUnit (.pair (fin 1, fin 7)) rfl (by
    rw [← pairOf_some (r := (exTypeLoaded.exec exEnvD (.normalize "d")).2) (by decide +kernel)]
    rfl)
  exact .snoc (h := [exDoubleLoad]) exDoubleLoad_says (by decide) h (by simp)

def exTypeGrouped : Api ℚ × Reply ℚ :=
  match exTypeUnit.deref 0 with
  | none => (exTypeUnit, .dangling)
  | some g =>
    let out := g.groupAllLengths (GSpace.group g.ds exTypeUnit.ratio (fun _ => false) "chebyshev" (fin 1) false)
      (fun gs => (gs, .ok 0)) 1
    (exTypeUnit.store 0 out.1, .ret (out.2.map .int))

theorem exTypeGrouped_step : Api.Step exEnvD exTypeUnit (.group "d" (fin 1) "chebyshev" 1 false) exTypeGrouped.1 exTypeGrouped.2 := by
  have hf : mapFind exTypeUnit.datasets "d" = some 0 := by decide +kernel
  obtain ⟨g, hg⟩ : ∃ g, exTypeUnit.deref 0 = some g := Option.isSome_iff_exists.1 (by decide +kernel)
  unfold Api.Step GroupCall exTypeGrouped
  simp only [hf, hg]
  exact ⟨fun _ => false, _, ⟨_, fun h => by omega, rfl⟩, rfl, rfl⟩

/-- `group d 1 chebyshev` and what is shown. -/
def exDoubleGroup : Entered ℚ := ⟨exShowD, "group d 1 chebyshev", Piece.texts exScreen
  (before exGroupCall ++ (report true 6 (splitLine "group d 1 chebyshev") exGroupCall (.int 3)).1 ++ [.endl])⟩

theorem exDoubleGroup_says :
    Terminal exEnvD exScreen Console.fresh [exDoubleLoad, exDoubleNorm, exDoubleGroup] ⟨exTypeGrouped.1, true, 4⟩ := by
  have h := says_call exEnvD exShowD ⟨exTypeUnit, true, 6⟩ "group d 1 chebyshev" exGroupCall exTypeGrouped.1 (.int 3) rfl (by
    rw [← intOf_some (r := exTypeGrouped.2) (by decide +kernel)]
    exact exTypeGrouped_step)
  exact .snoc (h := [exDoubleLoad, exDoubleNorm]) exDoubleNorm_says (by decide) h (by simp)

theorem exDouble_fine : exDoubleLoad.Fine ∧ exDoubleNorm.Fine ∧ exDoubleGroup.Fine := by
  unfold Entered.Fine HasLine
  decide +kernel

theorem exDouble_raw : ServedBy exEnvD "d" 3 [exDoubleLoad] exRawD :=
  .load (h₁ := []) (h₂ := []) (args := ["load", "d", "g"]) (startCol := 0) (tokens_words "load d g".toList) (.load0 "d" "g") exRawD_has
    exRawD_sized (by decide +kernel) (by decide +kernel) exDouble_fine.1 (by simp)

theorem exDouble_served (h : List (Entered ℚ)) (hh : ∀ x ∈ h, ¬ x.Touches ["load", "unload", "normalize"] "d") :
    ServedBy exEnvD "d" 3 (exDoubleLoad :: exDoubleNorm :: h) exRowsD :=
  .normalize (h₁ := [exDoubleLoad]) exDouble_raw (tokens_words "normalize d".toList) exRowsD_scaled exDouble_fine.2.1 hh

theorem exDouble_grouped :
    ServedGroups exEnvD [exDoubleLoad, exDoubleNorm, exDoubleGroup] "d" 3 exRowsD (metricName .chebyshev) (fin 1) :=
  ⟨[exDoubleLoad, exDoubleNorm], [], exDoubleGroup, ["group", "d", "1", "chebyshev"], 1, rfl, exDouble_served [] (by simp),
    tokens_words "group d 1 chebyshev".toList, .group1 "d" "1" "chebyshev" rfl, exDouble_fine.2.2, by simp⟩

theorem exDouble_untouched : ¬ exDoubleGroup.Touches ["load", "unload", "normalize"] "d" := by
  rintro ⟨cmd, hc, ws, hw⟩
  have : (Cli.tokens exDoubleGroup.line.toList []).head? = some cmd.toList := by rw [words_unique hw]; rfl
  simp only [List.mem_cons, List.not_mem_nil, or_false] at hc
  rcases hc with rfl | rfl | rfl <;> exact absurd this (by decide)

/-- The last two points of the first line. -/
theorem exDouble_asks : AsksServed exEnvD [exDoubleLoad, exDoubleNorm, exDoubleGroup] "d" 0 1 3 exQueryD :=
  ⟨3, exRowsD, 0, [0, 1 / 2, 6004799503160661 / 2 ^ 55], exDouble_served _ (by simpa using exDouble_untouched), rfl, by decide +kernel,
    .inr ⟨1, 3, rfl, rfl, by decide, by decide, rfl⟩⟩

example := C112_normalize rfl exEnvD exScreen (.inl rfl) _ _ exDoubleLoad_says "d" 3 exRawD exDouble_raw ⟨[1, 4, 2], by decide, by simp⟩
  exShowD "normalize d" (by decide) (tokens_words "normalize d".toList)

/-- `sim d d 0 1 3` finds the query itself. -/
example : ∃ (T : Text) (c : Console ℚ), Terminal exEnvD exScreen Console.fresh ([exDoubleLoad, exDoubleNorm, exDoubleGroup] ++
    [⟨exShowD, "sim d d 0 1 3", T⟩]) c ∧ ∃ i p e, bestIn T = [(i, p, e)] := by
  obtain ⟨T, c, h⟩ := C112_sim_answers rfl exEnvD exScreen (.inl rfl) _ _ exDoubleGroup_says "d" 3 exRowsD .chebyshev (by decide) (by simp) (fin 1)
    exDouble_grouped "d" 0 1 3 exQueryD exDouble_asks (by decide) (by decide) (by decide +kernel) exShowD "sim d d 0 1 3" (by decide)
    ["sim", "d", "d", "0", "1", "3"] (tokens_words "sim d d 0 1 3".toList) (.sim1 "d" "d" "0" "1" "3" rfl rfl rfl)
  obtain ⟨i, p, ℓ, y, x, D, d, h1, -⟩ := C112_sim rfl exEnvD exScreen (.inl rfl) _ exScreen_tidy _ _ h "d" 3 exRowsD .chebyshev (by decide) (by simp) 1
    exDouble_grouped "d" 0 1 3 exQueryD exDouble_asks (by decide) (by decide +kernel) (1 / 10 ^ 14) exErrorD (by norm_num)
    ["sim", "d", "d", "0", "1", "3"] (tokens_words "sim d d 0 1 3".toList) (.sim1 "d" "d" "0" "1" "3" rfl rfl rfl)
  exact ⟨T, c, h, _, _, _, h1⟩

example : found (exTypeGrouped.1.exec exEnvD (.bestMatch "d" "d" 0 1 3)).2 = [(0, 1, 3, fin 0)] := by decide +kernel

theorem exDouble_spaced : SpacedFor (Computed (K := ℚ) roundDouble .chebyshev cliBand exQueryD) exRowsD :=
  computed_spaced [fin (1 / 2), fin 0, inf, fin (3002399751580331 / 9007199254740992), fin (7505999378950827 / 9007199254740992),
    inf] (by decide +kernel) (by decide +kernel)

/-- `ksim 2 d d 0 1 3` shows two answers. -/
example : ∃ (T : Text) (c : Console ℚ), Terminal exEnvD exScreen Console.fresh ([exDoubleLoad, exDoubleNorm, exDoubleGroup] ++
    [⟨exShowD, "ksim 2 d d 0 1 3", T⟩]) c ∧ (answersIn T).length = 2 := by
  obtain ⟨T, c, h⟩ := C112_ksim_answers rfl exEnvD exScreen (.inl rfl) _ (refAlgos_lawful _) (refAlgos_lawful _) _ exDoubleGroup_says "d" 3 exRowsD
    .chebyshev (by decide) (by simp) (fin 1) exDouble_grouped "d" 0 1 3 exQueryD exDouble_asks (by decide) (by decide +kernel)
    (by decide +kernel) exDouble_spaced 2 2 (by decide) (by decide) exShowD "ksim 2 d d 0 1 3" "2" "0" (some ("1", "3")) none rfl rfl ⟨rfl, rfl⟩ rfl
    (.inr rfl) (by decide) (tokens_words "ksim 2 d d 0 1 3".toList)
  refine ⟨T, c, h, ?_⟩
  obtain ⟨res, d, h1, h2, -⟩ := C112_ksim rfl exEnvD exScreen (.inl rfl) _ (refAlgos_lawful _) (refAlgos_lawful _) exScreen_tidy _ _ h "d" 3 exRowsD
    .chebyshev (by decide) (by simp) (fin 1) exDouble_grouped "d" 0 1 3 exQueryD exDouble_asks (by decide) (by decide +kernel)
    (1 / 10 ^ 14) exErrorD (by norm_num) exDouble_spaced 2 2 (by decide) (by decide) "2" "0" (some ("1", "3")) none rfl rfl ⟨rfl, rfl⟩ rfl
    (.inr rfl) (tokens_words "ksim 2 d d 0 1 3".toList)
  have e : partCount exRowsD cliBand exQueryD.length = 4 := by decide +kernel
  rw [e] at h1 h2
  rw [h1]
  simp [h2]

/-- `print d 0 1 3` shows one half and the double nearest to a sixth, with 16 digits. -/
example : ∃ (T : Text) (c : Console ℚ), Terminal exEnvD exScreen Console.fresh ([exDoubleLoad, exDoubleNorm, exDoubleGroup] ++
    [⟨exShowD, "print d 0 1 3", T⟩]) c ∧ T = (exQueryD.map fun x => exScreen.num 16 (fin x) ++ [' ']).flatten ++ ['\n'] := by
  obtain ⟨T, c, h⟩ := C112_print_answers rfl exEnvD exScreen (.inl rfl) _ _ exDoubleGroup_says "d" 0 1 3 exQueryD exDouble_asks exShowD
    "print d 0 1 3" (by decide) ["print", "d", "0", "1", "3"] (tokens_words "print d 0 1 3".toList) (.print "d" "0" "1" "3" rfl rfl rfl)
  exact ⟨T, c, h, C112_print rfl exEnvD exScreen (.inl rfl) _ _ _ h "d" 0 1 3 exQueryD exDouble_asks ["print", "d", "0", "1", "3"]
    (tokens_words "print d 0 1 3".toList) (.print "d" "0" "1" "3" rfl rfl rfl)⟩

end examples

/-! ## Real numbers -/

section real

local instance (priority := 2000) exBandR : BandOps := doubleBand

noncomputable local instance (priority := 2000) exDoubleR : Arith ℝ := doubleArith

noncomputable def exDoubleEnv : Env ℝ := { exRealEnv with A := refAlgos (Cand.ltR roundDouble) }

theorem exDoubleR_sized : Sized (K := ℝ) roundDouble (2 ^ 480) [[0, 1]] := by
  intro r hr
  obtain rfl := List.mem_singleton.1 hr
  have h0 : roundDouble (0 : ℝ) = 0 := by
    have := roundDouble_mul (K := ℝ) 0 (by norm_num) 0
    simpa using this
  have h1 : (1 : ℝ) ≤ 2 ^ 480 := one_le_range
  constructor
  · intro x hx
    simp only [List.mem_cons, List.not_mem_nil, or_false] at hx
    rcases hx with rfl | rfl
    · exact h0
    · exact roundDouble_unit
  · intro x hx
    simp only [List.mem_cons, List.not_mem_nil, or_false] at hx
    rcases hx with rfl | rfl
    · rw [abs_zero]; positivity
    · rwa [abs_one]

theorem exDoubleR_spaced : SpacedFor (Computed (K := ℝ) roundDouble .euclidean cliBand [0, 1]) [[0, 1]] := by
  have key : ∀ i s e x, IsSub [[(0 : ℝ), 1]] i s e x → x = [0, 1] := by
    rintro i s e x ⟨r, hr, h1, h2, rfl⟩
    match i, hr with
    | 0, hr =>
      cases hr
      have h2' : e ≤ 2 := h2
      obtain rfl : s = 0 := by omega
      obtain rfl : e = 2 := by omega
      rfl
    | i + 1, hr => simp at hr
  intro i s e x i' s' e' x' u v h1 h2 hu hv hne
  obtain rfl := key _ _ _ _ h1
  obtain rfl := key _ _ _ _ h2
  exact absurd (fin.inj (Computed.unique hu hv)) hne

/-- `ksimBF 1 d d 0` shows one answer. -/
example : ∃ (h : List (Entered ℝ)) (T : Text) (c : Console ℝ), Terminal exDoubleEnv exRealScreen Console.fresh
    (h ++ [⟨exRealCli, "ksimBF 1 d d 0", T⟩]) c ∧ (answersIn T).length = 1 := by
  have h := says_call exDoubleEnv exRealCli Console.fresh "load d g" (.call (.load "d" (some "0 1".toList) ['g'] [' '] 0 0 false))
    ((fresh : Api ℝ).exec exDoubleEnv (.load "d" (some "0 1".toList) ['g'] [' '] 0 0 false)).1
    (.info ⟨"d", 1, 2, false, false, "", 0⟩) rfl (Prod.ext rfl rfl)
  have h0 := Terminal.snoc (S := exRealScreen) (h := []) (.nil _) (by decide) h (by simp)
  simp only [List.nil_append] at h0
  generalize hT : Piece.texts exRealScreen _ = T0 at h0
  have hf : (⟨exRealCli, "load d g", T0⟩ : Entered ℝ).Fine := by
    rw [← hT]
    unfold Entered.Fine HasLine
    decide
  have hl : ServedBy exDoubleEnv "d" 2 [⟨exRealCli, "load d g", T0⟩] [[(0 : ℝ), 1]] :=
    .load (h₁ := []) (h₂ := []) (args := ["load", "d", "g"]) (startCol := 0) (tokens_words "load d g".toList) (.load0 "d" "g") exReal_file
      exDoubleR_sized (by decide +kernel) (by decide +kernel) hf (by simp)
  have hq : AsksServed exDoubleEnv [⟨exRealCli, "load d g", T0⟩] "d" 0 (-1) (-1) [(0 : ℝ), 1] :=
    ⟨2, _, 0, _, hl, rfl, rfl, .inl ⟨rfl, rfl, rfl⟩⟩
  have hS : Tidy exRealScreen := ⟨by simp [exRealScreen], by simp [exRealScreen]⟩
  obtain ⟨T, c, h⟩ := C112_ksimBF_answers rfl exDoubleEnv exRealScreen (.inl rfl) _ (refAlgos_lawful _) _ h0 "d" 2 _ hl "d" 0 (-1) (-1) [0, 1] hq
    (by simp) (by norm_num) exDoubleR_spaced 1 le_rfl "euclidean" exRealCli "ksimBF 1 d d 0" (by decide) ["ksimBF", "1", "d", "d", "0"]
    (tokens_words "ksimBF 1 d d 0".toList) (.ksimBF0 "1" "d" "d" "0" rfl rfl)
  refine ⟨_, T, c, h, ?_⟩
  obtain ⟨res, d, h1, h2, -⟩ := C112_ksimBF rfl exDoubleEnv exRealScreen (.inl rfl) _ (refAlgos_lawful _) hS _ _ h "d" 2 _ hl "d" 0 (-1) (-1) [0, 1] hq
    (by simp) (1 / 10 ^ 14) (by norm_num) (by norm_num) exDoubleR_spaced 1 le_rfl "euclidean" ["ksimBF", "1", "d", "d", "0"]
    (tokens_words "ksimBF 1 d d 0".toList) (.ksimBF0 "1" "d" "d" "0" rfl rfl)
  rw [h1, List.length_map, h2]
  simp [subCount]

end real

end Genex.Props
