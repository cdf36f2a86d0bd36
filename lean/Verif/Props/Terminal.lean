import Verif.Lemmas.Terminal
import Verif.Props.EndToEnd

/-!
# C111: from the lines typed to the text on the screen
-/

set_option linter.unusedSectionVars false

namespace Genex.Props

open Dbl Api Registry Spec Cli Manual

section

variable {K : Type} [Field K] [LinearOrder K] [IsStrictOrderedRing K] [HasSqrt K]

theorem terminal_kept {E : Env K} {S : Screen K} {c : Console K} {h : List (Entered K)} (ht : Terminal E S Console.fresh h c) : Inv c.api := by
  obtain ⟨H, hH, -⟩ := terminal_history ht
  exact inv_history inv_fresh hH

/-- `C111_sim` for any object with usable groups. -/
theorem sim_ready (E : Env K) (S : Screen K) (hS : Tidy S) (hP : S.progress = [] ∨ S.progress.getLast? = some '\n') (h : List (Entered K))
    (e : Entered K) (c : Console K) (ht : Terminal E S Console.fresh (h ++ [e]) c) (name : String) (rows : List (List K)) (m : Metric)
    (hm : m ≠ .sorensen ∧ m ≠ .cosine) (hs : m = .euclidean → LawfulSqrt K) (τ : K)
    (hg : ∀ b, Terminal E S Console.fresh h b → ∃ z, Registry.Holds b.api name z ∧ Ready (rows.map (·.map fin)) (metricName m) (fin τ) false z)
    (qname : String) (index a b : Int) (q : List K) (hq : Asks E h qname index a b q) (h2 : 2 ≤ q.length)
    (hrow : ∃ r ∈ rows, q.length ≤ r.length) (args : List String) (hty : e.Typed args)
    (hu : Usage e.env args (.call (.call (.bestMatch name qname index a b)))) :
    ∃ (i p ℓ : ℕ) (y : List K) (x : K) (d : ℕ), bestIn e.text = [((i : Int), (p : Int), (p : Int) + ℓ)] ∧
      afterWords "Distance = " e.text = [S.num d (fin x)] ∧ SubOf rows ℓ i p y ∧ Comparable cliBand q.length ℓ ∧
      Dtw m cliBand q y (fin x) ∧ d ∈ [4, 6, 16] ∧ ((∀ l ∈ h, ¬ Starts l.line "timer") → d = 4) ∧
      (0 ≤ τ → m = .euclidean ∨ m = .chebyshev → ∀ i' p' ℓ' y' x', 2 ≤ ℓ' → SubOf rows ℓ' i' p' y' → Comparable cliBand q.length ℓ' →
        Dtw m cliBand q y' (fin x') → x ≤ x' + (if m = .euclidean then τ / 4 else τ / 2)) := by
  obtain ⟨b', hb, he⟩ := terminal_split ht
  obtain ⟨hl, ps, o, hsay, ho, htx⟩ := terminal_one he
  obtain ⟨z, hz, R⟩ := hg _ hb
  have hI := terminal_kept hb
  have hQ := asks_query hP hb hq
  have hr := terminal_ratio hb
  have hr0 : 0 ≤ b'.api.ratio := by rw [hr]; norm_num [cliBand]
  have hp := usage_runs hty hu (usage_best hu)
  obtain ⟨r, hc⟩ := ready_returns E b'.api name rows m hm hs (fin τ) hI z hz R hr0 qname index a b q hQ h2 hrow
  have hsay' : Says E e.env b' e.line c ps (.reply (.ret (.ok (.cand r)))) := by
    obtain ⟨t1, t2⟩ := hsay
    have : o = .reply (.ret (.ok (.cand r))) := by
      unfold Turn at t1
      rw [hp] at t1
      obtain ⟨r', hr', rfl⟩ := t1
      have hr'' : b'.api.exec E (.bestMatch name qname index a b) = (c.api, r') := hr'
      rw [hc] at hr''
      exact congrArg Outcome.reply (congrArg Prod.snd hr'').symm
    rw [← this]
    exact ⟨t1, t2⟩
  obtain ⟨g1, g2⟩ := C110_sim E e.env S hS b' c e.line hl name qname index a b ps r hp hsay'
  obtain ⟨-, i, p, ℓ, y, x, ⟨n1, n2, n3⟩, hsub, hcom, hd, hx⟩ := ready_best E b'.api name rows m hm hs (fin τ) false hI z hz R hr0 qname index a b q hQ _ r hc
  rw [hr] at hcom hd
  refine ⟨i, p, ℓ, y, x, if b'.timer then 4 else b'.digits, ?_, ?_, hsub, hcom, hx ▸ hd, ?_, ?_, ?_⟩
  · rw [htx, g1, n1, n2, n3]
  · rw [htx, g2, hx]
  · split
    · decide
    · exact terminal_digits hb
  · intro hn
    rw [if_pos (terminal_timer hb hn)]
  · intro hτ hm' i' p' ℓ' y' x' hℓ hy' hcom' hx'
    have := ready_near E b'.api name rows m hm' hs τ hτ hI z hz R hr0 qname index a b q hQ _ r hc ℓ' i' p' y' hℓ hy' (by rw [hr]; exact hcom') x'
      (by rw [hr]; exact hx')
    rw [hx] at this
    exact fin_le_fin.1 this

/-- C111: after a file has been loaded and grouped at the terminal, the text that `sim` shows names one part of one line of the file, of a
comparable length, with the text of its DTW distance from the points asked for; no part of a line of the file of a comparable length is
nearer by more than a quarter (euclidean) or half (chebyshev) of the threshold typed.  Four digits are shown if `timer` was never typed. -/
theorem C111_sim (E : Env K) (S : Screen K) (hS : Tidy S) (hP : S.progress = [] ∨ S.progress.getLast? = some '\n') (h : List (Entered K))
    (e : Entered K) (c : Console K) (ht : Terminal E S Console.fresh (h ++ [e]) c) (name : String) (rows : List (List K)) (m : Metric)
    (hm : m ≠ .sorensen ∧ m ≠ .cosine) (hs : m = .euclidean → LawfulSqrt K) (τ : K) (hg : GroupedBy E h name rows (metricName m) (fin τ))
    (qname : String) (index a b : Int) (q : List K) (hq : Asks E h qname index a b q) (h2 : 2 ≤ q.length)
    (hrow : ∃ r ∈ rows, q.length ≤ r.length) (args : List String) (hty : e.Typed args)
    (hu : Usage e.env args (.call (.call (.bestMatch name qname index a b)))) :
    ∃ (i p ℓ : ℕ) (y : List K) (x : K) (d : ℕ), bestIn e.text = [((i : Int), (p : Int), (p : Int) + ℓ)] ∧
      afterWords "Distance = " e.text = [S.num d (fin x)] ∧ SubOf rows ℓ i p y ∧ Comparable cliBand q.length ℓ ∧
      Dtw m cliBand q y (fin x) ∧ d ∈ [4, 6, 16] ∧ ((∀ l ∈ h, ¬ Starts l.line "timer") → d = 4) ∧
      (0 ≤ τ → m = .euclidean ∨ m = .chebyshev → ∀ i' p' ℓ' y' x', 2 ≤ ℓ' → SubOf rows ℓ' i' p' y' → Comparable cliBand q.length ℓ' →
        Dtw m cliBand q y' (fin x') → x ≤ x' + (if m = .euclidean then τ / 4 else τ / 2)) :=
  sim_ready E S hS hP h e c ht name rows m hm hs τ (fun b hb => (groupedBy_grouped hP hb hg).ready) qname index a b q hq h2 hrow args hty hu

/-- `C111_sim_answers` for any object with usable groups. -/
theorem sim_ready_answers (E : Env K) (S : Screen K) (hP : S.progress = [] ∨ S.progress.getLast? = some '\n') (h : List (Entered K))
    (c : Console K) (ht : Terminal E S Console.fresh h c) (name : String) (rows : List (List K)) (m : Metric)
    (hm : m ≠ .sorensen ∧ m ≠ .cosine) (hs : m = .euclidean → LawfulSqrt K) (t : Dbl K)
    (hg : ∀ b, Terminal E S Console.fresh h b → ∃ z, Registry.Holds b.api name z ∧ Ready (rows.map (·.map fin)) (metricName m) t false z)
    (qname : String) (index a b : Int) (q : List K) (hq : Asks E h qname index a b q) (h2 : 2 ≤ q.length)
    (hrow : ∃ r ∈ rows, q.length ≤ r.length) (P : CliEnv K) (line : String) (hl : '\n' ∉ line.toList) (args : List String)
    (hw : Words line.toList (args.map String.toList)) (hu : Usage P args (.call (.call (.bestMatch name qname index a b)))) :
    ∃ T c', Terminal E S Console.fresh (h ++ [⟨P, line, T⟩]) c' := by
  obtain ⟨z, hz, R⟩ := hg _ ht
  have hI := terminal_kept ht
  have hQ := asks_query hP ht hq
  have hr0 : 0 ≤ c.api.ratio := by rw [terminal_ratio ht]; norm_num [cliBand]
  obtain ⟨r, hc⟩ := ready_returns E c.api name rows m hm hs t hI z hz R hr0 qname index a b q hQ h2 hrow
  have hp := usage_runs (e := ⟨P, line, []⟩) hw hu (usage_best hu)
  have := says_call E P c line (.call (.bestMatch name qname index a b)) c.api (.cand r) hp hc
  exact ⟨_, _, .snoc ht hl this (by simp)⟩

/-- C111: and it can be typed: the program answers. -/
theorem C111_sim_answers (E : Env K) (S : Screen K) (hP : S.progress = [] ∨ S.progress.getLast? = some '\n') (h : List (Entered K))
    (c : Console K) (ht : Terminal E S Console.fresh h c) (name : String) (rows : List (List K)) (m : Metric)
    (hm : m ≠ .sorensen ∧ m ≠ .cosine) (hs : m = .euclidean → LawfulSqrt K) (t : Dbl K) (hg : GroupedBy E h name rows (metricName m) t)
    (qname : String) (index a b : Int) (q : List K) (hq : Asks E h qname index a b q) (h2 : 2 ≤ q.length)
    (hrow : ∃ r ∈ rows, q.length ≤ r.length) (P : CliEnv K) (line : String) (hl : '\n' ∉ line.toList) (args : List String)
    (hw : Words line.toList (args.map String.toList)) (hu : Usage P args (.call (.call (.bestMatch name qname index a b)))) :
    ∃ T c', Terminal E S Console.fresh (h ++ [⟨P, line, T⟩]) c' :=
  sim_ready_answers E S hP h c ht name rows m hm hs t (fun b hb => (groupedBy_grouped hP hb hg).ready) qname index a b q hq h2 hrow P line hl args hw hu

/-- A match on the screen: the series, where the part starts, how many points it has, its distance. -/
def matchLine (S : Screen K) (d : ℕ) (r : ℕ × ℕ × ℕ × Dbl K) : Int × Int × Int × Text :=
  (r.1, r.2.1, (r.2.1 : Int) + r.2.2.1, S.num d r.2.2.2)

/-- `C111_ksim` for any object with usable groups. -/
theorem ksim_ready (E : Env K) (hA : E.A.Lawful Cand.lt) (hB : E.B.Lawful GIdx.lt) (S : Screen K) (hS : Tidy S)
    (hP : S.progress = [] ∨ S.progress.getLast? = some '\n') (h : List (Entered K))
    (e : Entered K) (c : Console K) (ht : Terminal E S Console.fresh (h ++ [e]) c) (name : String) (rows : List (List K)) (m : Metric)
    (hm : m ≠ .sorensen ∧ m ≠ .cosine) (hs : m = .euclidean → LawfulSqrt K) (t : Dbl K)
    (hg : ∀ b, Terminal E S Console.fresh h b → ∃ z, Registry.Holds b.api name z ∧ Ready (rows.map (·.map fin)) (metricName m) t false z)
    (qname : String) (index a b : Int) (q : List K) (hq : Asks E h qname index a b q) (h2 : 2 ≤ q.length)
    (hrow : ∃ r ∈ rows, q.length ≤ r.length) (hW : WellSpaced m cliBand rows q) (k ke : ℕ) (h1 : 1 ≤ ke) (hke : k ≤ ke)
    (kText iText : String) (range : Option (String × String)) (keText : Option String) (hk : e.env.stoi kText = .ok (k : Int))
    (hi : e.env.stoi iText = .ok index) (hrange : OptRange e.env range a b) (hke' : Opt e.env k keText ke)
    (hboth : range = none ∨ keText = none) (hty : e.Typed (ksimForm kText name qname iText range keText)) :
    ∃ (res : List (ℕ × ℕ × ℕ × Dbl K)) (d : ℕ),
      answersIn e.text = res.map (matchLine S d) ++
        List.replicate (k - partCount rows cliBand q.length) (0, 0, 0, S.num d (fin 0)) ∧
      res.length = min k (partCount rows cliBand q.length) ∧ (res.map fun r => (r.1, r.2.1, r.2.2.1)).Nodup ∧
      (∀ r ∈ res, ∃ y, SubOf rows r.2.2.1 r.1 r.2.1 y ∧ 2 ≤ r.2.2.1 ∧ Comparable cliBand q.length r.2.2.1 ∧ Dtw m cliBand q y r.2.2.2) ∧
      res.Pairwise (fun r r' => r.2.2.2 ≤ r'.2.2.2) ∧ d ∈ [4, 6, 16] ∧ ((∀ l ∈ h, ¬ Starts l.line "timer") → d = 4) ∧
      (partCount rows cliBand q.length ≤ ke → ∀ i p ℓ y x, SubOf rows ℓ i p y → 2 ≤ ℓ → Comparable cliBand q.length ℓ →
        Dtw m cliBand q y x → (i, p, ℓ) ∉ res.map (fun r => (r.1, r.2.1, r.2.2.1)) → ∀ r ∈ res, r.2.2.2 ≤ x) := by
  obtain ⟨b', hb, he⟩ := terminal_split ht
  obtain ⟨hl, ps, o, hsay, ho, htx⟩ := terminal_one he
  obtain ⟨z, hz, R⟩ := hg _ hb
  have hI := terminal_kept hb
  have hQ := asks_query hP hb hq
  have hr := terminal_ratio hb
  have hr0 : 0 ≤ b'.api.ratio := by rw [hr]; norm_num [cliBand]
  have hp := C55_partial e.env e.line kText name qname iText range keText hk hi hrange hke' hty hboth
  obtain ⟨res, hc, r1, r2, r3, r4, r5⟩ := ready_kbest E hA hB b'.api name rows m hm hs t hI z hz R hr0 qname index a b q hQ (by omega)
    (by obtain ⟨r, hr, hle⟩ := hrow; exact ⟨r, hr, hle, by omega⟩) k ke h1 hke (by rw [hr]; exact hW)
  rw [hr] at hc r1 r3 r5
  have hsay' : Says E e.env b' e.line c ps (.reply (.ret (.ok (.entries (res.map .cand ++
      List.replicate (k - partCount rows cliBand q.length) .pad))))) := by
    obtain ⟨t1, t2⟩ := hsay
    have : o = .reply (.ret (.ok (.entries (res.map .cand ++ List.replicate (k - partCount rows cliBand q.length) .pad)))) := by
      unfold Turn at t1
      rw [hp] at t1
      obtain ⟨r', hr', rfl⟩ := t1
      have hr'' : b'.api.exec E (.kBest k ke name qname index a b) = (c.api, r') := hr'
      rw [hc] at hr''
      exact congrArg Outcome.reply (congrArg Prod.snd hr'').symm
    rw [← this]
    exact ⟨t1, t2⟩
  have g := C110_ksim E e.env S hS b' c e.line hl k ke name qname index a b ps res _ hp hsay'
  set d := if b'.timer then 4 else b'.digits with hd
  let f : Cand K → ℕ × ℕ × ℕ × Dbl K := fun c =>
    (c.view.index.toNat, c.view.start.toNat, (c.view.stop - c.view.start).toNat, c.dist)
  have hf : ∀ c ∈ res, ∀ i p ℓ, Names c i p ℓ → f c = (i, p, ℓ, c.dist) := by
    rintro c - i p ℓ ⟨e1, e2, e3⟩
    simp only [f, e1, e2, e3]
    simp
  refine ⟨res.map f, d, ?_, ?_, ?_, ?_, ?_, ?_, ?_, ?_⟩
  · rw [htx, g, List.map_map]
    congr 1
    refine List.map_congr_left fun r hr => ?_
    obtain ⟨i, p, ℓ, y, hn, -⟩ := r3 r hr
    rw [Function.comp, hf r hr i p ℓ hn, matchLine, hn.1, hn.2.1, hn.2.2]
  · rw [List.length_map, r1]
  · rw [List.map_map, List.nodup_iff_pairwise_ne, List.pairwise_map]
    rw [List.nodup_iff_pairwise_ne, List.pairwise_map] at r2
    refine r2.imp_of_mem ?_
    intro x y hx hy hne heq
    obtain ⟨i, p, ℓ, _, hn, -⟩ := r3 x hx
    obtain ⟨i', p', ℓ', _, hn', -⟩ := r3 y hy
    simp only [Function.comp, hf x hx i p ℓ hn, hf y hy i' p' ℓ' hn', Prod.mk.injEq] at heq
    obtain ⟨rfl, rfl, rfl⟩ := heq
    refine hne ?_
    rw [hn.1, hn.2.1, hn.2.2, hn'.1, hn'.2.1, hn'.2.2]
  · intro r hr
    obtain ⟨x, hx, rfl⟩ := List.mem_map.1 hr
    obtain ⟨i, p, ℓ, y, hn, h3, h4, h5, h6⟩ := r3 x hx
    rw [hf x hx i p ℓ hn]
    exact ⟨y, h3, h4, h5, h6⟩
  · rw [List.pairwise_map]
    exact r4
  · rw [hd]
    split
    · decide
    · exact terminal_digits hb
  · intro hn
    rw [hd, if_pos (terminal_timer hb hn)]
  · intro hle i p ℓ y x hy hℓ hcom hx hn r hr
    obtain ⟨z, hz, rfl⟩ := List.mem_map.1 hr
    refine r5 hle i p ℓ y x hy hℓ hcom hx ?_ z hz
    intro w hw hnw
    refine hn ?_
    rw [List.map_map]
    exact List.mem_map.2 ⟨w, hw, by simp only [Function.comp, hf w hw i p ℓ hnw]⟩

/-- C111: `ksim` after that, in each of its forms but the one with a range and `ke`: the lines that begin with "Timeseries " are matches, as
many as asked for or as there are, none twice, nearest first, with their DTW distances; if there are not more candidates than `ke`, none
left out is nearer.  If there are fewer matches than asked for, lines with zeros follow. -/
theorem C111_ksim (E : Env K) (hA : E.A.Lawful Cand.lt) (hB : E.B.Lawful GIdx.lt) (S : Screen K) (hS : Tidy S)
    (hP : S.progress = [] ∨ S.progress.getLast? = some '\n') (h : List (Entered K))
    (e : Entered K) (c : Console K) (ht : Terminal E S Console.fresh (h ++ [e]) c) (name : String) (rows : List (List K)) (m : Metric)
    (hm : m ≠ .sorensen ∧ m ≠ .cosine) (hs : m = .euclidean → LawfulSqrt K) (t : Dbl K) (hg : GroupedBy E h name rows (metricName m) t)
    (qname : String) (index a b : Int) (q : List K) (hq : Asks E h qname index a b q) (h2 : 2 ≤ q.length)
    (hrow : ∃ r ∈ rows, q.length ≤ r.length) (hW : WellSpaced m cliBand rows q) (k ke : ℕ) (h1 : 1 ≤ ke) (hke : k ≤ ke)
    (kText iText : String) (range : Option (String × String)) (keText : Option String) (hk : e.env.stoi kText = .ok (k : Int))
    (hi : e.env.stoi iText = .ok index) (hrange : OptRange e.env range a b) (hke' : Opt e.env k keText ke)
    (hboth : range = none ∨ keText = none) (hty : e.Typed (ksimForm kText name qname iText range keText)) :
    ∃ (res : List (ℕ × ℕ × ℕ × Dbl K)) (d : ℕ),
      answersIn e.text = res.map (matchLine S d) ++
        List.replicate (k - partCount rows cliBand q.length) (0, 0, 0, S.num d (fin 0)) ∧
      res.length = min k (partCount rows cliBand q.length) ∧ (res.map fun r => (r.1, r.2.1, r.2.2.1)).Nodup ∧
      (∀ r ∈ res, ∃ y, SubOf rows r.2.2.1 r.1 r.2.1 y ∧ 2 ≤ r.2.2.1 ∧ Comparable cliBand q.length r.2.2.1 ∧ Dtw m cliBand q y r.2.2.2) ∧
      res.Pairwise (fun r r' => r.2.2.2 ≤ r'.2.2.2) ∧ d ∈ [4, 6, 16] ∧ ((∀ l ∈ h, ¬ Starts l.line "timer") → d = 4) ∧
      (partCount rows cliBand q.length ≤ ke → ∀ i p ℓ y x, SubOf rows ℓ i p y → 2 ≤ ℓ → Comparable cliBand q.length ℓ →
        Dtw m cliBand q y x → (i, p, ℓ) ∉ res.map (fun r => (r.1, r.2.1, r.2.2.1)) → ∀ r ∈ res, r.2.2.2 ≤ x) :=
  ksim_ready E hA hB S hS hP h e c ht name rows m hm hs t (fun b hb => (groupedBy_grouped hP hb hg).ready) qname index a b q hq h2 hrow hW k ke h1 hke
    kText iText range keText hk hi hrange hke' hboth hty

/-- `C111_ksim_answers` for any object with usable groups. -/
theorem ksim_ready_answers (E : Env K) (hA : E.A.Lawful Cand.lt) (hB : E.B.Lawful GIdx.lt) (S : Screen K)
    (hP : S.progress = [] ∨ S.progress.getLast? = some '\n') (h : List (Entered K)) (c : Console K)
    (ht : Terminal E S Console.fresh h c) (name : String) (rows : List (List K)) (m : Metric)
    (hm : m ≠ .sorensen ∧ m ≠ .cosine) (hs : m = .euclidean → LawfulSqrt K) (t : Dbl K)
    (hg : ∀ b, Terminal E S Console.fresh h b → ∃ z, Registry.Holds b.api name z ∧ Ready (rows.map (·.map fin)) (metricName m) t false z)
    (qname : String) (index a b : Int) (q : List K) (hq : Asks E h qname index a b q) (h2 : 2 ≤ q.length)
    (hrow : ∃ r ∈ rows, q.length ≤ r.length) (hW : WellSpaced m cliBand rows q) (k ke : ℕ) (h1 : 1 ≤ ke) (hke : k ≤ ke)
    (P : CliEnv K) (line kText iText : String) (range : Option (String × String)) (keText : Option String) (hk : P.stoi kText = .ok (k : Int))
    (hi : P.stoi iText = .ok index) (hrange : OptRange P range a b) (hke' : Opt P k keText ke)
    (hboth : range = none ∨ keText = none) (hl : '\n' ∉ line.toList)
    (hw : Words line.toList ((ksimForm kText name qname iText range keText).map String.toList)) :
    ∃ T c', Terminal E S Console.fresh (h ++ [⟨P, line, T⟩]) c' := by
  obtain ⟨z, hz, R⟩ := hg _ ht
  have hI := terminal_kept ht
  have hQ := asks_query hP ht hq
  have hr := terminal_ratio ht
  have hr0 : 0 ≤ c.api.ratio := by rw [hr]; norm_num [cliBand]
  have hp := C55_partial P line kText name qname iText range keText hk hi hrange hke' hw hboth
  obtain ⟨res, hc, -⟩ := ready_kbest E hA hB c.api name rows m hm hs t hI z hz R hr0 qname index a b q hQ (by omega)
    (by obtain ⟨r, hr, hle⟩ := hrow; exact ⟨r, hr, hle, by omega⟩) k ke h1 hke (by rw [hr]; exact hW)
  have := says_call E P c line (.call (.kBest k ke name qname index a b)) c.api _ hp hc
  exact ⟨_, _, .snoc ht hl this (by simp)⟩

/-- C111: and it can be typed: the program answers. -/
theorem C111_ksim_answers (E : Env K) (hA : E.A.Lawful Cand.lt) (hB : E.B.Lawful GIdx.lt) (S : Screen K)
    (hP : S.progress = [] ∨ S.progress.getLast? = some '\n') (h : List (Entered K)) (c : Console K)
    (ht : Terminal E S Console.fresh h c) (name : String) (rows : List (List K)) (m : Metric)
    (hm : m ≠ .sorensen ∧ m ≠ .cosine) (hs : m = .euclidean → LawfulSqrt K) (t : Dbl K) (hg : GroupedBy E h name rows (metricName m) t)
    (qname : String) (index a b : Int) (q : List K) (hq : Asks E h qname index a b q) (h2 : 2 ≤ q.length)
    (hrow : ∃ r ∈ rows, q.length ≤ r.length) (hW : WellSpaced m cliBand rows q) (k ke : ℕ) (h1 : 1 ≤ ke) (hke : k ≤ ke)
    (P : CliEnv K) (line kText iText : String) (range : Option (String × String)) (keText : Option String) (hk : P.stoi kText = .ok (k : Int))
    (hi : P.stoi iText = .ok index) (hrange : OptRange P range a b) (hke' : Opt P k keText ke)
    (hboth : range = none ∨ keText = none) (hl : '\n' ∉ line.toList)
    (hw : Words line.toList ((ksimForm kText name qname iText range keText).map String.toList)) :
    ∃ T c', Terminal E S Console.fresh (h ++ [⟨P, line, T⟩]) c' :=
  ksim_ready_answers E hA hB S hP h c ht name rows m hm hs t (fun b hb => (groupedBy_grouped hP hb hg).ready) qname index a b q hq h2 hrow hW k ke h1 hke
    P line kText iText range keText hk hi hrange hke' hboth hl hw

/-- C111: `ksimBF` in a dataset that has been loaded: the lines are the matches nearest to the points asked for among all parts of lines of
the file. -/
theorem C111_ksimBF [LawfulSqrt K] (E : Env K) (hA : E.A.Lawful Cand.lt) (S : Screen K) (hS : Tidy S)
    (hP : S.progress = [] ∨ S.progress.getLast? = some '\n') (h : List (Entered K))
    (e : Entered K) (c : Console K) (ht : Terminal E S Console.fresh (h ++ [e]) c) (name : String) (rows : List (List K))
    (hg : LoadedBy E name h rows) (qname : String) (index a b : Int) (q : List K) (hq : Asks E h qname index a b q) (h1 : 1 ≤ q.length)
    (hW : WellSpaced .euclidean cliBand rows q) (k : ℕ) (hk : 1 ≤ k) (dist : String) (args : List String) (hty : e.Typed args)
    (hu : Usage e.env args (.call (.call (.bruteForce k name qname index a b dist)))) :
    ∃ (res : List (ℕ × ℕ × ℕ × Dbl K)) (d : ℕ),
      answersIn e.text = res.map (matchLine S d) ∧
      res.length = min k (subCount rows) ∧ (res.map fun r => (r.1, r.2.1, r.2.2.1)).Nodup ∧
      (∀ r ∈ res, ∃ y, SubOf rows r.2.2.1 r.1 r.2.1 y ∧ 2 ≤ r.2.2.1 ∧ Dtw .euclidean cliBand q y r.2.2.2) ∧
      res.Pairwise (fun r r' => r.2.2.2 ≤ r'.2.2.2) ∧ d ∈ [4, 6, 16] ∧ ((∀ l ∈ h, ¬ Starts l.line "timer") → d = 4) ∧
      (∀ i p ℓ y x, SubOf rows ℓ i p y → 2 ≤ ℓ → Dtw .euclidean cliBand q y x → (i, p, ℓ) ∉ res.map (fun r => (r.1, r.2.1, r.2.2.1)) →
        ∀ r ∈ res, r.2.2.2 ≤ x) := by
  obtain ⟨b', hb, he⟩ := terminal_split ht
  obtain ⟨hl, ps, o, hsay, ho, htx⟩ := terminal_one he
  have hG := loadedBy_loaded hP hb hg
  have hQ := asks_query hP hb hq
  have hr := terminal_ratio hb
  have hr0 : 0 ≤ b'.api.ratio := by rw [hr]; norm_num [cliBand]
  have hp := usage_runs hty hu (usage_brute hu).1
  have hdist := (usage_brute hu).2
  subst hdist
  obtain ⟨res, hc, r1, r2, r3, r4, r5⟩ := C70_exhaustive E hA b'.api name rows .euclidean (by decide) (fun _ => inferInstance) hG hr0 qname index a b q hQ h1
    k hk (by rw [hr]; exact hW)
  rw [hr] at r3 r5
  have hsay' : Says E e.env b' e.line c ps (.reply (.ret (.ok (.cands res)))) := by
    obtain ⟨t1, t2⟩ := hsay
    have : o = .reply (.ret (.ok (.cands res))) := by
      unfold Turn at t1
      rw [hp] at t1
      obtain ⟨r', hr', rfl⟩ := t1
      have hr'' : b'.api.exec E (.bruteForce k name qname index a b "euclidean") = (c.api, r') := hr'
      have hc' : b'.api.exec E (.bruteForce k name qname index a b "euclidean") = (b'.api, .ret (.ok (.cands res))) := hc
      rw [hc'] at hr''
      exact congrArg Outcome.reply (congrArg Prod.snd hr'').symm
    rw [← this]
    exact ⟨t1, t2⟩
  have g := C110_ksimBF E e.env S hS b' c e.line hl k name qname index a b "euclidean" ps res hp hsay'
  set d := if b'.timer then 4 else b'.digits with hd
  let f : Cand K → ℕ × ℕ × ℕ × Dbl K := fun c =>
    (c.view.index.toNat, c.view.start.toNat, (c.view.stop - c.view.start).toNat, c.dist)
  have hf : ∀ c ∈ res, ∀ i p ℓ, Names c i p ℓ → f c = (i, p, ℓ, c.dist) := by
    rintro c - i p ℓ ⟨e1, e2, e3⟩
    simp only [f, e1, e2, e3]
    simp
  refine ⟨res.map f, d, ?_, ?_, ?_, ?_, ?_, ?_, ?_, ?_⟩
  · rw [htx, g, List.map_map]
    refine List.map_congr_left fun r hr => ?_
    obtain ⟨i, p, ℓ, y, -, hn, -⟩ := r3 r hr
    rw [Function.comp, hf r hr i p _ hn, matchLine, hn.1, hn.2.1, hn.2.2]
  · rw [List.length_map, r1]
  · rw [List.map_map, List.nodup_iff_pairwise_ne, List.pairwise_map]
    rw [List.nodup_iff_pairwise_ne, List.pairwise_map] at r2
    refine r2.imp_of_mem ?_
    intro x y hx hy hne heq
    obtain ⟨i, p, ℓ, _, -, hn, -⟩ := r3 x hx
    obtain ⟨i', p', ℓ', _, -, hn', -⟩ := r3 y hy
    simp only [Function.comp, hf x hx i p _ hn, hf y hy i' p' _ hn', Prod.mk.injEq] at heq
    obtain ⟨rfl, rfl, h3⟩ := heq
    refine hne ?_
    rw [hn.1, hn.2.1, hn.2.2, hn'.1, hn'.2.1, hn'.2.2, h3]
  · intro r hr
    obtain ⟨x, hx, rfl⟩ := List.mem_map.1 hr
    obtain ⟨i, p, e', y, ⟨row, h3, h4, h5, h6⟩, hn, h7⟩ := r3 x hx
    rw [hf x hx i p _ hn]
    exact ⟨y, ⟨row, h3, by dsimp only; omega, h6⟩, by dsimp only; omega, h7⟩
  · rw [List.pairwise_map]
    exact r4
  · rw [hd]
    split
    · decide
    · exact terminal_digits hb
  · intro hn
    rw [hd, if_pos (terminal_timer hb hn)]
  · rintro i p ℓ y x ⟨row, hy1, hy2, hy3⟩ hℓ hx hn r hr
    obtain ⟨z, hz, rfl⟩ := List.mem_map.1 hr
    refine r5 i p (p + ℓ) y x ⟨row, hy1, by omega, hy2, by rw [Nat.add_sub_cancel_left]; exact hy3⟩ hx ?_ z hz
    intro w hw hnw
    refine hn ?_
    rw [Nat.add_sub_cancel_left] at hnw
    rw [List.map_map]
    exact List.mem_map.2 ⟨w, hw, by simp only [Function.comp, hf w hw i p ℓ hnw]⟩

/-- C111: and it can be typed: the program answers. -/
theorem C111_ksimBF_answers [LawfulSqrt K] (E : Env K) (hA : E.A.Lawful Cand.lt) (S : Screen K)
    (hP : S.progress = [] ∨ S.progress.getLast? = some '\n') (h : List (Entered K)) (c : Console K)
    (ht : Terminal E S Console.fresh h c) (name : String) (rows : List (List K))
    (hg : LoadedBy E name h rows) (qname : String) (index a b : Int) (q : List K) (hq : Asks E h qname index a b q) (h1 : 1 ≤ q.length)
    (hW : WellSpaced .euclidean cliBand rows q) (k : ℕ) (hk : 1 ≤ k) (dist : String) (P : CliEnv K) (line : String) (hl : '\n' ∉ line.toList)
    (args : List String) (hw : Words line.toList (args.map String.toList))
    (hu : Usage P args (.call (.call (.bruteForce k name qname index a b dist)))) :
    ∃ T c', Terminal E S Console.fresh (h ++ [⟨P, line, T⟩]) c' := by
  have hG := loadedBy_loaded hP ht hg
  have hQ := asks_query hP ht hq
  have hr := terminal_ratio ht
  have hr0 : 0 ≤ c.api.ratio := by rw [hr]; norm_num [cliBand]
  have hp := usage_runs (e := ⟨P, line, []⟩) hw hu (usage_brute hu).1
  have hdist := (usage_brute hu).2
  subst hdist
  obtain ⟨res, hc, -⟩ := C70_exhaustive E hA c.api name rows .euclidean (by decide) (fun _ => inferInstance) hG hr0 qname index a b q hQ h1
    k hk (by rw [hr]; exact hW)
  have := says_call E P c line (.call (.bruteForce k name qname index a b "euclidean")) c.api _ hp hc
  exact ⟨_, _, .snoc ht hl this (by simp)⟩

/-- C111: `normalize` of a dataset with some number can be typed: the program answers without an error, and from then on the numbers are
those of the file scaled to `[0, 1]`. -/
theorem C111_normalize (E : Env K) (S : Screen K) (hP : S.progress = [] ∨ S.progress.getLast? = some '\n') (h : List (Entered K))
    (c : Console K) (ht : Terminal E S Console.fresh h c) (name : String) (raw : List (List K)) (hl : LoadedBy E name h raw)
    (hne : ∃ r ∈ raw, r ≠ []) (P : CliEnv K) (line : String) (hline : '\n' ∉ line.toList)
    (hw : Words line.toList (["normalize", name].map String.toList)) :
    ∃ T c' rows, Terminal E S Console.fresh (h ++ [⟨P, line, T⟩]) c' ∧ (⟨P, line, T⟩ : Entered K).Fine ∧ Scales raw rows ∧
      LoadedBy E name (h ++ [⟨P, line, T⟩]) rows := by
  have hL := loadedBy_loaded hP ht hl
  obtain ⟨g, hg, H, -⟩ := hL.data
  obtain ⟨ds', lo, hi, e, hlo, hhi, H', -⟩ := C23_normalize g.ds raw H hne
  obtain ⟨id, k1, k2⟩ := hL.inv.holds.1 hg
  have hex : c.api.exec E (.normalize name) = (c.api.store id { g with ds := ds' }, .ret (.ok (.pair (fin lo, fin hi)))) := by
    simp only [exec]
    rw [withSet_some k1 k2]
    simp only [Arith.normalize, e]
  have hp := usage_runs (e := ⟨P, line, []⟩) hw (.normalize name) (by simp)
  have hsay := says_call E P c line (.call (.normalize name)) _ _ hp hex
  have hT : Terminal E S Console.fresh (h ++ [⟨P, line, _⟩]) _ := .snoc ht hline hsay (by simp)
  have hfine := normalize_fine (S := S) (c := c) (P := P) hline hw (x := (fin lo, fin hi))
  exact ⟨_, _, _, hT, hfine, ⟨lo, hi, hlo, hhi, rfl⟩, .normalize (h₂ := []) hl hw ⟨lo, hi, hlo, hhi, rfl⟩ hfine (by simp)⟩

/-- C111: `print` after that shows the numbers asked for, each with a space after it. -/
theorem C111_print (E : Env K) (S : Screen K) (hP : S.progress = [] ∨ S.progress.getLast? = some '\n') (h : List (Entered K))
    (e : Entered K) (c : Console K) (ht : Terminal E S Console.fresh (h ++ [e]) c) (name : String) (index a b : Int) (q : List K)
    (hq : Asks E h name index a b q) (args : List String) (hty : e.Typed args)
    (hu : Usage e.env args (.call (.call (.series name index a b)))) :
    e.text = (q.map fun x => S.num 16 (fin x) ++ [' ']).flatten ++ ['\n'] := by
  obtain ⟨b', hb, he⟩ := terminal_split ht
  obtain ⟨hl, ps, o, hsay, ho, htx⟩ := terminal_one he
  obtain ⟨s', hQ⟩ := asks_query hP hb hq
  have hp := usage_runs hty hu (usage_series hu)
  obtain ⟨t1, t2⟩ := hsay
  have : o = .reply (.ret (.ok (.series (q.map .fin)))) := by
    unfold Turn at t1
    rw [hp] at t1
    obtain ⟨r', hr', rfl⟩ := t1
    have hr'' : b'.api.exec E (.series name index a b) = (c.api, r') := hr'
    rw [hQ] at hr''
    exact congrArg Outcome.reply (congrArg Prod.snd hr'').symm
  subst this
  unfold output at t2
  rw [hp] at t2
  simp only [Option.some.injEq, Prod.mk.injEq, before, List.nil_append] at t2
  rw [htx, ← t2.1, texts_app]
  unfold report pointPieces
  rw [texts_flat]
  simp [Piece.texts, Piece.text, Function.comp_def]

/-- C111: and it can be typed. -/
theorem C111_print_answers (E : Env K) (S : Screen K) (hP : S.progress = [] ∨ S.progress.getLast? = some '\n') (h : List (Entered K))
    (c : Console K) (ht : Terminal E S Console.fresh h c) (name : String) (index a b : Int) (q : List K)
    (hq : Asks E h name index a b q) (P : CliEnv K) (line : String) (hl : '\n' ∉ line.toList) (args : List String)
    (hw : Words line.toList (args.map String.toList)) (hu : Usage P args (.call (.call (.series name index a b)))) :
    ∃ T c', Terminal E S Console.fresh (h ++ [⟨P, line, T⟩]) c' := by
  obtain ⟨s', hQ⟩ := asks_query hP ht hq
  have hp := usage_runs (e := ⟨P, line, []⟩) hw hu (usage_series hu)
  have := says_call E P c line (.call (.series name index a b)) s' _ hp hQ
  exact ⟨_, _, .snoc ht hl this (by simp)⟩

end

/-! ## A session -/

def exLoadCall : AnyCall ℚ := .call (.load "d" (some "1 1 1\n1 1 2".toList) ['g'] [' '] 0 0 false)

def exLoadPieces : List (Piece ℚ) :=
  before exLoadCall ++ (report true 6 (splitLine "load d g") exLoadCall (.info ⟨"d", 2, 3, false, false, "", 0⟩)).1 ++ [.endl]

/-- `load d g` and what is shown. -/
def exEnterLoad : Entered ℚ := ⟨exShow, "load d g", Piece.texts exScreen exLoadPieces⟩

theorem exEnterLoad_says : Terminal exEnv exScreen Console.fresh [exEnterLoad] ⟨exLoaded, true, 6⟩ := by
  have h := says_call exEnv exShow Console.fresh "load d g" exLoadCall exLoaded (.info ⟨"d", 2, 3, false, false, "", 0⟩) rfl (by
    rw [← infoOf_some (r := ((fresh : Api ℚ).exec exEnv (.load "d" (some "1 1 1\n1 1 2".toList) ['g'] [' '] 0 0 false)).2) (by decide +kernel)]
    rfl)
  exact .snoc (h := []) (.nil _) (by decide) h (by simp)

/-- The dataset is grouped. -/
def exTermGrouped : Api ℚ × Reply ℚ :=
  match exLoaded.deref 0 with
  | none => (exLoaded, .dangling)
  | some g =>
    let out := g.groupAllLengths (GSpace.group g.ds exLoaded.ratio (fun _ => false) "chebyshev" (fin 1) false)
      (fun gs => (gs, .ok 0)) 1
    (exLoaded.store 0 out.1, .ret (out.2.map .int))

theorem exTermGrouped_step : Api.Step exEnv exLoaded (.group "d" (fin 1) "chebyshev" 1 false) exTermGrouped.1 exTermGrouped.2 := by
  have hf : mapFind exLoaded.datasets "d" = some 0 := by decide +kernel
  obtain ⟨g, hg⟩ : ∃ g, exLoaded.deref 0 = some g := Option.isSome_iff_exists.1 (by decide +kernel)
  unfold Api.Step GroupCall exTermGrouped
  simp only [hf, hg]
  exact ⟨fun _ => false, _, ⟨_, fun h => by omega, rfl⟩, rfl, rfl⟩

def exGroupCall : AnyCall ℚ := .group "d" (fin 1) "chebyshev" 1 false

def exGroupPieces : List (Piece ℚ) :=
  before exGroupCall ++ (report true 6 (splitLine "group d 1 chebyshev") exGroupCall (.int 4)).1 ++ [.endl]

/-- `group d 1 chebyshev` and what is shown. -/
def exEnterGroup : Entered ℚ := ⟨exShow, "group d 1 chebyshev", Piece.texts exScreen exGroupPieces⟩

theorem exEnterGroup_says : Terminal exEnv exScreen Console.fresh [exEnterLoad, exEnterGroup] ⟨exTermGrouped.1, true, 4⟩ := by
  have h := says_call exEnv exShow ⟨exLoaded, true, 6⟩ "group d 1 chebyshev" exGroupCall exTermGrouped.1 (.int 4) rfl (by
    rw [← intOf_some (r := exTermGrouped.2) (by decide +kernel)]
    exact exTermGrouped_step)
  exact .snoc (h := [exEnterLoad]) exEnterLoad_says (by decide) h (by simp)

def exTermRows : List (List ℚ) := [[1, 1, 1], [1, 1, 2]]

theorem exTerm_file : FileHas exEnv.parse "1 1 1\n1 1 2".toList [' '] 0 0 false exTermRows :=
  ⟨by decide, by decide +kernel, by decide +kernel⟩

theorem exTerm_fine : exEnterLoad.Fine ∧ exEnterGroup.Fine := by
  unfold Entered.Fine HasLine
  decide +kernel

theorem exTerm_loaded (h : List (Entered ℚ)) (hh : ∀ x ∈ h, ¬ x.Touches ["load", "unload", "normalize"] "d") :
    LoadedBy exEnv "d" (exEnterLoad :: h) exTermRows :=
  .load (h₁ := []) (args := ["load", "d", "g"]) (startCol := 0) (tokens_words "load d g".toList) (.load0 "d" "g") exTerm_file exTerm_fine.1 hh

theorem exTerm_grouped : GroupedBy exEnv [exEnterLoad, exEnterGroup] "d" exTermRows (metricName .chebyshev) (fin 1) :=
  ⟨[exEnterLoad], [], exEnterGroup, ["group", "d", "1", "chebyshev"], 1, rfl, exTerm_loaded [] (by simp),
    tokens_words "group d 1 chebyshev".toList, .group1 "d" "1" "chebyshev" rfl, exTerm_fine.2, by simp⟩

theorem exTerm_untouched : ¬ exEnterGroup.Touches ["load", "unload", "normalize"] "d" := by
  rintro ⟨cmd, hc, ws, hw⟩
  have : (Cli.tokens exEnterGroup.line.toList []).head? = some cmd.toList := by rw [words_unique hw]; rfl
  simp only [List.mem_cons, List.not_mem_nil, or_false] at hc
  rcases hc with rfl | rfl | rfl <;> exact absurd this (by decide)

/-- The last two points of the second line. -/
theorem exTerm_asks : Asks exEnv [exEnterLoad, exEnterGroup] "d" 1 1 3 [1, 2] :=
  ⟨exTermRows, 1, [1, 1, 2], exTerm_loaded _ (by simpa using exTerm_untouched), rfl, rfl, .inr ⟨1, 3, rfl, rfl, by decide, by decide, rfl⟩⟩

example := C111_sim_answers exEnv exScreen (.inl rfl) _ _ exEnterGroup_says "d" exTermRows .chebyshev (by decide) (by simp) (fin 1)
  exTerm_grouped "d" 1 1 3 [1, 2] exTerm_asks (by decide) ⟨[1, 1, 1], by simp [exTermRows], by decide⟩ exShow "sim d d 1 1 3" (by decide)
  ["sim", "d", "d", "1", "1", "3"] (tokens_words "sim d d 1 1 3".toList) (.sim1 "d" "d" "1" "1" "3" rfl rfl rfl)

def exSimCall : AnyCall ℚ := .call (.bestMatch "d" "d" 1 1 3)

def exSimPieces : List (Piece ℚ) :=
  before exSimCall ++ (report true 4 (splitLine "sim d d 1 1 3") exSimCall (.cand ⟨⟨3, 1, 1, 3⟩, fin 0⟩)).1 ++ [.endl]

/-- `sim d d 1 1 3` and what is shown. -/
def exEnterSim : Entered ℚ := ⟨exShow, "sim d d 1 1 3", Piece.texts exScreen exSimPieces⟩

theorem exEnterSim_says : Terminal exEnv exScreen Console.fresh ([exEnterLoad, exEnterGroup] ++ [exEnterSim]) ⟨exTermGrouped.1, true, 4⟩ := by
  have h := says_call exEnv exShow ⟨exTermGrouped.1, true, 4⟩ "sim d d 1 1 3" exSimCall exTermGrouped.1 (.cand ⟨⟨3, 1, 1, 3⟩, fin 0⟩) rfl (by
    show exTermGrouped.1.exec exEnv _ = _
    rw [← candOf_some (r := (exTermGrouped.1.exec exEnv (.bestMatch "d" "d" 1 1 3)).2) (by decide +kernel)]
    rfl)
  exact .snoc exEnterGroup_says (by decide) h (by simp)

example := C111_sim exEnv exScreen exScreen_tidy (.inl rfl) _ _ _ exEnterSim_says "d" exTermRows .chebyshev (by decide) (by simp) 1
  exTerm_grouped "d" 1 1 3 [1, 2] exTerm_asks (by decide) ⟨[1, 1, 1], by simp [exTermRows], by decide⟩
  ["sim", "d", "d", "1", "1", "3"] (tokens_words "sim d d 1 1 3".toList) (.sim1 "d" "d" "1" "1" "3" rfl rfl rfl)
example : bestIn exEnterSim.text = [(1, 1, 3)] ∧ afterWords "Distance = " exEnterSim.text = ["0/1".toList] := by decide +kernel

theorem exTerm_spaced : WellSpaced (K := ℚ) .chebyshev cliBand exTermRows [1, 2] :=
  wellSpaced_of_dists [fin 1, fin 1, inf, fin 1, fin 0, inf] (by simp) (by decide +kernel) (by simp) (by decide +kernel) (by decide +kernel)

/-- `ksim 2 d d 1 1 3`: the answers, and that there are two. -/
example : ∃ (T : Text) (c : Console ℚ), Terminal exEnv exScreen Console.fresh ([exEnterLoad, exEnterGroup] ++ [⟨exShow, "ksim 2 d d 1 1 3", T⟩]) c ∧
    (answersIn T).length = 2 := by
  obtain ⟨T, c, h⟩ := C111_ksim_answers exEnv (refAlgos_lawful _) (refAlgos_lawful _) exScreen (.inl rfl) _ _ exEnterGroup_says "d" exTermRows .chebyshev
    (by decide) (by simp) (fin 1) exTerm_grouped "d" 1 1 3 [1, 2] exTerm_asks (by decide) ⟨[1, 1, 1], by simp [exTermRows], by decide⟩
    exTerm_spaced 2 2 (by decide) (by decide) exShow "ksim 2 d d 1 1 3" "2" "1" (some ("1", "3")) none rfl rfl ⟨rfl, rfl⟩ rfl (.inr rfl)
    (by decide) (tokens_words "ksim 2 d d 1 1 3".toList)
  refine ⟨T, c, h, ?_⟩
  obtain ⟨res, d, h1, h2, -⟩ := C111_ksim exEnv (refAlgos_lawful _) (refAlgos_lawful _) exScreen exScreen_tidy (.inl rfl) _ _ _ h "d" exTermRows .chebyshev
    (by decide) (by simp) (fin 1) exTerm_grouped "d" 1 1 3 [1, 2] exTerm_asks (by decide) ⟨[1, 1, 1], by simp [exTermRows], by decide⟩
    exTerm_spaced 2 2 (by decide) (by decide) "2" "1" (some ("1", "3")) none rfl rfl ⟨rfl, rfl⟩ rfl (.inr rfl)
    (tokens_words "ksim 2 d d 1 1 3".toList)
  have e : partCount exTermRows cliBand 2 = 4 := by decide +kernel
  rw [show [(1 : ℚ), 2].length = 2 from rfl, e] at h1 h2
  rw [h1]
  simp [h2]

/-! ## A session with `normalize` -/

def exTermUnit : Api ℚ := (exLoaded.exec exEnv (.normalize "d")).1

def exNormCall : AnyCall ℚ := .call (.normalize "d")

def exNormPieces : List (Piece ℚ) :=
  before exNormCall ++ (report true 6 (splitLine "normalize d") exNormCall (.pair (fin 1, fin 2))).1 ++ [.endl]

/-- `normalize d` and what is shown. -/
def exEnterNorm : Entered ℚ := ⟨exShow, "normalize d", Piece.texts exScreen exNormPieces⟩

def pairOf : Reply ℚ → Option (Dbl ℚ × Dbl ℚ)
  | .ret (.ok (.pair x)) => some x
  | _ => none

theorem pairOf_some {r : Reply ℚ} {x : Dbl ℚ × Dbl ℚ} (h : pairOf r = some x) : r = .ret (.ok (.pair x)) := by
  unfold pairOf at h
  split at h
  · cases h; rfl
  · cases h

theorem exEnterNorm_says : Terminal exEnv exScreen Console.fresh [exEnterLoad, exEnterNorm] ⟨exTermUnit, true, 6⟩ := by
  have h := says_call exEnv exShow ⟨exLoaded, true, 6⟩ "normalize d" exNormCall exTermUnit (.pair (fin 1, fin 2)) rfl (by
    rw [← pairOf_some (r := (exLoaded.exec exEnv (.normalize "d")).2) (by decide +kernel)]
    rfl)
  exact .snoc (h := [exEnterLoad]) exEnterLoad_says (by decide) h (by simp)

def exTermUnitGrouped : Api ℚ × Reply ℚ :=
  match exTermUnit.deref 0 with
  | none => (exTermUnit, .dangling)
  | some g =>
    let out := g.groupAllLengths (GSpace.group g.ds exTermUnit.ratio (fun _ => false) "chebyshev" (fin 1) false)
      (fun gs => (gs, .ok 0)) 1
    (exTermUnit.store 0 out.1, .ret (out.2.map .int))

theorem exTermUnitGrouped_step :
    Api.Step exEnv exTermUnit (.group "d" (fin 1) "chebyshev" 1 false) exTermUnitGrouped.1 exTermUnitGrouped.2 := by
  have hf : mapFind exTermUnit.datasets "d" = some 0 := by decide +kernel
  obtain ⟨g, hg⟩ : ∃ g, exTermUnit.deref 0 = some g := Option.isSome_iff_exists.1 (by decide +kernel)
  unfold Api.Step GroupCall exTermUnitGrouped
  simp only [hf, hg]
  exact ⟨fun _ => false, _, ⟨_, fun h => by omega, rfl⟩, rfl, rfl⟩

theorem exEnterUnitGroup_says :
    Terminal exEnv exScreen Console.fresh [exEnterLoad, exEnterNorm, exEnterGroup] ⟨exTermUnitGrouped.1, true, 4⟩ := by
  have h := says_call exEnv exShow ⟨exTermUnit, true, 6⟩ "group d 1 chebyshev" exGroupCall exTermUnitGrouped.1 (.int 4) rfl (by
    rw [← intOf_some (r := exTermUnitGrouped.2) (by decide +kernel)]
    exact exTermUnitGrouped_step)
  exact .snoc (h := [exEnterLoad, exEnterNorm]) exEnterNorm_says (by decide) h (by simp)

def exTermUnitRows : List (List ℚ) := [[0, 0, 0], [0, 0, 1]]

theorem exTermUnit_scales : Scales exTermRows exTermUnitRows := by
  refine ⟨1, 2, ⟨⟨[1, 1, 1], by decide, by decide⟩, ?_⟩, ⟨⟨[1, 1, 2], by decide, by decide⟩, ?_⟩, by decide +kernel⟩
  · rintro x ⟨r, hr, hx⟩
    revert x
    revert r
    decide +kernel
  · rintro x ⟨r, hr, hx⟩
    revert x
    revert r
    decide +kernel

theorem exTermUnit_fine : exEnterNorm.Fine ∧ exEnterGroup.Fine := by
  unfold Entered.Fine HasLine
  decide +kernel

theorem exTermUnit_loaded (h : List (Entered ℚ)) (hh : ∀ x ∈ h, ¬ x.Touches ["load", "unload", "normalize"] "d") :
    LoadedBy exEnv "d" (exEnterLoad :: exEnterNorm :: h) exTermUnitRows :=
  .normalize (h₁ := [exEnterLoad]) (exTerm_loaded [] (by simp)) (tokens_words "normalize d".toList) exTermUnit_scales exTermUnit_fine.1 hh

theorem exTermUnit_grouped : GroupedBy exEnv [exEnterLoad, exEnterNorm, exEnterGroup] "d" exTermUnitRows (metricName .chebyshev) (fin 1) :=
  ⟨[exEnterLoad, exEnterNorm], [], exEnterGroup, ["group", "d", "1", "chebyshev"], 1, rfl, exTermUnit_loaded [] (by simp),
    tokens_words "group d 1 chebyshev".toList, .group1 "d" "1" "chebyshev" rfl, exTermUnit_fine.2, by simp⟩

theorem exTermUnit_asks : Asks exEnv [exEnterLoad, exEnterNorm, exEnterGroup] "d" 1 1 3 [0, 1] :=
  ⟨exTermUnitRows, 1, [0, 0, 1], exTermUnit_loaded _ (by simpa using exTerm_untouched), rfl, rfl,
    .inr ⟨1, 3, rfl, rfl, by decide, by decide, rfl⟩⟩

example := C111_sim_answers exEnv exScreen (.inl rfl) _ _ exEnterUnitGroup_says "d" exTermUnitRows .chebyshev (by decide) (by simp) (fin 1)
  exTermUnit_grouped "d" 1 1 3 [0, 1] exTermUnit_asks (by decide) ⟨[0, 0, 0], by simp [exTermUnitRows], by decide⟩ exShow "sim d d 1 1 3"
  (by decide) ["sim", "d", "d", "1", "1", "3"] (tokens_words "sim d d 1 1 3".toList) (.sim1 "d" "d" "1" "1" "3" rfl rfl rfl)

example := C111_normalize exEnv exScreen (.inl rfl) _ _ exEnterLoad_says "d" exTermRows (exTerm_loaded [] (by simp))
  ⟨[1, 1, 1], by decide, by simp⟩ exShow "normalize d" (by decide) (tokens_words "normalize d".toList)

/-- `print d 1 1 3` shows two numbers. -/
example : ∃ (T : Text) (c : Console ℚ), Terminal exEnv exScreen Console.fresh ([exEnterLoad, exEnterNorm, exEnterGroup] ++
    [⟨exShow, "print d 1 1 3", T⟩]) c ∧ T = "0/1 1/1 \n".toList := by
  obtain ⟨T, c, h⟩ := C111_print_answers exEnv exScreen (.inl rfl) _ _ exEnterUnitGroup_says "d" 1 1 3 [0, 1] exTermUnit_asks exShow
    "print d 1 1 3" (by decide) ["print", "d", "1", "1", "3"] (tokens_words "print d 1 1 3".toList) (.print "d" "1" "1" "3" rfl rfl rfl)
  refine ⟨T, c, h, ?_⟩
  have := C111_print exEnv exScreen (.inl rfl) _ _ _ h "d" 1 1 3 [0, 1] exTermUnit_asks ["print", "d", "1", "1", "3"]
    (tokens_words "print d 1 1 3".toList) (.print "d" "1" "1" "3" rfl rfl rfl)
  dsimp only at this
  rw [this]
  decide +kernel

/-! ## Real numbers -/

/-- The file has the line `0 1`. -/
noncomputable def exRealCli : CliEnv ℝ := ⟨exStoi, fun _ => .error (.std "invalid_argument"), fun _ => some "0 1".toList,
  fun _ => none, fun _ => none, fun _ => true, 1⟩

noncomputable def exRealEnv : Env ℝ :=
  ⟨fun t => if t = ['0'] then .val (fin 0) else .val (fin 1), fun _ => [], refAlgos Cand.lt, refAlgos GIdx.lt, none, ⟨.num "x", .num "x"⟩⟩

noncomputable def exRealScreen : Screen ℝ := ⟨fun _ _ => ['x'], [], [], fun _ => [], fun _ => []⟩

theorem exReal_file : FileHas exRealEnv.parse "0 1".toList [' '] 0 0 false [[0, 1]] :=
  ⟨by simp, by decide, rfl⟩

theorem exReal_says : ∃ T c, Terminal exRealEnv exRealScreen Console.fresh [⟨exRealCli, "load d g", T⟩] c ∧
    (⟨exRealCli, "load d g", T⟩ : Entered ℝ).Fine := by
  have h := says_call exRealEnv exRealCli Console.fresh "load d g" (.call (.load "d" (some "0 1".toList) ['g'] [' '] 0 0 false))
    ((fresh : Api ℝ).exec exRealEnv (.load "d" (some "0 1".toList) ['g'] [' '] 0 0 false)).1
    (.info ⟨"d", 1, 2, false, false, "", 0⟩) rfl (Prod.ext rfl rfl)
  refine ⟨_, _, .snoc (h := []) (.nil _) (by decide) h (by simp), ?_⟩
  unfold Entered.Fine HasLine
  decide

theorem exReal_spaced : WellSpaced (K := ℝ) .euclidean cliBand [[0, 1]] [0, 1] := by
  have key : ∀ i s e x, IsSub [[(0 : ℝ), 1]] i s e x → x = [0, 1] := by
    rintro i s e x ⟨r, hr, h1, h2, rfl⟩
    match i, hr with
    | 0, hr =>
      cases hr
      have h2' : e ≤ 2 := h2
      obtain rfl : s = 0 := by omega
      obtain rfl : e = 2 := by omega
      rfl
    | i + 1, hr => simp at hr
  intro i s e x i' s' e' x' u v h1 h2 hu hv hne
  obtain rfl := key _ _ _ _ h1
  obtain rfl := key _ _ _ _ h2
  exact absurd (fin.inj (dtw_unique hu hv)) hne

/-- `ksimBF 1 d d 0` shows one answer. -/
example : ∃ (h : List (Entered ℝ)) (T : Text) (c : Console ℝ), Terminal exRealEnv exRealScreen Console.fresh (h ++ [⟨exRealCli, "ksimBF 1 d d 0", T⟩]) c ∧
    (answersIn T).length = 1 := by
  obtain ⟨T0, c0, h0, hf⟩ := exReal_says
  have hl : LoadedBy exRealEnv "d" [⟨exRealCli, "load d g", T0⟩] [[(0 : ℝ), 1]] :=
    .load (h₁ := []) (h₂ := []) (args := ["load", "d", "g"]) (startCol := 0) (tokens_words "load d g".toList) (.load0 "d" "g") exReal_file hf (by simp)
  have hq : Asks exRealEnv [⟨exRealCli, "load d g", T0⟩] "d" 0 (-1) (-1) [(0 : ℝ), 1] := ⟨_, 0, _, hl, rfl, rfl, .inl ⟨rfl, rfl, rfl⟩⟩
  have hS : Tidy exRealScreen := ⟨by simp [exRealScreen], by simp [exRealScreen]⟩
  obtain ⟨T, c, h⟩ := C111_ksimBF_answers exRealEnv (refAlgos_lawful _) exRealScreen (.inl rfl) _ _ h0 "d" _ hl "d" 0 (-1) (-1) [0, 1] hq
    (by simp) exReal_spaced 1 le_rfl "euclidean" exRealCli "ksimBF 1 d d 0" (by decide) ["ksimBF", "1", "d", "d", "0"]
    (tokens_words "ksimBF 1 d d 0".toList) (.ksimBF0 "1" "d" "d" "0" rfl rfl)
  refine ⟨_, T, c, h, ?_⟩
  obtain ⟨res, d, h1, h2, -⟩ := C111_ksimBF exRealEnv (refAlgos_lawful _) exRealScreen hS (.inl rfl) _ _ _ h "d" _ hl "d" 0 (-1) (-1) [0, 1] hq
    (by simp) exReal_spaced 1 le_rfl "euclidean" ["ksimBF", "1", "d", "d", "0"]
    (tokens_words "ksimBF 1 d d 0".toList) (.ksimBF0 "1" "d" "d" "0" rfl rfl)
  rw [h1, List.length_map, h2]
  simp [subCount]

end Genex.Props
