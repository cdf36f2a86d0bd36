import Verif.Lemmas.Double
import Verif.Lemmas.BandDouble
import Verif.Props.RoundedApprox
import Verif.Props.EndToEnd

/-!
# C88: from the file to the answer, in the arithmetic of `double`
-/

set_option linter.unusedSectionVars false

namespace Genex.Props

open Dbl Spec Genex.Api Genex.Registry

section generic

variable {K : Type} [Field K] [LinearOrder K] [IsStrictOrderedRing K] [FloorRing K] [HasSqrt K] [A : Arith K] [BandOps] {E : Env K} {s : Api K}
  {name : String} {R W : ℕ} {file rows : List (List K)}

theorem roundDouble_unit : roundDouble (1 : K) = 1 := by
  have := roundDouble_mul (K := K) 1 (by norm_num) 0
  simpa using this

theorem twice_le_max : roundDouble (2 * (2 : K) ^ 480) ≤ maxDouble := C87_double (K := K) .chebyshev (by decide) 0 (by norm_num)

theorem unit_le : (1 : K) / 2 ^ 53 ≤ 1 / 5 := by norm_num

theorem one_le_range : (1 : K) ≤ 2 ^ 480 := one_le_pow₀ (by norm_num)

/-- What is known of a dataset that was loaded, and perhaps normalised. -/
theorem serves_double (hA : A = doubleArith) (hf : Sized roundDouble (2 ^ 480) file) (hRW : R * W ≤ 2 ^ 52)
    (h : Serves E roundDouble name R W file rows s) :
    Inv s ∧ Sized roundDouble (2 ^ 480) rows ∧ ∃ g, Registry.Holds s name g ∧ Spec.Holds g.ds (rows.map (·.map .fin)) ∧ 0 ≤ g.ds.maxCol ∧
      g.ds.maxCol ≤ W ∧ DataBelow (2 ^ 480) g.ds ∧ DataSize (2 ^ 52) g.ds := by
  obtain ⟨h1, h2, g, h3, h4, h5, h6, h7, h8⟩ := h.data hA roundDouble_ops unit_le roundDouble_unit max_fixed one_le_max one_le_range
    twice_le_max hf
  exact ⟨h1, h2, g, h3, h4, h5, h6, h7, fun buf hb => le_trans (h8 buf hb) hRW⟩

section

variable (hA : A = doubleArith) (hf : Sized roundDouble (2 ^ 480) file) (hRW : R * W ≤ 2 ^ 52)

include hA hf hRW

/-- What is known after grouping. -/
theorem grouped_double {m : Metric} (hm : m ≠ .sorensen ∧ m ≠ .cosine) (hs : m = .euclidean → LawfulSqrt K) {t : Dbl K} {whole : Bool}
    (hg : GroupedOn E (Serves E roundDouble name R W file rows) name (metricName m) t whole s) (hratio : 0 ≤ s.ratio) :
    Inv s ∧ Sized roundDouble (2 ^ 480) rows ∧ ∃ z, Registry.Holds s name z ∧
      @Spec.Ready K _ _ (roundedArith roundDouble) (rows.map (·.map .fin)) (metricName m) t whole z ∧ z.ds.maxCol ≤ W ∧
      ∀ q : List K, Sized roundDouble (2 ^ 480) [q] → q.length ≤ 2 ^ 52 →
        z.getBestMatch s.ratio (q.map fin) = @GSet.getBestMatch K _ (roundedArith roundDouble) _ s.ratio z (q.map fin) ∧
        ∀ (A' : Algos (Cand K)) (B' : Algos (GIdx K)) (k h : Int), z.getKBestMatches A' B' s.ratio (q.map fin) k h =
          @GSet.getKBestMatches K _ (roundedArith roundDouble) A' B' _ s.ratio z (q.map fin) k h := by
  have hN : NoOverflow roundDouble (maxDouble : K) (2 ^ 480) (2 * 2 ^ 52) m := C87_double m hm _ (by norm_num)
  have hB : (0 : K) ≤ 2 ^ 480 := by positivity
  obtain ⟨h1, z, gs, h2, h3, h4, h5, h6, h7, h8, h9⟩ := hg.data hA roundDouble_rounding max_fixed one_le_max hB hs hN
    (fun s hs => by
      obtain ⟨k1, -, k2⟩ := serves_double hA hf hRW hs
      exact ⟨k1, k2⟩)
  obtain ⟨start, -, -, -⟩ := hg
  refine ⟨h1, (serves_double hA hf hRW start).2.1, z, h2, h4, h5, fun q hq hl => ?_⟩
  have h87 := (C87_search_partial roundDouble roundDouble_rounding maxDouble (2 ^ 480) max_fixed one_le_max hB (2 ^ 52) m hs hN s.ratio hratio
    (q.map fin) (map_below ((hq q (by simp)).2)) (by simpa using hl)).2 z h6 h7 (fun gs' hgs' => by
      rw [h3] at hgs'
      cases hgs'
      exact ⟨h8, h9⟩)
  rw [show overflowArith (rndMax roundDouble maxDouble) = A from hA.symm] at h87
  exact h87

omit hA hf hRW in
theorem query_short {q : List K} {W : ℕ} {e : K} (he : 12 * ((q.length : K) + W) ≤ e * 2 ^ 53) (he1 : e ≤ 1) : q.length ≤ 2 ^ 52 := by
  have h1 : (12 : K) * q.length ≤ 2 ^ 53 := by
    have : (0 : K) ≤ W := Nat.cast_nonneg _
    have : e * 2 ^ 53 ≤ 1 * 2 ^ 53 := mul_le_mul_of_nonneg_right he1 (by positivity)
    linarith
  have h2 : 12 * q.length ≤ 2 ^ 53 := by exact_mod_cast h1
  omega

omit hA hf hRW in
theorem error_le {q : List K} {W : ℕ} {e : K} {w : Int} (hw : w ≤ W) (he : 12 * ((q.length : K) + W) ≤ e * 2 ^ 53) :
    12 * (((q.length : K) + (w : K)) * (1 / 2 ^ 53)) ≤ e := by
  have h1 : (w : K) ≤ W := by exact_mod_cast hw
  rw [← mul_assoc, mul_one_div, div_le_iff₀ (by positivity)]
  linarith

/-- C88: in double arithmetic the answer of `getBestMatch` is a part of a line of the file, or of the normalised data, of a comparable
length, with its DTW distance up to the error, and the call changes nothing. -/
theorem C88_best (m : Metric) (hm : m ≠ .sorensen ∧ m ≠ .cosine) (hs : m = .euclidean → LawfulSqrt K) (t : Dbl K) (whole : Bool)
    (hg : GroupedOn E (Serves E roundDouble name R W file rows) name (metricName m) t whole s) (hr : 0 ≤ s.ratio)
    (qname : String) (index start stop : Int) (q : List K) (hq : Query E s qname index start stop q) (hqs : Sized roundDouble (2 ^ 480) [q])
    (e : K) (he : 12 * ((q.length : K) + W) ≤ e * 2 ^ 53) (he1 : e ≤ 1) (s' : Api K) (c : Cand K)
    (hc : s.exec E (.bestMatch name qname index start stop) = (s', .ret (.ok (.cand c)))) :
    s' = s ∧ ∃ i p ℓ y x D, Names c i p ℓ ∧ SubOf rows ℓ i p y ∧ Comparable s.ratio q.length ℓ ∧ c.dist = fin x ∧
      Dtw m s.ratio q y (fin D) ∧ |x - D| ≤ e * D + 4 * (1 / 2 ^ 537) ∧ ((∃ r ∈ rows, r ≠ []) → 1 ≤ ℓ) := by
  obtain ⟨hI, hsz, z, hz, R, hW, hsame⟩ := grouped_double hA hf hRW hm hs hg hr
  have hl := query_short he he1
  rw [best_exec hI hq hz, (hsame q hqs hl).1] at hc
  cases e' : @GSet.getBestMatch K _ (roundedArith roundDouble) _ s.ratio z (q.map .fin) with
  | error f => rw [e'] at hc; cases hc
  | ok c' =>
    rw [e'] at hc
    cases hc
    obtain ⟨gs, -, ℓ, i, p, y, x, D, h1, h2, h3, -, h4, h5, h6, -⟩ := @C74_best K _ _ _ _ roundDouble _ _ e (roundedArith roundDouble) _
      (fun _ _ _ _ _ => rfl) roundDouble_ops m hm hs s.ratio hr z rows t whole R q (fun r hr => (hsz r hr).1) (hqs q (by simp)).1
      (error_le hW he) he1 c e'
    refine ⟨rfl, i, p, ℓ, y, x, D, by rw [Names, h3]; exact ⟨rfl, rfl, rfl⟩, h2, h1.2, h4, h5, h6, ?_⟩
    rintro ⟨r, hr1, hr2⟩
    obtain ⟨k, hk⟩ := List.mem_iff_getElem?.1 hr1
    have hU := @Spec.Ready.usable K _ _ _ _ (roundedArith roundDouble) (@rounded_evals K _ _ _ roundDouble _ (roundedArith roundDouble) _
      (fun _ _ _ _ _ => rfl)) _ _ _ _ _ R
    have hfit := hU.1.fits k (r.map fin) (by rw [List.getElem?_map, hk]; rfl)
    rw [List.length_map] at hfit
    have := List.length_pos_of_ne_nil hr2
    have := h1.1
    cases whole <;> simp [Spec.InRange] at this <;> omega

/-- C88: if all lengths were grouped, `getBestMatch` answers every query of at least two points that is not longer than some line of the
file. -/
theorem C88_returns (m : Metric) (hm : m ≠ .sorensen ∧ m ≠ .cosine) (hs : m = .euclidean → LawfulSqrt K) (t : Dbl K)
    (hg : GroupedOn E (Serves E roundDouble name R W file rows) name (metricName m) t false s) (hr : 0 ≤ s.ratio)
    (qname : String) (index start stop : Int) (q : List K) (hq : Query E s qname index start stop q) (hqs : Sized roundDouble (2 ^ 480) [q])
    (h2 : 2 ≤ q.length) (hl : q.length ≤ 2 ^ 52) (hrow : ∃ r ∈ rows, q.length ≤ r.length) :
    ∃ c, s.exec E (.bestMatch name qname index start stop) = (s, .ret (.ok (.cand c))) := by
  obtain ⟨hI, hsz, z, hz, R, hW, hsame⟩ := grouped_double hA hf hRW hm hs hg hr
  obtain ⟨c, hc⟩ := @C74_returns K _ _ _ _ roundDouble (roundedArith roundDouble) _ (fun _ _ _ _ _ => rfl) m hm hs s.ratio hr z rows t false R q
    roundDouble_rounding h2 (.inl ⟨rfl, hrow⟩)
  refine ⟨c, ?_⟩
  rw [best_exec hI hq hz, (hsame q hqs hl).1, hc]
  rfl

/-- C88: if all lengths were grouped with threshold `τ`, no part of the data of a comparable length is nearer to the query than the
answer by more than `τ / 4` (euclidean) or `τ / 2` (chebyshev), up to the error. -/
theorem C88_near (m : Metric) (hm : m = .euclidean ∨ m = .chebyshev) (hs : m = .euclidean → LawfulSqrt K) (τ : K) (hτ : 0 ≤ τ)
    (hg : GroupedOn E (Serves E roundDouble name R W file rows) name (metricName m) (fin τ) false s) (hr : 0 ≤ s.ratio)
    (qname : String) (index start stop : Int) (q : List K) (hq : Query E s qname index start stop q) (hqs : Sized roundDouble (2 ^ 480) [q])
    (e : K) (he : 12 * ((q.length : K) + W) ≤ e * 2 ^ 53) (he1 : e < 1) (s' : Api K) (c : Cand K)
    (hc : s.exec E (.bestMatch name qname index start stop) = (s', .ret (.ok (.cand c))))
    (ℓ i p : ℕ) (y : List K) (h2 : 2 ≤ ℓ) (hy : SubOf rows ℓ i p y) (hcom : Comparable s.ratio q.length ℓ) (x : K)
    (hx : Dtw m s.ratio q y (fin x)) :
    ∃ i' p' ℓ' y' D, Names c i' p' ℓ' ∧ SubOf rows ℓ' i' p' y' ∧ Dtw m s.ratio q y' (fin D) ∧
      (1 - e) ^ 2 * D ≤ (1 + e) ^ 2 * (x + (τ + 8 * (1 / 2 ^ 537)) / ((if m = .euclidean then 4 else 2) * (1 - e))) + 16 * (1 / 2 ^ 537) := by
  have hm' : m ≠ .sorensen ∧ m ≠ .cosine := by rcases hm with rfl | rfl <;> decide
  obtain ⟨hI, hsz, z, hz, R, hW, hsame⟩ := grouped_double hA hf hRW hm' hs hg hr
  have hl := query_short he he1.le
  rw [best_exec hI hq hz, (hsame q hqs hl).1] at hc
  cases e' : @GSet.getBestMatch K _ (roundedArith roundDouble) _ s.ratio z (q.map .fin) with
  | error f => rw [e'] at hc; cases hc
  | ok c' =>
    rw [e'] at hc
    cases hc
    have hcon : Considered z.ds.maxCol false s.ratio q.length ℓ := by
      refine ⟨⟨?_, by simpa using h2⟩, hcom⟩
      obtain ⟨r, hr1, hr2, -⟩ := hy
      have hU := @Spec.Ready.usable K _ _ _ _ (roundedArith roundDouble) (@rounded_evals K _ _ _ roundDouble _ (roundedArith roundDouble) _
        (fun _ _ _ _ _ => rfl)) _ _ _ _ _ R
      have := hU.1.fits i (r.map fin) (by rw [List.getElem?_map, hr1]; rfl)
      rw [List.length_map] at this
      omega
    rcases hm with rfl | rfl
    · have := hs rfl
      obtain ⟨ℓ', i', p', y', x', D, h1, h2, h3, h4, h5, h6, h7⟩ := @C75_euclidean K _ _ _ _ roundDouble _ _ e (roundedArith roundDouble) _
        (fun _ _ _ _ _ => rfl) roundDouble_ops this z rows s.ratio hr τ hτ false R q (fun r hr => (hsz r hr).1) (hqs q (by simp)).1
        (error_le hW he) he1 c e' ℓ i p y hcon hy x hx
      exact ⟨i', p', ℓ', y', D, by rw [Names, h3]; exact ⟨rfl, rfl, rfl⟩, h2, h5, by simpa using h7⟩
    · obtain ⟨ℓ', i', p', y', x', D, h1, h2, h3, h4, h5, h6, h7⟩ := @C75_chebyshev K _ _ _ _ roundDouble _ _ e (roundedArith roundDouble) _
        (fun _ _ _ _ _ => rfl) roundDouble_ops z rows s.ratio hr τ hτ false R q (fun r hr => (hsz r hr).1) (hqs q (by simp)).1
        (error_le hW he) he1 c e' ℓ i p y hcon hy x hx
      exact ⟨i', p', ℓ', y', D, by rw [Names, h3]; exact ⟨rfl, rfl, rfl⟩, h2, h5, by simpa using h7⟩

/-- C88: the query of a search may be any part of a served series. -/
theorem C88_query (h : Serves E roundDouble name R W file rows s) (i p e : ℕ) (r : List K) (hi : rows[i]? = some r) (hp : p < e)
    (he : e ≤ r.length) : Query E s name i p e ((r.drop p).take (e - p)) ∧ Sized roundDouble (2 ^ 480) [(r.drop p).take (e - p)] := by
  obtain ⟨hI, hsz, g, hg, H, -⟩ := serves_double hA hf hRW h
  constructor
  · obtain ⟨id, k1, k2⟩ := hI.holds.1 hg
    obtain ⟨h1, h2⟩ := H.view_points hi hp he
    refine ⟨s, ?_⟩
    simp only [exec]
    rw [withSet_some k1 k2]
    simp only [queryOf, h1, bind, Except.bind, h2]
    rfl
  · intro x hx
    obtain rfl := List.mem_singleton.1 hx
    have hsub : ∀ y ∈ (r.drop p).take (e - p), y ∈ r := fun y hy => List.mem_of_mem_drop (List.mem_of_mem_take hy)
    have := hsz r (List.mem_of_getElem? hi)
    exact ⟨fun y hy => this.1 y (hsub y hy), fun y hy => this.2 y (hsub y hy)⟩

omit hA hf hRW in
/-- Scaling in double arithmetic. -/
theorem scaleR_unit (hfl : ∀ r ∈ rows, Floats roundDouble r) {lo hi : K} (hlo : IsLeast {x | ∃ r ∈ rows, x ∈ r} lo)
    (hhi : IsGreatest {x | ∃ r ∈ rows, x ∈ r} hi) :
    ∀ r ∈ rows, ∀ x ∈ r, 0 ≤ scaleR roundDouble lo hi x ∧ scaleR roundDouble lo hi x ≤ 1 ∧ (lo = hi → scaleR roundDouble lo hi x = 0) ∧
      (lo ≠ hi → |scaleR roundDouble lo hi x - (x - lo) / (hi - lo)| ≤ 4 * (1 / 2 ^ 53) * ((x - lo) / (hi - lo)) + (1 / 2 ^ 537) ^ 2) := by
  have hr := roundDouble_rounding (K := K)
  intro r hr' x hx
  obtain ⟨rl, hrl, hl⟩ := hlo.1
  obtain ⟨rh, hrh, hh⟩ := hhi.1
  have hle : lo ≤ x ∧ x ≤ hi := ⟨hlo.2 ⟨r, hr', hx⟩, hhi.2 ⟨r, hr', hx⟩⟩
  refine ⟨?_, ?_, fun h => by simp [scaleR, h], fun hd => scaleR_err roundDouble_ops unit_le (hfl rl hrl lo hl) (hfl rh hrh hi hh)
    (hfl r hr' x hx) hle.1 hle.2 hd⟩
  all_goals
    have a0 : 0 ≤ roundDouble (x - lo) := hr.nonneg (sub_nonneg.2 hle.1)
    have a1 : roundDouble (x - lo) ≤ roundDouble (hi - lo) := hr.mono _ _ (by linarith [hle.2])
    have b0 : 0 ≤ roundDouble (x - lo) / roundDouble (hi - lo) := div_nonneg a0 (le_trans a0 a1)
    unfold scaleR
    split
    · norm_num
  · exact hr.nonneg b0
  · have := hr.mono _ _ (div_le_one_of_le₀ a1 (le_trans a0 a1))
    rwa [roundDouble_unit] at this

/-- C88: `normalizeDataset` succeeds on served data that is not empty, replies the least and the greatest number, and afterwards serves
numbers in `[0, 1]` that differ from the exact scaled numbers by at most `4 / 2 ^ 53` of them (and underflow). -/
theorem C88_normalize (h : Serves E roundDouble name R W file rows s) (hne : ∃ r ∈ rows, r ≠ []) :
    ∃ s₁ lo hi, s.exec E (.normalize name) = (s₁, .ret (.ok (.pair (fin lo, fin hi)))) ∧
      IsLeast {x | ∃ r ∈ rows, x ∈ r} lo ∧ IsGreatest {x | ∃ r ∈ rows, x ∈ r} hi ∧
      ∃ f : K → K, Serves E roundDouble name R W file (rows.map (·.map f)) s₁ ∧
        ∀ r ∈ rows, ∀ x ∈ r, 0 ≤ f x ∧ f x ≤ 1 ∧ (lo = hi → f x = 0) ∧
          (lo ≠ hi → |f x - (x - lo) / (hi - lo)| ≤ 4 * (1 / 2 ^ 53) * ((x - lo) / (hi - lo)) + (1 / 2 ^ 537) ^ 2) := by
  obtain ⟨hI, hsz, g, hg, H, -⟩ := serves_double hA hf hRW h
  have hfl : ∀ r ∈ rows, Floats roundDouble r := fun r hr => (hsz r hr).1
  have hr := roundDouble_rounding (K := K)
  have hnorm : A.normalize g.ds = g.ds.normalizeR roundDouble := by
    rw [hA]
    exact (C87_normalize_partial roundDouble hr maxDouble max_fixed one_le_max roundDouble_unit g.ds rows H
      (fun r hr' x hx r' hr'' y hy => sub_below hr twice_le_max ((hsz r hr').2 x hx) ((hsz r' hr'').2 y hy))).1
  obtain ⟨ds', lo, hi, e, hlo, hhi, H', -, -⟩ := normalizeR_run roundDouble _ _ roundDouble_ops unit_le g.ds rows H hne hfl
  obtain ⟨id, k1, k2⟩ := hI.holds.1 hg
  have hex : s.exec E (.normalize name) = (s.store id { g with ds := ds' }, .ret (.ok (.pair (fin lo, fin hi)))) := by
    simp only [exec]
    rw [withSet_some k1 k2, hnorm, e]
  have hS := Serves.normalised (h := []) (rows := rows.map (·.map (scaleR roundDouble lo hi))) h hex ⟨lo, hi, hlo, hhi, rfl⟩ (.nil _)
    (by simp)
  exact ⟨_, lo, hi, hex, hlo, hhi, _, hS, scaleR_unit hfl hlo hhi⟩

omit hA hf hRW in
theorem eps_double : 0 < roundDouble (eps : K) := by
  have := (abs_le.1 ((roundDouble_ops (K := K)).err eps)).1
  have h0 : (0 : K) < eps := by unfold eps; norm_num
  rw [abs_of_pos h0] at this
  have h1 : (1 : K) / 2 ^ 53 * eps + (1 / 2 ^ 537) ^ 2 < eps := by
    have h2 : ((1 : K) / 2 ^ 537) ^ 2 ≤ (1 / 2 ^ 40) ^ 2 := by
      refine pow_le_pow_left₀ (by positivity) ?_ 2
      exact one_div_le_one_div_of_le (by positivity) (pow_le_pow_right₀ (by norm_num) (by norm_num))
    refine lt_of_le_of_lt (add_le_add_right h2 _) ?_
    unfold eps
    norm_num
  linarith

/-- C88: the exhaustive search returns `k` parts of the lines, nearest first, each with its DTW distance up to the error, and no other
part is nearer by more than the error, if computed distances are equal or more than `1e-9` apart. -/
theorem C88_exhaustive (hL : E.A.Lawful (Cand.ltR roundDouble)) (m : Metric) (hm : m ≠ .sorensen ∧ m ≠ .cosine)
    (hs : m = .euclidean → LawfulSqrt K) (h : Serves E roundDouble name R W file rows s) (hr : 0 ≤ s.ratio)
    (qname : String) (index start stop : Int) (q : List K) (hq : Query E s qname index start stop q) (hqs : Sized roundDouble (2 ^ 480) [q])
    (h1 : 1 ≤ q.length) (e : K) (he : 12 * ((q.length : K) + W) ≤ e * 2 ^ 53) (he1 : e ≤ 1)
    (k : ℕ) (hk : 1 ≤ k) (hsp : SpacedFor (Computed roundDouble m s.ratio q) rows) :
    ∃ res, s.exec E (.bruteForce k name qname index start stop (metricName m)) = (s, .ret (.ok (.cands res))) ∧
      res.length = min k (subCount rows) ∧
      (res.map (fun c => (c.view.index, c.view.start, c.view.stop))).Nodup ∧
      (∀ c ∈ res, ∃ i p j x, IsSub rows i p j x ∧ Names c i p (j - p) ∧ NearDtw m s.ratio e (4 * (1 / 2 ^ 537)) q x c.dist ∧
        ∀ i' p' j' y D', IsSub rows i' p' j' y → Dtw m s.ratio q y (fin D') → (∀ c ∈ res, ¬ Names c i' p' (j' - p')) →
          ∃ D, Dtw m s.ratio q x (fin D) ∧ (1 - e) * D ≤ (1 + e) * D' + 8 * (1 / 2 ^ 537)) ∧
      res.Pairwise (fun c c' => c.dist ≤ c'.dist) := by
  obtain ⟨hI, hsz, g, hg, H, -, hW, hB, hS⟩ := serves_double hA hf hRW h
  have hN : NoOverflow roundDouble (maxDouble : K) (2 ^ 480) (2 * 2 ^ 52) m := C87_double m hm _ (by norm_num)
  have h87 := (C87_search_partial roundDouble roundDouble_rounding maxDouble (2 ^ 480) max_fixed one_le_max (by positivity) (2 ^ 52) m hs hN
    s.ratio hr (q.map fin) (map_below ((hqs q (by simp)).2)) (by simpa using query_short he he1)).1 g.ds E.A k hB hS
  rw [show overflowArith (rndMax roundDouble maxDouble) = A from hA.symm] at h87
  obtain ⟨res, e', r1, r2, r3, r4⟩ := @C74_topk K _ _ _ _ roundDouble _ _ e (roundedArith roundDouble) _ (fun _ _ _ _ _ => rfl)
    roundDouble_ops m hm hs s.ratio hr eps_double E.A hL g.ds rows H (fun r hr => (hsz r hr).1) q (hqs q (by simp)).1 h1 (error_le hW he) he1
    k hk hsp
  refine ⟨res, ?_, r1, r2, ?_, r4⟩
  · rw [brute_exec hI hq hg, h87, e']
    rfl
  · intro c hc
    obtain ⟨i, p, j, x, h, h3, h4, h5, -, h6, h7⟩ := r3 c hc
    have hpj := h
    obtain ⟨-, -, hpj, -⟩ := hpj
    refine ⟨i, p, j, x, h, ⟨h3, h4, by rw [h5]; omega⟩, h6, ?_⟩
    intro i' p' j' y D' hy hD' hn
    refine h7 i' p' j' y D' hy hD' ?_
    rintro c hc ⟨h3, h4, h5⟩
    refine hn c hc ⟨h3, h4, ?_⟩
    obtain ⟨-, -, hpe, -⟩ := hy
    rw [h5]
    omega

omit hA hf hRW in
/-- The answer of the k-best search in terms of parts of the lines. -/
theorem kbest_parts {C : Algos (Cand K)} (hL : C.Lawful (Cand.ltR roundDouble)) {C' : Algos (GIdx K)} (hL' : C'.Lawful GIdx.lt) (m : Metric)
    (hm : m ≠ .sorensen ∧ m ≠ .cosine) (hs : m = .euclidean → LawfulSqrt K) (t : Dbl K) (ratio : ℚ) (hr : 0 ≤ ratio) (z : GSet K)
    (Rd : @Ready K _ _ (roundedArith roundDouble) (rows.map (·.map fin)) (metricName m) t false z)
    (hF : ∀ r ∈ rows, Floats roundDouble r) (hW : z.ds.maxCol ≤ W) (q : List K) (hFq : Floats roundDouble q)
    (h2 : 2 ≤ q.length) (hrow : ∃ r ∈ rows, q.length ≤ r.length) (e : K) (he : 12 * ((q.length : K) + W) ≤ e * 2 ^ 53) (he1 : e ≤ 1)
    (k h : ℕ) (hh : 1 ≤ h) (hkh : k ≤ h) (hsp : SpacedFor (Computed roundDouble m ratio q) rows) :
    ∃ res : List (Cand K), @GSet.getKBestMatches K _ (roundedArith roundDouble) C C' _ ratio z (q.map fin) k h =
        .ok (res.map GSet.Entry.cand ++ List.replicate (k - partCount rows ratio q.length) .pad) ∧
      res.length = min k (partCount rows ratio q.length) ∧
      (res.map (fun c => (c.view.index, c.view.start, c.view.stop))).Nodup ∧
      (∀ c ∈ res, ∃ i p ℓ y, Names c i p ℓ ∧ SubOf rows ℓ i p y ∧ 2 ≤ ℓ ∧ Comparable ratio q.length ℓ ∧
        NearDtw m ratio e (4 * (1 / 2 ^ 537)) q y c.dist ∧
        (partCount rows ratio q.length ≤ h → ∀ i' p' ℓ' y' D', SubOf rows ℓ' i' p' y' → 2 ≤ ℓ' → Comparable ratio q.length ℓ' →
          Dtw m ratio q y' (fin D') → (∀ c ∈ res, ¬ Names c i' p' ℓ') →
          ∃ D, Dtw m ratio q y (fin D) ∧ (1 - e) * D ≤ (1 + e) * D' + 8 * (1 / 2 ^ 537))) ∧
      res.Pairwise (fun c c' => c.dist ≤ c'.dist) := by
  have hU := @Spec.Ready.usable K _ _ _ _ (roundedArith roundDouble) (@rounded_evals K _ _ _ roundDouble _ (roundedArith roundDouble) _
    (fun _ _ _ _ _ => rfl)) _ _ _ _ _ Rd
  have hfit : ∀ r ∈ rows, (r.length : Int) ≤ z.ds.maxCol := by
    intro r hr
    obtain ⟨i, hi⟩ := List.mem_iff_getElem?.1 hr
    have := hU.1.fits i (r.map fin) (by rw [List.getElem?_map, hi]; rfl)
    rwa [List.length_map] at this
  obtain ⟨r0, hr0, hr0q⟩ := hrow
  have hmax : 0 ≤ z.ds.maxCol := hU.2.1
  have hlong : (longest rows : Int) ≤ z.ds.maxCol := by
    have := longest_le (rows := rows) (n := z.ds.maxCol.toNat) (fun r hr => by have := hfit r hr; omega)
    omega
  have hav : Spec.available rows z.ds.maxCol false ratio q.length = partCount rows ratio q.length := by
    rw [← available_longest (z.ds.maxCol.toNat - longest rows)]
    congr 1
    push_cast
    omega
  obtain ⟨res, e', r1, r2, r3, r4, r5⟩ := @C74_kbest K _ _ _ _ roundDouble _ _ e (roundedArith roundDouble) _ (fun _ _ _ _ _ => rfl)
    roundDouble_ops m hm hs ratio hr z rows t false Rd q hF hFq (error_le hW he) he1
    eps_double C hL C' hL' (by omega) (by have := hfit r0 hr0; omega) (by have := hfit r0 hr0; omega) hsp k h hh hkh
  rw [hav] at e' r1 r5
  refine ⟨res, e', r1, ?_, ?_, r4⟩
  · rw [List.nodup_iff_pairwise_ne, List.pairwise_map] at r2 ⊢
    refine r2.imp_of_mem ?_
    intro c c' hc hc' hne heq
    obtain ⟨ℓ, i, p, x, -, -, hv, -⟩ := r3 c hc
    obtain ⟨ℓ', i', p', x', -, -, hv', -⟩ := r3 c' hc'
    refine hne ?_
    rw [hv, hv'] at heq ⊢
    simp only [Spec.subView, Prod.mk.injEq, Nat.cast_inj] at heq ⊢
    obtain ⟨h1, h2, h3⟩ := heq
    rw [h1, h2, show ((p' : Int) + (ℓ : Int)) = p' + ℓ' by rw [h2] at h3; exact h3]
  · intro c hc
    obtain ⟨ℓ, i, p, x, hcon, hsub, hv, hd⟩ := r3 c hc
    refine ⟨i, p, ℓ, x, by rw [Names, hv]; exact ⟨rfl, rfl, rfl⟩, hsub, by simpa using hcon.1.2, hcon.2, hd, ?_⟩
    intro hle i' p' ℓ' y' D' hy hℓ hcom hd' hn
    obtain ⟨D, ⟨ℓ₁, i₁, p₁, x₁, -, hs₁, hv₁, hd₁⟩, hD⟩ := r5 hle (Spec.subView z.ds.maxCol i' p' ℓ') D'
      ⟨ℓ', i', p', y', ⟨⟨by
        obtain ⟨r, h1, h2, -⟩ := hy
        have := hfit r (List.mem_of_getElem? h1)
        omega, by simpa using hℓ⟩, hcom⟩, hy, rfl, hd'⟩ (by
        intro hc
        obtain ⟨c, hc, hv⟩ := List.mem_map.1 hc
        exact hn c hc (by rw [Names, hv]; exact ⟨rfl, rfl, rfl⟩)) c hc
    rw [hv] at hv₁
    simp only [Spec.subView, View.mk.injEq, Nat.cast_inj] at hv₁
    obtain ⟨-, rfl, rfl, h3⟩ := hv₁
    obtain rfl : ℓ₁ = ℓ := by omega
    obtain ⟨r, a1, -, a3⟩ := hsub
    obtain ⟨r', b1, -, b3⟩ := hs₁
    rw [a1] at b1
    cases b1
    exact ⟨D, by rw [a3, ← b3]; exact hd₁, hD⟩

/-- C88: if all lengths were grouped, `getKBestMatches` returns `min k` of the comparable parts and pads the rest, each with its DTW
distance up to the error, nearest first; if the search is allowed to examine all of them no other is nearer by more than the error. -/
theorem C88_kbest (hL : E.A.Lawful (Cand.ltR roundDouble)) (hL' : E.B.Lawful GIdx.lt) (m : Metric) (hm : m ≠ .sorensen ∧ m ≠ .cosine)
    (hs : m = .euclidean → LawfulSqrt K) (t : Dbl K)
    (hg : GroupedOn E (Serves E roundDouble name R W file rows) name (metricName m) t false s) (hr : 0 ≤ s.ratio)
    (qname : String) (index start stop : Int) (q : List K) (hq : Query E s qname index start stop q) (hqs : Sized roundDouble (2 ^ 480) [q])
    (h2 : 2 ≤ q.length) (hrow : ∃ r ∈ rows, q.length ≤ r.length) (e : K) (he : 12 * ((q.length : K) + W) ≤ e * 2 ^ 53) (he1 : e ≤ 1)
    (k h : ℕ) (hh : 1 ≤ h) (hkh : k ≤ h) (hsp : SpacedFor (Computed roundDouble m s.ratio q) rows) :
    ∃ res : List (Cand K), s.exec E (.kBest k h name qname index start stop) =
        (s, .ret (.ok (.entries (res.map GSet.Entry.cand ++ List.replicate (k - partCount rows s.ratio q.length) .pad)))) ∧
      res.length = min k (partCount rows s.ratio q.length) ∧
      (res.map (fun c => (c.view.index, c.view.start, c.view.stop))).Nodup ∧
      (∀ c ∈ res, ∃ i p ℓ y, Names c i p ℓ ∧ SubOf rows ℓ i p y ∧ 2 ≤ ℓ ∧ Comparable s.ratio q.length ℓ ∧
        NearDtw m s.ratio e (4 * (1 / 2 ^ 537)) q y c.dist ∧
        (partCount rows s.ratio q.length ≤ h → ∀ i' p' ℓ' y' D', SubOf rows ℓ' i' p' y' → 2 ≤ ℓ' → Comparable s.ratio q.length ℓ' →
          Dtw m s.ratio q y' (fin D') → (∀ c ∈ res, ¬ Names c i' p' ℓ') →
          ∃ D, Dtw m s.ratio q y (fin D) ∧ (1 - e) * D ≤ (1 + e) * D' + 8 * (1 / 2 ^ 537))) ∧
      res.Pairwise (fun c c' => c.dist ≤ c'.dist) := by
  obtain ⟨hI, hsz, z, hz, Rd, hW, hsame⟩ := grouped_double hA hf hRW hm hs hg hr
  obtain ⟨res, e', r1, r2, r3, r4⟩ := kbest_parts hL hL' m hm hs t s.ratio hr z Rd (fun r hr => (hsz r hr).1) hW q (hqs q (by simp)).1 h2 hrow e he
    he1 k h hh hkh hsp
  exact ⟨res, by rw [kBest_exec hI hq hz, (hsame q hqs (query_short he he1)).2, e']; rfl, r1, r2, r3, r4⟩

end

end generic

/-! ## A session: load, normalise, group, search -/

section examples

local instance (priority := 2000) exBandD : BandOps := doubleBand

local instance (priority := 2000) exDouble : Arith ℚ := doubleArith

def exEnvD : Env ℚ := { exEnv with A := refAlgos (Cand.ltR roundDouble) }

/-- Two series of three points; normalising divides by six. -/
def exLoadD : Call ℚ := .load "f" (some "1 4 2\n2 3 7".toList) [] [' '] 0 0 false

def exRawD : List (List ℚ) := [[1, 4, 2], [2, 3, 7]]

theorem exRawD_has : FileHas exEnvD.parse "1 4 2\n2 3 7".toList [' '] 0 0 false exRawD := ⟨by decide, by decide +kernel, by decide +kernel⟩

theorem exRawD_sized : Sized roundDouble (2 ^ 480) exRawD := by unfold Sized; decide +kernel

/-- A state after a call. -/
def afterD (s : Api ℚ) (c : Call ℚ) : Api ℚ := (s.exec exEnvD c).1

def exLoadedD : Api ℚ := afterD fresh exLoadD

theorem exLoadedD_serves : Serves exEnvD roundDouble "f" 2 3 exRawD exRawD exLoadedD := by
  obtain ⟨o, ho⟩ := kind_ok (r := ((fresh : Api ℚ).exec exEnvD exLoadD).2) (by decide +kernel)
  exact .loaded (h := []) (h' := []) (path := []) (s₁ := exLoadedD) (o := o) (.nil _) exRawD_has (by decide +kernel) (by decide +kernel)
    (Prod.ext rfl ho) (.nil _) (by simp)

/-- The numbers after normalising: a sixth and a third are rounded. -/
def exRowsD : List (List ℚ) := exRawD.map (·.map (fun x => roundDouble (roundDouble (x - 1) / roundDouble (7 - 1))))

example : exRowsD = [[0, 1 / 2, 6004799503160661 / 2 ^ 55], [6004799503160661 / 2 ^ 55, 6004799503160661 / 2 ^ 54, 1]] := by decide +kernel

theorem exRowsD_scaled : Scaled roundDouble exRawD exRowsD := by
  refine ⟨1, 7, ⟨⟨[1, 4, 2], by decide, by decide⟩, ?_⟩, ⟨⟨[2, 3, 7], by decide, by decide⟩, ?_⟩, ?_⟩
  · rintro x ⟨r, hr, hx⟩
    exact (by decide : ∀ r ∈ exRawD, ∀ x ∈ r, 1 ≤ x) r hr x hx
  · rintro x ⟨r, hr, hx⟩
    exact (by decide : ∀ r ∈ exRawD, ∀ x ∈ r, x ≤ 7) r hr x hx
  · decide +kernel

def exNormalD : Api ℚ := afterD exLoadedD (.normalize "f")

theorem exNormalD_serves : Serves exEnvD roundDouble "f" 2 3 exRawD exRowsD exNormalD := by
  obtain ⟨o, ho⟩ := kind_ok (r := (exLoadedD.exec exEnvD (.normalize "f")).2) (by decide +kernel)
  exact .normalised (h := []) (s₁ := exNormalD) (o := o) exLoadedD_serves (Prod.ext rfl ho) exRowsD_scaled (.nil _) (by simp)

def exGroupedD : Api ℚ × Reply ℚ :=
  match exNormalD.deref 0 with
  | none => (exNormalD, .dangling)
  | some g =>
    let out := g.groupAllLengths (GSpace.group g.ds exNormalD.ratio (fun _ => false) "chebyshev" (fin (1 / 2)) false)
      (fun gs => (gs, .ok 0)) 1
    (exNormalD.store 0 out.1, .ret (out.2.map .int))

theorem exGroupedD_step : Api.Step exEnvD exNormalD (.group "f" (fin (1 / 2)) "chebyshev" 1 false) exGroupedD.1 exGroupedD.2 := by
  have hf : mapFind exNormalD.datasets "f" = some 0 := by decide +kernel
  obtain ⟨g, hg⟩ : ∃ g, exNormalD.deref 0 = some g := Option.isSome_iff_exists.1 (by decide +kernel)
  unfold Api.Step GroupCall exGroupedD
  simp only [hf, hg]
  exact ⟨fun _ => false, _, ⟨_, fun h => by omega, rfl⟩, rfl, rfl⟩

/-- Then another band. -/
def exServedD : Api ℚ := afterD exGroupedD.1 (.setRatio (1 / 2))

theorem exServedD_grouped : GroupedOn exEnvD (Serves exEnvD roundDouble "f" 2 3 exRawD exRowsD) "f" (metricName .chebyshev)
    (fin (1 / 2)) false exServedD := by
  obtain ⟨o, ho⟩ := kind_ok (r := exGroupedD.2) (by decide +kernel)
  refine .mk exNormalD_serves (o := o) (ho ▸ exGroupedD_step)
    (.snoc (.nil _) (c := .call (.setRatio (1 / 2))) (r := (exGroupedD.1.exec exEnvD (.setRatio (1 / 2))).2) rfl
      (survives_kind (by decide +kernel))) ?_
  intro e he
  simp only [List.nil_append, List.mem_singleton] at he
  subst he
  simp [Changes, named]

theorem exServedD_serves : Serves exEnvD roundDouble "f" 2 3 exRawD exRowsD exServedD := by
  obtain ⟨o, ho⟩ := kind_ok (r := (exLoadedD.exec exEnvD (.normalize "f")).2) (by decide +kernel)
  refine .normalised (s₁ := exNormalD) (o := o) exLoadedD_serves (Prod.ext rfl ho) exRowsD_scaled
    (.snoc (.snoc (.nil _) exGroupedD_step (survives_kind (by decide +kernel)))
      (c := .call (.setRatio (1 / 2))) (r := (exGroupedD.1.exec exEnvD (.setRatio (1 / 2))).2) rfl
      (survives_kind (by decide +kernel))) ?_
  intro e he
  simp only [List.nil_append, List.cons_append, List.mem_cons, List.not_mem_nil, or_false] at he
  rcases he with rfl | rfl <;> simp [ChangesData]

def exQueryD : List ℚ := [1 / 2, 6004799503160661 / 2 ^ 55]

theorem exQueryD_ok : Query exEnvD exServedD "f" 0 1 3 exQueryD ∧ Sized roundDouble (2 ^ 480) [exQueryD] :=
  C88_query rfl exRawD_sized (by norm_num) exServedD_serves 0 1 3 [0, 1 / 2, 6004799503160661 / 2 ^ 55] (by decide +kernel) (by decide) (by decide)

theorem exErrorD : 12 * ((exQueryD.length : ℚ) + (3 : ℕ)) ≤ 1 / 10 ^ 14 * 2 ^ 53 := by decide +kernel

example := C88_normalize rfl exRawD_sized (by norm_num) exLoadedD_serves ⟨[1, 4, 2], by decide, by decide⟩
example (s' : Api ℚ) (c : Cand ℚ) := C88_best rfl exRawD_sized (by norm_num) .chebyshev (by decide) (by simp) _ _ exServedD_grouped
  (by decide +kernel) _ _ _ _ _ exQueryD_ok.1 exQueryD_ok.2 (1 / 10 ^ 14) exErrorD (by norm_num) s' c
example := C88_returns rfl exRawD_sized (by norm_num) .chebyshev (by decide) (by simp) _ exServedD_grouped
  (by decide +kernel) _ _ _ _ _ exQueryD_ok.1 exQueryD_ok.2 (by decide) (by decide) (by decide +kernel)
example (s' : Api ℚ) (c : Cand ℚ) := C88_near rfl exRawD_sized (by norm_num) .chebyshev (by decide) (by simp) _ (by norm_num) exServedD_grouped
  (by decide +kernel) _ _ _ _ _ exQueryD_ok.1 exQueryD_ok.2 (1 / 10 ^ 14) exErrorD (by norm_num) s' c
example : found (exServedD.exec exEnvD (.bestMatch "f" "f" 0 1 3)).2 = [(0, 1, 3, fin 0)] := by decide +kernel

theorem exSpacedD : SpacedFor (Computed (K := ℚ) roundDouble .manhattan exServedD.ratio exQueryD) exRowsD :=
  computed_spaced [fin (7505999378950827 / 36028797018963968), fin 0, fin (6004799503160661 / 72057594037927936), fin (1 / 8), fin (1 / 4),
    fin (8006399337547549 / 36028797018963968)] (by decide +kernel) (by decide +kernel)

example := C88_exhaustive rfl exRawD_sized (by norm_num) (E := exEnvD) (refAlgos_lawful _) .manhattan (by decide) (by simp)
  exServedD_serves (by decide +kernel) _ _ _ _ _ exQueryD_ok.1 exQueryD_ok.2 (by decide) (1 / 10 ^ 14) exErrorD (by norm_num) 2 (by decide) exSpacedD
example : found (exServedD.exec exEnvD (.bruteForce 2 "f" "f" 0 1 3 "manhattan")).2 =
    [(0, 1, 3, fin 0), (0, 0, 3, fin (6004799503160661 / 72057594037927936))] := by decide +kernel

theorem exSpacedD' : SpacedFor (Computed (K := ℚ) roundDouble .chebyshev exServedD.ratio exQueryD) exRowsD :=
  computed_spaced [fin (1 / 2), fin 0, fin (1 / 2), fin (3002399751580331 / 9007199254740992), fin (7505999378950827 / 9007199254740992),
    fin (7505999378950827 / 9007199254740992)] (by decide +kernel) (by decide +kernel)

example := C88_kbest rfl exRawD_sized (by norm_num) (E := exEnvD) (refAlgos_lawful _) (refAlgos_lawful _) .chebyshev (by decide) (by simp)
  _ exServedD_grouped (by decide +kernel) _ _ _ _ _ exQueryD_ok.1 exQueryD_ok.2 (by decide) (by decide +kernel) (1 / 10 ^ 14) exErrorD
  (by norm_num) 2 4 (by decide) (by decide) exSpacedD'

end examples

end Genex.Props
