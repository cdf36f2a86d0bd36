import Verif.Lemmas.Moved
import Verif.Props.ScreenNumbers

/-!
# C118: small changes of the numbers
-/

set_option linter.unusedSectionVars false

namespace Genex.Props

open Dbl Api Registry Spec Cli Manual

section

variable {K : Type} [Field K] [LinearOrder K] [IsStrictOrderedRing K] [HasSqrt K]

/-- C118: if no point of two series is moved by more than `δ`, the warped distance computed moves by at most `2 δ`, and stays infinite if it is. -/
theorem C118_distance (m : Metric) (hm : m ≠ .sorensen ∧ m ≠ .cosine) (hs : m = .euclidean → LawfulSqrt K) [BandOps] (ratio : ℚ) (hr : 0 ≤ ratio)
    (a b a' b' : List K) (δ : K) (hδ : 0 ≤ δ) (ha : Moved δ a a') (hb : Moved δ b b') (ha1 : 1 ≤ a.length) (hb1 : 1 ≤ b.length) (d d' : Dbl K)
    (h : warpedValue (m.dm K) ratio (a.map fin) (b.map fin) .inf = .ok d)
    (h' : warpedValue (m.dm K) ratio (a'.map fin) (b'.map fin) .inf = .ok d') :
    (d = .inf ∧ d' = .inf) ∨ ∃ x x', d = fin x ∧ d' = fin x' ∧ |x' - x| ≤ 2 * δ :=
  dtw_moved hs hδ ha hb ha1 hb1 ((dtw_iff hm hs hr ha1 hb1).2 h) ((dtw_iff hm hs hr (ha.length ▸ ha1) (hb.length ▸ hb1)).2 h')

/-- The bound is attained. -/
example : Moved (1 : ℚ) [0, 0] [1, 1] ∧ Moved (1 : ℚ) [0, 0] [-1, -1] ∧
    warpedValue (Metric.dm ℚ .chebyshev) 1 [fin 0, fin 0] [fin 0, fin 0] .inf = .ok (fin 0) ∧
    warpedValue (Metric.dm ℚ .chebyshev) 1 [fin 1, fin 1] [fin (-1), fin (-1)] .inf = .ok (fin 2) := by
  refine ⟨?_, ?_, by decide +kernel, by decide +kernel⟩ <;> simp [Moved]

/-- Two series of which one has two points have a DTW distance. -/
theorem dtw_of_two (m : Metric) (hm : m ≠ .sorensen ∧ m ≠ .cosine) (hs : m = .euclidean → LawfulSqrt K) [BandOps] {ratio : ℚ} (hr : 0 ≤ ratio)
    {a b : List K} (ha : 1 ≤ a.length) (hb : 1 ≤ b.length) (hab : 2 ≤ a.length ∨ 2 ≤ b.length) : ∃ d, Dtw m ratio a b d := by
  obtain ⟨x, p, e, -⟩ := C12_matching_partial m hm hs ratio a b (by omega) hb (by omega) .inf
  refine ⟨x, (dtw_iff hm hs hr (by omega) hb).2 ?_⟩
  unfold warpedValue
  rw [e]
  rfl

/-- C118: if the numbers in the file that was loaded and grouped differ by at most `δ` from other numbers, then what `sim` shows is right of
these up to `2 δ`: the distance, and, up to `4 δ`, that no part is nearer by more than C111 allows. -/
theorem C118_sim (E : Env K) (S : Screen K) (hS : Tidy S) (hP : S.progress = [] ∨ S.progress.getLast? = some '\n') (h : List (Entered K))
    (e : Entered K) (c : Console K) (ht : Terminal E S Console.fresh (h ++ [e]) c) (name : String) (rows rows' : List (List K)) (m : Metric)
    (hm : m ≠ .sorensen ∧ m ≠ .cosine) (hs : m = .euclidean → LawfulSqrt K) (τ : K) (hg : GroupedBy E h name rows' (metricName m) (fin τ))
    (qname : String) (index a b : Int) (q q' : List K) (hq : Asks E h qname index a b q') (h2 : 2 ≤ q.length)
    (δ : K) (hδ : 0 ≤ δ) (hrows : MovedAll δ rows rows') (hqq : Moved δ q q')
    (hrow : ∃ r ∈ rows', q.length ≤ r.length) (args : List String) (hty : e.Typed args)
    (hu : Usage e.env args (.call (.call (.bestMatch name qname index a b)))) :
    ∃ (i p ℓ : ℕ) (y : List K) (x D : K) (d : ℕ), bestIn e.text = [((i : Int), (p : Int), (p : Int) + ℓ)] ∧
      afterWords "Distance = " e.text = [S.num d (fin x)] ∧ SubOf rows ℓ i p y ∧ Comparable cliBand q.length ℓ ∧
      Dtw m cliBand q y (fin D) ∧ |x - D| ≤ 2 * δ ∧
      (0 ≤ τ → m = .euclidean ∨ m = .chebyshev → ∀ i' p' ℓ' y' x', 2 ≤ ℓ' → SubOf rows ℓ' i' p' y' → Comparable cliBand q.length ℓ' →
        Dtw m cliBand q y' (fin x') → D ≤ x' + (if m = .euclidean then τ / 4 else τ / 2) + 4 * δ) := by
  have hl := hqq.length
  have hr0 : (0 : ℚ) ≤ cliBand := by norm_num [cliBand]
  obtain ⟨i, p, ℓ, y, x, d, h1, h3, h4, h5, h6, -, -, h8⟩ := C111_sim E S hS hP h e c ht name rows' m hm hs τ hg qname index a b q' hq
    (by omega) (by rw [← hl]; exact hrow) args hty hu
  rw [← hl] at h5 h8
  obtain ⟨y₀, g1, g2⟩ := hrows.symm.sub h4
  have hly : ∀ {rs : List (List K)} {ℓ i p : ℕ} {y : List K}, SubOf rs ℓ i p y → y.length = ℓ := by
    rintro rs ℓ i p y ⟨r, -, hle, rfl⟩
    simp
    omega
  have hℓ : 1 ≤ ℓ := by
    by_contra hc
    have : ℓ = 0 := by omega
    subst this
    have hb := h5.1
    unfold bandWidth at hb
    have := min_le_right ⌊BandOps.mul cliBand ((max q.length 0 : ℕ) : ℕ)⌋₊ (max q.length 0 - 1)
    omega
  obtain ⟨D', hD'⟩ := dtw_of_two m hm hs hr0 (a := q) (b := y₀) (by omega) (by rw [hly g1]; exact hℓ) (.inl h2)
  rcases dtw_moved hs hδ hqq g2.symm (by omega) (by rw [hly g1]; exact hℓ) hD' h6 with ⟨-, hinf⟩ | ⟨D, x', rfl, hx', hn⟩
  · cases hinf
  · cases hx'
    refine ⟨i, p, ℓ, y₀, x, D, d, h1, h3, g1, h5, hD', hn, ?_⟩
    intro ht0 hm2 i' p' ℓ' y' x' k1 k2 k3 k4
    obtain ⟨y'', j1, j2⟩ := hrows.sub k2
    obtain ⟨z, hz⟩ := dtw_of_two m hm hs hr0 (a := q') (b := y'') (by omega) (by rw [hly j1]; omega) (.inl (by omega))
    rcases dtw_moved hs hδ hqq j2 (by omega) (by rw [hly k2]; omega) k4 hz with ⟨hinf, -⟩ | ⟨x'', z', hx'', rfl, hn'⟩
    · cases hinf
    · cases hx''
      have := h8 ht0 hm2 i' p' ℓ' y'' z' k1 j1 k3 hz
      have t1 := (abs_le.1 hn).1
      have t2 := (abs_le.1 hn').2
      linarith

/-- C118: the same for `ksimBF`: each distance shown is right of the other numbers up to `2 δ`, and no part that is not shown is nearer by more
than `4 δ` than one that is. -/
theorem C118_ksimBF [LawfulSqrt K] (E : Env K) (hA : E.A.Lawful Cand.lt) (S : Screen K) (hS : Tidy S)
    (hP : S.progress = [] ∨ S.progress.getLast? = some '\n') (h : List (Entered K))
    (e : Entered K) (c : Console K) (ht : Terminal E S Console.fresh (h ++ [e]) c) (name : String) (rows rows' : List (List K))
    (hg : LoadedBy E name h rows') (qname : String) (index a b : Int) (q q' : List K) (hq : Asks E h qname index a b q') (h1 : 1 ≤ q.length)
    (hW : WellSpaced .euclidean cliBand rows' q') (δ : K) (hδ : 0 ≤ δ) (hrows : MovedAll δ rows rows') (hqq : Moved δ q q')
    (k : ℕ) (hk : 1 ≤ k) (dist : String) (args : List String) (hty : e.Typed args)
    (hu : Usage e.env args (.call (.call (.bruteForce k name qname index a b dist)))) :
    ∃ (res : List (ℕ × ℕ × ℕ × Dbl K)) (d : ℕ), answersIn e.text = res.map (matchLine S d) ∧ res.length = min k (subCount rows') ∧
      ∀ r ∈ res, ∃ y D, SubOf rows r.2.2.1 r.1 r.2.1 y ∧ 2 ≤ r.2.2.1 ∧ Dtw .euclidean cliBand q y D ∧
        ((D = .inf ∧ r.2.2.2 = .inf) ∨ ∃ x x', D = fin x ∧ r.2.2.2 = fin x' ∧ |x' - x| ≤ 2 * δ) ∧
        ∀ i p ℓ z w, SubOf rows ℓ i p z → 2 ≤ ℓ → Dtw .euclidean cliBand q z (fin w) →
          (i, p, ℓ) ∉ res.map (fun r => (r.1, r.2.1, r.2.2.1)) → ∃ x, D = fin x ∧ x ≤ w + 4 * δ := by
  have hl := hqq.length
  have hr0 : (0 : ℚ) ≤ cliBand := by norm_num [cliBand]
  have hs : Metric.euclidean = .euclidean → LawfulSqrt K := fun _ => inferInstance
  have hly : ∀ {rs : List (List K)} {ℓ i p : ℕ} {y : List K}, SubOf rs ℓ i p y → y.length = ℓ := by
    rintro rs ℓ i p y ⟨r, -, hle, rfl⟩
    simp
    omega
  obtain ⟨res, d, k1, k2, -, k4, -, -, -, k8⟩ := C111_ksimBF E hA S hS hP h e c ht name rows' hg qname index a b q' hq (by omega) hW k hk dist
    args hty hu
  refine ⟨res, d, k1, k2, fun r hr => ?_⟩
  obtain ⟨y', g1, g2, g3⟩ := k4 r hr
  obtain ⟨y, j1, j2⟩ := hrows.symm.sub g1
  obtain ⟨D, hD⟩ := dtw_of_two .euclidean (by decide) hs hr0 (a := q) (b := y) h1 (by rw [hly j1]; omega) (.inr (by rw [hly j1]; exact g2))
  have hnear := dtw_moved hs hδ hqq j2.symm h1 (by rw [hly j1]; omega) hD g3
  refine ⟨y, D, j1, g2, hD, hnear, ?_⟩
  intro i p ℓ z w z1 z2 z3 z4
  obtain ⟨z', u1, u2⟩ := hrows.sub z1
  obtain ⟨W, hW'⟩ := dtw_of_two .euclidean (by decide) hs hr0 (a := q') (b := z') (by omega) (by rw [hly u1]; omega) (.inr (by rw [hly u1]; exact z2))
  have hle := k8 i p ℓ z' W u1 z2 hW' z4 r hr
  rcases dtw_moved hs hδ hqq u2 h1 (by rw [hly z1]; omega) z3 hW' with ⟨hinf, -⟩ | ⟨w₁, w', hw₁, rfl, hn'⟩
  · cases hinf
  cases hw₁
  rcases hnear with ⟨-, hi⟩ | ⟨x, x', rfl, hx', hn⟩
  · rw [hi] at hle
    exact absurd hle (by simp)
  · rw [hx'] at hle
    refine ⟨x, rfl, ?_⟩
    have hle' : x' ≤ w' := by simpa using hle
    have t1 := (abs_le.1 hn).1
    have t2 := (abs_le.1 hn').2
    linarith

/-- C118: if the numbers of a dataset move by at most `δ`, and are not all the same, the normalized numbers move by at most `2 δ` divided by
the difference between the greatest and the least. -/
theorem C118_normalize (ds ds' : Dataset K) (raw raw' : List (List K)) (H : Holds ds (raw.map (·.map fin)))
    (H' : Holds ds' (raw'.map (·.map fin))) (δ : K) (h : MovedAll δ raw raw') (lo hi : K) (hlo : IsLeast {x | ∃ r ∈ raw, x ∈ r} lo)
    (hhi : IsGreatest {x | ∃ r ∈ raw, x ∈ r} hi) (hR : lo < hi) :
    ∃ e e' mm mm' rows rows', ds.normalize = .ok (e, mm) ∧ ds'.normalize = .ok (e', mm') ∧ Holds e (rows.map (·.map fin)) ∧
      Holds e' (rows'.map (·.map fin)) ∧ MovedAll (2 * δ / (hi - lo)) rows rows' := by
  have hne : ∃ r ∈ raw, r ≠ [] := by
    obtain ⟨⟨r, hr, hx⟩, -⟩ := hlo
    exact ⟨r, hr, List.ne_nil_of_mem hx⟩
  have hne' : ∃ r ∈ raw', r ≠ [] := by
    obtain ⟨x', ⟨r, hr, hx⟩, -⟩ := h.mem hlo.1
    exact ⟨r, hr, List.ne_nil_of_mem hx⟩
  obtain ⟨e, lo₁, hi₁, k1, k2, k3, k4, -⟩ := C23_normalize ds raw H hne
  obtain ⟨e', lo', hi', j1, j2, j3, j4, -⟩ := C23_normalize ds' raw' H' hne'
  obtain rfl := k2.unique hlo
  obtain rfl := k3.unique hhi
  refine ⟨e, e', _, _, _, _, k1, j1, ?_, ?_, scales_moved h k2 k3 j2 j3 hR⟩
  · simpa [List.map_map, Function.comp_def] using k4
  · simpa [List.map_map, Function.comp_def] using j4

/-- C118: what is loaded at the terminal, normalized, is scaled in the same way. -/
theorem C118_scales (raw raw' rows rows' : List (List K)) (δ : K) (h : MovedAll δ raw raw') (hs : Scales raw rows) (hs' : Scales raw' rows')
    (lo hi : K) (hlo : IsLeast {x | ∃ r ∈ raw, x ∈ r} lo) (hhi : IsGreatest {x | ∃ r ∈ raw, x ∈ r} hi) (hR : lo < hi) :
    MovedAll (2 * δ / (hi - lo)) rows rows' := by
  obtain ⟨lo₁, hi₁, k2, k3, rfl⟩ := hs
  obtain ⟨lo', hi', j2, j3, rfl⟩ := hs'
  obtain rfl := k2.unique hlo
  obtain rfl := k3.unique hhi
  exact scales_moved h k2 k3 j2 j3 hR

theorem exPair_least (a b : K) (h : a ≤ b) : IsLeast {x | ∃ r ∈ [[a, b]], x ∈ r} a ∧ IsGreatest {x | ∃ r ∈ [[a, b]], x ∈ r} b := by
  refine ⟨⟨⟨[a, b], by simp, by simp⟩, ?_⟩, ⟨[a, b], by simp, by simp⟩, ?_⟩ <;> rintro x ⟨r, hr, hx⟩ <;> simp at hr <;> subst hr <;>
    simp at hx <;> rcases hx with rfl | rfl <;> first | exact le_rfl | exact h

/-- A dataset of one series of two points. -/
def exBox (a b : K) : Dataset K :=
  { data := some [fin a, fin b], names := [], lengths := [2], itemCount := 1, maxCol := 2, filePath := [], normalized := false }

theorem exBox_holds (a b : K) : Holds (exBox a b) ([[a, b]].map (·.map fin)) := by
  refine ⟨rfl, rfl, ?_, ?_⟩
  · intro i r h
    rcases i with _ | i <;> simp at h
    subst h
    simp [exBox]
  · intro i r h j x hx
    rcases i with _ | i <;> simp at h
    subst h
    rcases j with _ | _ | j <;> simp at hx <;> subst hx <;> rfl

/-- C118 is false of numbers that are all the same: however little they move, after `normalize` some move by 1. -/
theorem C118_constant_false (δ : K) (hδ : 0 < δ) : ∃ raw raw' rows rows' : List (List K), MovedAll δ raw raw' ∧ Scales raw rows ∧
    Scales raw' rows' ∧ ∀ ε, MovedAll ε rows rows' → 1 ≤ ε := by
  obtain ⟨h1, h2⟩ := exPair_least (0 : K) 0 le_rfl
  obtain ⟨h3, h4⟩ := exPair_least (0 : K) δ hδ.le
  refine ⟨[[0, 0]], [[0, δ]], _, _, ?_, ⟨0, 0, h1, h2, rfl⟩, ⟨0, δ, h3, h4, rfl⟩, ?_⟩
  · simp [MovedAll, Moved, abs_of_pos hδ, hδ.le]
  · intro ε h
    simp [MovedAll, Moved, hδ.ne, hδ.ne'] at h
    exact h.2

end

/-- C118: rounded to six digits, and then to doubles, numbers of at most `M` move by at most `51 / 10⁷ M`. -/
theorem C118_rounded (rd : ℚ → ℚ) (hd : NearDouble rd) (rows : List (List ℚ)) (ho : ∀ r ∈ rows, ∀ x ∈ r, Ordinary x) (M : ℚ)
    (hM : ∀ r ∈ rows, ∀ x ∈ r, |x| ≤ M) : MovedAll (51 / 10 ^ 7 * M) rows (rows.map (·.map fun x => rd (decimal 6 x))) := by
  unfold MovedAll Moved
  rw [List.forall₂_map_right_iff]
  refine List.forall₂_same.2 fun r hr => ?_
  rw [List.forall₂_map_right_iff]
  refine List.forall₂_same.2 fun x hx => ?_
  exact le_trans (kept_near hd (ho r hr x hx)) (mul_le_mul_of_nonneg_left (hM r hr x hx) (by norm_num))

/-- Six digits are too few for the first number, which moves by three. -/
example : MovedAll (51 / 10 ^ 7 * 1234567) exKeepRows exKeepRounded := by
  have h := C118_rounded id nearDouble_id exKeepRows exKeep_ordinary 1234567 (by decide +kernel)
  have e : exKeepRows.map (·.map fun x => id (decimal 6 x)) = exKeepRounded := by decide +kernel
  rwa [e] at h

example := C118_sim exEnv exScreen exScreen_tidy (.inl rfl) _ _ _ exEnterSim_says "d" [[11 / 10, 1, 1], [1, 9 / 10, 2]] exTermRows .chebyshev
  (by decide) (by simp) 1 exTerm_grouped "d" 1 1 3 [9 / 10, 21 / 10] [1, 2] exTerm_asks (by decide) (1 / 10) (by norm_num)
  (by simp [MovedAll, Moved, exTermRows]; norm_num [abs_le]) (by simp [Moved]; norm_num [abs_le]) ⟨[1, 1, 1], by simp [exTermRows], by decide⟩
  ["sim", "d", "d", "1", "1", "3"] (tokens_words "sim d d 1 1 3".toList) (.sim1 "d" "d" "1" "1" "3" rfl rfl rfl)

/-- C118: a dataset is saved in one session and loaded and grouped in another, and a part of it is asked for there.  What is shown is right of
the numbers of the first session, up to a hundred thousandth of the greatest of them for the distance. -/
theorem C118_kept (E : Env ℚ) (hpr : E.print = numText 6) (rd : ℚ → ℚ) (hr : ReadsNumbers E.parse rd) (hd : NearDouble rd) (S : Screen ℚ)
    (hS : Tidy S) (hP : S.progress = [] ∨ S.progress.getLast? = some '\n') (h₀ : List (Entered ℚ)) (name : String) (ns : List Text)
    (rows : List (List ℚ)) (hl : NamedBy E name ns h₀ rows) (ho : ∀ r ∈ rows, ∀ x ∈ r, Ordinary x) (M : ℚ) (hM0 : 0 ≤ M)
    (hM : ∀ r ∈ rows, ∀ x ∈ r, |x| ≤ M) (sep : Char) (hs : Separates sep) (hname : ∀ n ∈ ns, n ≠ [] ∧ sep ∉ n ∧ '\n' ∉ n) (text : Text)
    (hw : SavesAs E S h₀ name sep text)
    (h₁ h₂ h₃ : List (Entered ℚ)) (l g e : Entered ℚ) (c : Console ℚ)
    (ht : Terminal E S Console.fresh ((h₁ ++ l :: (h₂ ++ g :: h₃)) ++ [e]) c) (name' : String) (path : Text) (largs gargs args : List String)
    (hlt : l.Typed largs) (hlu : Usage l.env largs (.call (.call (.load name' (some text) path [sep] 0 0 (decide (ns ≠ [])))))) (hlf : l.Fine)
    (m : Metric) (hm : m = .manhattan ∨ m = .chebyshev) (τ : ℚ) (threads : Int) (hgt : g.Typed gargs)
    (hgu : Usage g.env gargs (.call (.group name' (fin τ) (metricName m) threads false))) (hgf : g.Fine)
    (hkeep : ∀ x ∈ h₂ ++ g :: h₃, ¬ x.Touches ["load", "unload", "normalize"] name')
    (hkeep' : ∀ x ∈ h₃, ¬ x.Touches ["load", "unload", "normalize", "group", "loadGroups"] name')
    (i : ℕ) (a b : Int) (r q : List ℚ) (hri : rows[i]? = some r) (hq : Range r a b q) (h2 : 2 ≤ q.length) (hty : e.Typed args)
    (hu : Usage e.env args (.call (.call (.bestMatch name' name' i a b)))) :
    ∃ (i p ℓ : ℕ) (y : List ℚ) (x D : ℚ) (d : ℕ), bestIn e.text = [((i : Int), (p : Int), (p : Int) + ℓ)] ∧
      afterWords "Distance = " e.text = [S.num d (fin x)] ∧ SubOf rows ℓ i p y ∧ Comparable cliBand q.length ℓ ∧
      Dtw m cliBand q y (fin D) ∧ |x - D| ≤ 102 / 10 ^ 7 * M ∧
      (0 ≤ τ → m = .chebyshev → ∀ i' p' ℓ' y' x', 2 ≤ ℓ' → SubOf rows ℓ' i' p' y' → Comparable cliBand q.length ℓ' →
        Dtw m cliBand q y' (fin x') → D ≤ x' + τ / 2 + 204 / 10 ^ 7 * M) := by
  obtain ⟨hf, -, -⟩ := C116_load E hpr rd hr S hP h₀ name ns rows hl ho sep hs hname text hw
  have hmv := C118_rounded rd hd rows ho M hM
  have hrm : r ∈ rows := List.mem_of_getElem? hri
  have hL : ∀ h, (∀ x ∈ h, ¬ x.Touches ["load", "unload", "normalize"] name') → LoadedBy E name' (h₁ ++ l :: h) _ := fun h hh =>
    .load (startCol := 0) hlt hlu hf hlf hh
  have hG : GroupedBy E (h₁ ++ l :: (h₂ ++ g :: h₃)) name' _ (metricName m) (fin τ) :=
    ⟨h₁ ++ l :: h₂, h₃, g, gargs, threads, by simp, hL h₂ fun x hx => hkeep x (by simp [hx]), hgt, hgu, hgf, hkeep'⟩
  have hA : Asks E (h₁ ++ l :: (h₂ ++ g :: h₃)) name' i a b (q.map fun x => rd (decimal 6 x)) := by
    refine ⟨_, i, r.map fun x => rd (decimal 6 x), hL _ hkeep, rfl, by simp [hri], ?_⟩
    rcases hq with ⟨ea, eb, rfl⟩ | ⟨p, e, ea, eb, k1, k2, rfl⟩
    · exact .inl ⟨ea, eb, rfl⟩
    · exact .inr ⟨p, e, ea, eb, k1, by simpa using k2, by simp [List.map_take, List.map_drop]⟩
  have hql : q.length ≤ r.length ∧ ∀ x ∈ q, x ∈ r := by
    rcases hq with ⟨ea, eb, rfl⟩ | ⟨p, e, ea, eb, k1, k2, rfl⟩
    · exact ⟨le_rfl, fun _ h => h⟩
    · exact ⟨by simp, fun x hx => List.mem_of_mem_drop (List.mem_of_mem_take hx)⟩
  have hqm : Moved (51 / 10 ^ 7 * M) q (q.map fun x => rd (decimal 6 x)) := by
    have := C118_rounded rd hd [q] (by simpa using fun x hx => ho r hrm x (hql.2 x hx)) M (by simpa using fun x hx => hM r hrm x (hql.2 x hx))
    simpa [MovedAll] using this
  obtain ⟨i, p, ℓ, y, x, D, d, k1, k2, k3, k4, k5, k6, k7⟩ := C118_sim E S hS hP _ e c ht name' rows _ m
    (by rcases hm with rfl | rfl <;> decide) (by rcases hm with rfl | rfl <;> simp) τ hG name' i a b q _ hA h2 _ (by positivity) hmv hqm
    ⟨_, List.mem_map_of_mem hrm, by simpa using hql.1⟩ args hty hu
  refine ⟨i, p, ℓ, y, x, D, d, k1, k2, k3, k4, k5, by linarith, ?_⟩
  intro t0 hc i' p' ℓ' y' x' j1 j2 j3 j4
  have := k7 t0 (.inr hc) i' p' ℓ' y' x' j1 j2 j3 j4
  rw [if_neg (by rw [hc]; decide)] at this
  linarith

/-! The file that was left by `save d f` is loaded in another session. -/

def exBackText : Text := "1.23457e+06 1 1 \n1 1 2 \n".toList

def exBackShow : CliEnv ℚ := { exShow with text := fun p => if p = "f" then some exBackText else none }

def exBackLoad : AnyCall ℚ := .call (.load "e" (some exBackText) ['f'] [' '] 0 0 false)

def exBackLoaded : Api ℚ := ((fresh : Api ℚ).exec exKeepEnv (.load "e" (some exBackText) ['f'] [' '] 0 0 false)).1

def exBackGrouped : Api ℚ × Reply ℚ :=
  match exBackLoaded.deref 0 with
  | none => (exBackLoaded, .dangling)
  | some g =>
    let out := g.groupAllLengths (GSpace.group g.ds exBackLoaded.ratio (fun _ => false) "chebyshev" (fin 1) false)
      (fun gs => (gs, .ok 0)) 1
    (exBackLoaded.store 0 out.1, .ret (out.2.map .int))

def textOf : Reply ℚ → Option Text
  | .ret (.ok (.text x)) => some x
  | _ => none

theorem textOf_some {r : Reply ℚ} {x : Text} (h : textOf r = some x) : r = .ret (.ok (.text x)) := by
  unfold textOf at h
  split at h
  · cases h; rfl
  · cases h

theorem exBack_saved : SavesAs exKeepEnv exScreen [exKeepLoad] "d" ' ' exBackText := by
  have h := says_call exKeepEnv exKeepShow ⟨exKeepApi, true, 6⟩ "save d f" (.call (.save "d" ' ')) _ (.text exBackText) rfl (by
    rw [← textOf_some (r := (exKeepApi.exec exKeepEnv (.save "d" ' ')).2) (by decide +kernel)]
    rfl)
  exact ⟨_, _, exKeepShow, "save d f", ["save", "d", "f"], _, exKeep_says, tokens_words "save d f".toList, .save0 "d" "f", h⟩

def exBackLoadLine : Entered ℚ := ⟨exBackShow, "load e f", Piece.texts exScreen (before exBackLoad ++
  (report true 6 (splitLine "load e f") exBackLoad (.info ⟨"e", 2, 3, false, false, "", 0⟩)).1 ++ [.endl])⟩

theorem exBackLoadLine_says : Terminal exKeepEnv exScreen Console.fresh [exBackLoadLine] ⟨exBackLoaded, true, 6⟩ := by
  have h := says_call exKeepEnv exBackShow Console.fresh "load e f" exBackLoad exBackLoaded (.info ⟨"e", 2, 3, false, false, "", 0⟩) rfl (by
    rw [← infoOf_some (r := ((fresh : Api ℚ).exec exKeepEnv (.load "e" (some exBackText) ['f'] [' '] 0 0 false)).2) (by decide +kernel)]
    rfl)
  exact .snoc (h := []) (.nil _) (by decide) h (by simp)

def exBackGroup : AnyCall ℚ := .group "e" (fin 1) "chebyshev" 1 false

theorem exBackGrouped_step : Api.Step exKeepEnv exBackLoaded exBackGroup exBackGrouped.1 exBackGrouped.2 := by
  have hf : mapFind exBackLoaded.datasets "e" = some 0 := by decide +kernel
  obtain ⟨g, hg⟩ : ∃ g, exBackLoaded.deref 0 = some g := Option.isSome_iff_exists.1 (by decide +kernel)
  unfold Api.Step exBackGroup GroupCall exBackGrouped
  simp only [hf, hg]
  exact ⟨fun _ => false, _, ⟨_, fun h => by omega, rfl⟩, rfl, rfl⟩

def exBackGroupLine : Entered ℚ := ⟨exBackShow, "group e 1 chebyshev", Piece.texts exScreen (before exBackGroup ++
  (report true 6 (splitLine "group e 1 chebyshev") exBackGroup (.int 5)).1 ++ [.endl])⟩

theorem exBackGroupLine_says : Terminal exKeepEnv exScreen Console.fresh [exBackLoadLine, exBackGroupLine] ⟨exBackGrouped.1, true, 4⟩ := by
  have h := says_call exKeepEnv exBackShow ⟨exBackLoaded, true, 6⟩ "group e 1 chebyshev" exBackGroup exBackGrouped.1 (.int 5) rfl (by
    rw [← intOf_some (r := exBackGrouped.2) (by decide +kernel)]
    exact exBackGrouped_step)
  exact .snoc (h := [exBackLoadLine]) exBackLoadLine_says (by decide) h (by simp)

def exBackSim : AnyCall ℚ := .call (.bestMatch "e" "e" 0 0 2)

def exBackSimLine : Entered ℚ := ⟨exBackShow, "sim e e 0 0 2", Piece.texts exScreen (before exBackSim ++
  (report true 4 (splitLine "sim e e 0 0 2") exBackSim (.cand ⟨⟨0, 0, 0, 2⟩, fin 0⟩)).1 ++ [.endl])⟩

theorem exBackSimLine_says :
    Terminal exKeepEnv exScreen Console.fresh (([] ++ exBackLoadLine :: ([] ++ exBackGroupLine :: [])) ++ [exBackSimLine]) ⟨exBackGrouped.1, true, 4⟩ := by
  have h := says_call exKeepEnv exBackShow ⟨exBackGrouped.1, true, 4⟩ "sim e e 0 0 2" exBackSim exBackGrouped.1 (.cand ⟨⟨0, 0, 0, 2⟩, fin 0⟩) rfl (by
    show exBackGrouped.1.exec exKeepEnv _ = _
    rw [← candOf_some (r := (exBackGrouped.1.exec exKeepEnv (.bestMatch "e" "e" 0 0 2)).2) (by decide +kernel)]
    rfl)
  exact .snoc exBackGroupLine_says (by decide) h (by simp)

theorem exBack_fine : exBackLoadLine.Fine ∧ exBackGroupLine.Fine := by
  unfold Entered.Fine HasLine
  decide +kernel

theorem exBack_untouched : ¬ exBackGroupLine.Touches ["load", "unload", "normalize"] "e" := by
  rintro ⟨cmd, hc, ws, hw⟩
  have : (Cli.tokens exBackGroupLine.line.toList []).head? = some cmd.toList := by rw [words_unique hw]; rfl
  simp only [List.mem_cons, List.not_mem_nil, or_false] at hc
  rcases hc with rfl | rfl | rfl <;> exact absurd this (by decide)

/-- The first two points of the first line, 1234567 and 1, are asked for in the second session. -/
example := C118_kept exKeepEnv rfl id exStod_reads nearDouble_id exScreen exScreen_tidy (.inl rfl) [exKeepLoad] "d" [] exKeepRows exKeep_named
  exKeep_ordinary 1234567 (by norm_num) (by decide +kernel) ' ' exSpace (by simp) exBackText exBack_saved [] [] [] exBackLoadLine exBackGroupLine
  exBackSimLine _ exBackSimLine_says "e" ['f'] ["load", "e", "f"] ["group", "e", "1", "chebyshev"] ["sim", "e", "e", "0", "0", "2"]
  (tokens_words "load e f".toList) (.load0 "e" "f") exBack_fine.1 .chebyshev (.inr rfl) 1 1 (tokens_words "group e 1 chebyshev".toList)
  (.group1 "e" "1" "chebyshev" rfl) exBack_fine.2 (by simpa using exBack_untouched) (by simp) 0 0 2 [1234567, 1, 1] [1234567, 1] rfl
  (.inr ⟨0, 2, rfl, rfl, by decide, by decide, rfl⟩) (by decide) (tokens_words "sim e e 0 0 2".toList)
  (.sim1 "e" "e" "0" "0" "2" rfl rfl rfl)
example : bestIn exBackSimLine.text = [(0, 0, 2)] := by decide +kernel

/-- Numbers from 1 to 2, moved by a tenth. -/
example := C118_normalize (exBox (1 : ℚ) 2) (exBox (9 / 10) 2) [[1, 2]] [[9 / 10, 2]] (exBox_holds 1 2) (exBox_holds (9 / 10) 2) (1 / 10)
  (by simp [MovedAll, Moved]; norm_num [abs_le]) 1 2 (exPair_least 1 2 (by norm_num)).1 (exPair_least 1 2 (by norm_num)).2 (by norm_num)
example := C118_constant_false (1 / 1000 : ℚ) (by norm_num)

/-- `ksimBF 1 d d 0` shows one answer; the numbers loaded, 0 and 1, were 1/10 and 9/10. -/
example : ∃ (h : List (Entered ℝ)) (T : Text) (c : Console ℝ), Terminal exRealEnv exRealScreen Console.fresh (h ++ [⟨exRealCli, "ksimBF 1 d d 0", T⟩]) c ∧
    (answersIn T).length = 1 := by
  obtain ⟨T0, c0, h0, hf⟩ := exReal_says
  have hl : LoadedBy exRealEnv "d" [⟨exRealCli, "load d g", T0⟩] [[(0 : ℝ), 1]] :=
    .load (h₁ := []) (h₂ := []) (args := ["load", "d", "g"]) (startCol := 0) (tokens_words "load d g".toList) (.load0 "d" "g") exReal_file hf (by simp)
  have hq : Asks exRealEnv [⟨exRealCli, "load d g", T0⟩] "d" 0 (-1) (-1) [(0 : ℝ), 1] := ⟨_, 0, _, hl, rfl, rfl, .inl ⟨rfl, rfl, rfl⟩⟩
  have hS : Tidy exRealScreen := ⟨by simp [exRealScreen], by simp [exRealScreen]⟩
  obtain ⟨T, c, h⟩ := C111_ksimBF_answers exRealEnv (refAlgos_lawful _) exRealScreen (.inl rfl) _ _ h0 "d" _ hl "d" 0 (-1) (-1) [0, 1] hq
    (by simp) exReal_spaced 1 le_rfl "euclidean" exRealCli "ksimBF 1 d d 0" (by decide) ["ksimBF", "1", "d", "d", "0"]
    (tokens_words "ksimBF 1 d d 0".toList) (.ksimBF0 "1" "d" "d" "0" rfl rfl)
  refine ⟨_, T, c, h, ?_⟩
  have hm : Moved (1 / 10 : ℝ) [1 / 10, 9 / 10] [0, 1] := by simp [Moved]; norm_num [abs_le]
  obtain ⟨res, d, h1, h2, -⟩ := C118_ksimBF exRealEnv (refAlgos_lawful _) exRealScreen hS (.inl rfl) _ _ _ h "d" [[1 / 10, 9 / 10]] _ hl "d" 0
    (-1) (-1) [1 / 10, 9 / 10] [0, 1] hq (by simp) exReal_spaced (1 / 10) (by norm_num) (.cons hm .nil) hm 1 le_rfl "euclidean"
    ["ksimBF", "1", "d", "d", "0"] (tokens_words "ksimBF 1 d d 0".toList) (.ksimBF0 "1" "d" "d" "0" rfl rfl)
  rw [h1, List.length_map, h2]
  simp [subCount]

end Genex.Props
