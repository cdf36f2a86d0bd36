import Verif.Lemmas.RoundedSearch
import Verif.Spec.Near

/-!
# C74: grouping and the searches in floating point

`Rounds rd` says that the distances are those of the rounded model.  Distances are right up to the relative error `e` and the absolute
error `4 θ`, which is 0 without underflow.
-/

set_option linter.unusedSectionVars false

namespace Genex.Props

open Dbl Spec

variable {K : Type} [Field K] [LinearOrder K] [IsStrictOrderedRing K] [HasSqrt K] {rd : K → K} {u θ e α : K}

theorem dtw_symm {m : Metric} (hm : m ≠ .sorensen ∧ m ≠ .cosine) (hs : m = .euclidean → LawfulSqrt K) [BandOps] {ratio : ℚ} (hr : 0 ≤ ratio)
    {a b : List K} (ha : 1 ≤ a.length) (hb : 1 ≤ b.length) {d : Dbl K} (h : Dtw m ratio a b d) : Dtw m ratio b a d := by
  rw [dtw_iff hm hs hr ha hb] at h
  rw [dtw_iff hm hs hr hb ha, ← h, C11_symmetric m hm hs ratio hr a b ha hb]

theorem dtw_nonneg {m : Metric} (hm : m ≠ .sorensen ∧ m ≠ .cosine) (hs : m = .euclidean → LawfulSqrt K) [BandOps] {ratio : ℚ}
    {a b : List K} {D : K} (h : Dtw m ratio a b (fin D)) : 0 ≤ D := by
  have hpos : (0 : K) ≤ ((2 * max a.length b.length : ℕ) : K) := by positivity
  cases m with
  | euclidean => have := hs rfl; exact LeastCost.nonneg (fun p => div_nonneg (LawfulSqrt.sqrt_nonneg (sqCost_nonneg _ _ _)) hpos) h
  | manhattan => exact LeastCost.nonneg (fun p => div_nonneg (absCost_nonneg _ _ _) hpos) h
  | chebyshev => exact LeastCost.nonneg (fun p => maxCost_nonneg _ _ _) h
  | cosine => exact absurd rfl hm.2
  | sorensen => exact absurd rfl hm.1

/-- Computed distances are near. -/
theorem computed_near (hp : FloatOps rd u θ) {m : Metric} (hm : m ≠ .sorensen ∧ m ≠ .cosine)
    (hs : m = .euclidean → LawfulSqrt K) [BandOps] {ratio : ℚ} (hr : 0 ≤ ratio) {a b : List K} (hFa : Floats rd a) (hFb : Floats rd b)
    (ha : 1 ≤ a.length) (hb : 2 ≤ b.length) (he : 12 * ((a.length + b.length : ℕ) * u) ≤ e) (h1 : e ≤ 1) {F : Dbl K} (h : Computed rd m ratio a b F) :
    NearDtw m ratio e (4 * θ) a b F := by
  obtain ⟨D, hD, hd, -⟩ := dtw_exact m hm hs ratio hr a b ha (by omega) (by omega)
  have hw := le_trans he h1
  rcases hd with rfl | ⟨D, rfl, h0⟩
  · have := (C73_infinite hp.toRounding m hm hs ratio hr a b ha (by omega)).2 hD
    exact Or.inl ⟨h.unique this, hD⟩
  · obtain ⟨x, h3, h4⟩ := C73_dtw hp m hm hs ratio hr a b hFa hFb ha (by omega) hw D hD
    exact Or.inr ⟨x, D, h.unique h3, hD, le_trans h4 (add_le_add_left (mul_le_mul_of_nonneg_right he h0) _)⟩

/-- The same with the query second. -/
theorem computed_near' (hp : FloatOps rd u θ) {m : Metric} (hm : m ≠ .sorensen ∧ m ≠ .cosine)
    (hs : m = .euclidean → LawfulSqrt K) [BandOps] {ratio : ℚ} (hr : 0 ≤ ratio) {a b : List K} (hFa : Floats rd a) (hFb : Floats rd b)
    (ha : 2 ≤ a.length) (hb : 2 ≤ b.length) (he : 12 * ((a.length + b.length : ℕ) * u) ≤ e) (h1 : e ≤ 1) {F : Dbl K} (h : Computed rd m ratio b a F) :
    NearDtw m ratio e (4 * θ) a b F := by
  rcases computed_near hp hm hs hr hFb hFa (by omega) ha (by rw [add_comm b.length]; exact he) h1 h with ⟨h2, h3⟩ | ⟨x, D, h2, h3, h4⟩
  · exact Or.inl ⟨h2, dtw_symm hm hs hr (by omega) (by omega) h3⟩
  · exact Or.inr ⟨x, D, h2, dtw_symm hm hs hr (by omega) (by omega) h3, h4⟩

theorem near_fin {m : Metric} [BandOps] {ratio : ℚ} {a b : List K} {x : K} (h : NearDtw m ratio e α a b (fin x)) :
    ∃ D, Dtw m ratio a b (.fin D) ∧ |x - D| ≤ e * D + α := by
  rcases h with ⟨h, -⟩ | ⟨x', D, h1, h2, h3⟩
  · cases h
  · cases h1
    exact ⟨D, h2, h3⟩

/-- What is not farther by the numbers is not farther up to the error. -/
theorem near_le {m : Metric} [BandOps] {ratio : ℚ} {q a b : List K} {F G : Dbl K} (h : NearDtw m ratio e α q a F) (h' : NearDtw m ratio e α q b G)
    (hle : F ≤ G) {E : K} (hE : Dtw m ratio q b (.fin E)) : ∃ D, Dtw m ratio q a (.fin D) ∧ (1 - e) * D ≤ (1 + e) * E + 2 * α := by
  rcases h' with ⟨rfl, h2⟩ | ⟨y, E', rfl, h2, h3⟩
  · have := dtw_unique hE h2
    cases this
  · have := dtw_unique hE h2
    cases this
    rcases h with ⟨rfl, -⟩ | ⟨x, D, rfl, h4, h5⟩
    · simp at hle
    · refine ⟨D, h4, ?_⟩
      rw [fin_le_fin] at hle
      have h1 := (abs_le.1 h5).1
      have h2 := (abs_le.1 h3).2
      linarith

theorem width_le (hu : 0 ≤ u) {n ℓ : ℕ} {w : Int} (hℓ : (ℓ : Int) ≤ w) (he : 12 * (((n : K) + (w : K)) * u) ≤ e) :
    12 * (((n + ℓ : ℕ) : K) * u) ≤ e := by
  refine le_trans (mul_le_mul_of_nonneg_left (mul_le_mul_of_nonneg_right ?_ hu) (by norm_num)) he
  have : ((ℓ : Int) : K) ≤ (w : K) := by exact_mod_cast hℓ
  push_cast
  push_cast at this
  linarith

theorem floats_isSub {rows : List (List K)} (h : ∀ r ∈ rows, Floats rd r) {i s t : ℕ} {x : List K} (hx : IsSub rows i s t x) :
    Floats rd x := by
  obtain ⟨r, hr, -, -, rfl⟩ := hx
  exact fun y hy => h r (List.mem_of_getElem? hr) y (List.mem_of_mem_drop (List.mem_of_mem_take hy))

theorem floats_subOf {rows : List (List K)} (h : ∀ r ∈ rows, Floats rd r) {ℓ i p : ℕ} {x : List K} (hx : SubOf rows ℓ i p x) :
    Floats rd x := by
  obtain ⟨r, hr, -, rfl⟩ := hx
  exact fun y hy => h r (List.mem_of_getElem? hr) y (List.mem_of_mem_drop (List.mem_of_mem_take hy))

theorem eight {a b θ : K} (h : a ≤ b + 2 * (4 * θ)) : a ≤ b + 8 * θ := by linarith

/-! ## The exhaustive search -/

section
variable [Arith K] [BandOps] (hE : Rounds rd) (hp : FloatOps rd u θ) (m : Metric) (hm : m ≠ .sorensen ∧ m ≠ .cosine)
  (hs : m = .euclidean → LawfulSqrt K) (ratio : ℚ) (hr : 0 ≤ ratio)

include hE hp hm hs hr

/-- C74: in floating point the exhaustive search returns `min k (number of subsequences)` distinct subsequences with their distances up
to the error in non-decreasing order, and a subsequence left out is not closer than a returned one up to the error. -/
theorem C74_topk (heps : 0 < rd eps) (A : Algos (Cand K)) (hA : A.Lawful (Cand.ltR rd))
    (ds : Dataset K) (rows : List (List K)) (H : Holds ds (rows.map (·.map fin))) (hF : ∀ r ∈ rows, Floats rd r)
    (q : List K) (hFq : Floats rd q) (hq : 1 ≤ q.length) (he : 12 * (((q.length : K) + (ds.maxCol : K)) * u) ≤ e) (he1 : e ≤ 1)
    (k : ℕ) (hk : 1 ≤ k) (hW : SpacedFor (Computed rd m ratio q) rows) :
    ∃ res, bruteForce A ratio ds (q.map fin) k (metricName m) = .ok res ∧
      res.length = min k (subCount rows) ∧
      (res.map (fun c => (c.view.index, c.view.start, c.view.stop))).Nodup ∧
      (∀ c ∈ res, ∃ (i s t : ℕ) (x : List K), IsSub rows i s t x ∧
        c.view.index = i ∧ c.view.start = s ∧ c.view.stop = t ∧
        ds.points c.view = .ok (x.map fin) ∧ NearDtw m ratio e (4 * θ) q x c.dist ∧
        ∀ i' s' t' y E, IsSub rows i' s' t' y → Dtw m ratio q y (fin E) →
          (∀ c ∈ res, ¬ (c.view.index = i' ∧ c.view.start = s' ∧ c.view.stop = t')) →
          ∃ D, Dtw m ratio q x (fin D) ∧ (1 - e) * D ≤ (1 + e) * E + 8 * θ) ∧
      res.Pairwise (fun c c' => c.dist ≤ c'.dist) := by
  have hrd := hp.toRounding
  have hu := hp.u_nonneg
  have hok : ∀ x : List K, 2 ≤ x.length → ∃ F, Computed rd m ratio q x F ∧ IsDist F ∧
      ExactEval (Arith.eval ratio (.warped m) (q.map fin) (x.map fin)) F := by
    intro x hx
    obtain ⟨F, h1, h2, h3, -⟩ := warpedR_ok hrd m hm hs ratio hr q x hq (by omega) (by omega)
    exact ⟨F, h1, h2, fun d => by rw [hE]; exact h3 d⟩
  have hlen : ∀ {i s t x}, IsSub rows i s t x → 2 ≤ x.length ∧ (x.length : Int) ≤ ds.maxCol := by
    rintro i s t x ⟨r, h1, h2, h3, rfl⟩
    have := H.fits i (r.map fin) (by rw [List.getElem?_map, h1]; rfl)
    rw [List.length_map] at this
    rw [List.length_take, List.length_drop]
    omega
  obtain ⟨res, h1, h2, h3, h4, h5, h6⟩ := topk_for (P := Computed rd m ratio q) (hA.apartR hrd heps) m ratio (fun _ _ _ => Computed.unique)
    ds rows H q hok k hk hW
  have near : ∀ {i s t x F}, IsSub rows i s t x → Computed rd m ratio q x F → NearDtw m ratio e (4 * θ) q x F := fun hx hc =>
    computed_near hp hm hs hr hFq (floats_isSub hF hx) hq (hlen hx).1 (width_le hu (hlen hx).2 he) he1 hc
  refine ⟨res, h1, h2, h3, ?_, h5⟩
  intro c hc
  obtain ⟨i, s, t, x, g1, g2, g3, g4, g5, g6⟩ := h4 c hc
  refine ⟨i, s, t, x, g1, g2, g3, g4, g5, near g1 g6, ?_⟩
  intro i' s' t' y E hy hEy hno
  obtain ⟨G, f1, -⟩ := hok y (hlen hy).1
  obtain ⟨D, d1, d2⟩ := near_le (near g1 g6) (near hy f1) (h6 i' s' t' y G hy f1 hno c hc) hEy
  exact ⟨D, d1, eight d2⟩

/-! ## Best match -/

variable (z : GSet K) (rows : List (List K)) (t : Dbl K) (whole : Bool) (hz : Ready (rows.map (·.map fin)) (metricName m) t whole z)
  (q : List K) (hF : ∀ r ∈ rows, Floats rd r) (hFq : Floats rd q) (he : 12 * (((q.length : K) + (z.ds.maxCol : K)) * u) ≤ e) (he1 : e ≤ 1)

include hz

omit hp in
/-- C74: in floating point `getBestMatch` returns under the same conditions as in exact arithmetic (`C34_returns`). -/
theorem C74_returns (hrd : Rounding rd) (hq : 2 ≤ q.length)
    (hex : (whole = false ∧ ∃ r ∈ rows, q.length ≤ r.length) ∨ ((q.length : Int) ≤ z.ds.maxCol ∧
      ∃ ℓ i p y, Considered z.ds.maxCol whole ratio q.length ℓ ∧ SubOf rows ℓ i p y)) :
    ∃ c, z.getBestMatch ratio (q.map fin) = .ok c := by
  have := rounded_evals hE
  obtain ⟨H, hmax, -, m', gs, SP, ABS, hname, hgs, U⟩ := hz.usable
  obtain rfl := metricName_inj hname
  simp only [GSet.getBestMatch, hgs]
  have hex' : (q.length : Int) ≤ z.ds.maxCol ∧
      ∃ ℓ i p y, Considered z.ds.maxCol whole ratio q.length ℓ ∧ SubOf rows ℓ i p y := by
    rcases hex with ⟨rfl, r, hr', hle⟩ | h
    · obtain ⟨i, hi⟩ := List.mem_iff_getElem?.1 hr'
      have hfit := H.fits i (r.map fin) (by rw [List.getElem?_map, hi]; rfl)
      rw [List.length_map] at hfit
      refine ⟨by omega, q.length, i, 0, _, ⟨⟨by omega, by simpa using hq⟩, ?_⟩, r, hi, by omega, rfl⟩
      unfold Comparable
      constructor <;> omega
    · exact h
  obtain ⟨hle, hex'⟩ := hex'
  obtain ⟨h, -⟩ | ⟨ℓ, hℓ, j, a, ha, -, c', hc', h, -⟩ :=
    best_cases H ratio hr m t whole U q (dists_rounded hE hrd m hm hs ratio hr q (by omega)) hq hle
  · exact absurd hex' h
  · exact ⟨_, h⟩

include hF hFq he he1 in
/-- C74: what `getBestMatch` returns in floating point is a subsequence of the dataset of a length considered, with its DTW distance up
to the error.  It is a member of a group such that, up to the error, no member of the group is nearer, and no group of a length
considered has a nearer representative. -/
theorem C74_best (c : Cand K) (hc : z.getBestMatch ratio (q.map fin) = .ok c) :
    ∃ gs, z.groups = some gs ∧ ∃ ℓ i p y x D, Considered z.ds.maxCol whole ratio q.length ℓ ∧ SubOf rows ℓ i p y ∧
      c.view = subView z.ds.maxCol i p ℓ ∧ z.ds.points c.view = .ok (y.map fin) ∧ c.dist = fin x ∧
      Dtw m ratio q y (fin D) ∧ |x - D| ≤ e * D + 4 * θ ∧
      ∃ sp g members ri rp r R, gs.spaces[ℓ]? = some (some sp) ∧ g ∈ sp.groups ∧
        g.centroid = .view (subView z.ds.maxCol ri rp ℓ) ∧ SubOf rows ℓ ri rp r ∧ Dtw m ratio q r (fin R) ∧
        LocalSpace.getMembers z.ds sp g = .ok members ∧ subView z.ds.maxCol ri rp ℓ ∈ members ∧ c.view ∈ members ∧
        (∀ i' p' y' D', subView z.ds.maxCol i' p' ℓ ∈ members → SubOf rows ℓ i' p' y' → Dtw m ratio q y' (fin D') →
          (1 - e) * D ≤ (1 + e) * D' + 8 * θ) ∧
        ∀ ℓ' sp' g' i' p' r' R', Considered z.ds.maxCol whole ratio q.length ℓ' → gs.spaces[ℓ']? = some (some sp') →
          g' ∈ sp'.groups → g'.centroid = .view (subView z.ds.maxCol i' p' ℓ') → SubOf rows ℓ' i' p' r' →
          Dtw m ratio q r' (fin R') → (1 - e) * R ≤ (1 + e) * R' + 8 * θ := by
  have := rounded_evals hE
  have hrd := hp.toRounding
  have hu := hp.u_nonneg
  obtain ⟨H, hmax, -, m', gs, SP, ABS, hname, hgs, U⟩ := hz.usable
  obtain rfl := metricName_inj hname
  refine ⟨gs, hgs, ?_⟩
  simp only [GSet.getBestMatch, hgs] at hc
  have hoth := best_other (s := z) ratio _ U.warped U.spaces.size (q.map fin)
  rw [List.length_map] at hoth
  have hq : 2 ≤ q.length := by
    by_contra h
    obtain ⟨msg, h⟩ := hoth.1 (by omega)
    rw [h] at hc; cases hc
  have hle : (q.length : Int) ≤ z.ds.maxCol := by
    by_contra h
    rcases hoth.2 hq (by omega) with h | h <;> rw [h] at hc <;> cases hc
  have hd := dists_rounded hE hrd m hm hs ratio hr q (by omega)
  obtain ⟨-, h⟩ | ⟨ℓ, hℓ, j, a, ha, hmin, c', hc', h, hleast⟩ := best_cases H ratio hr m t whole U q hd hq hle
  · rw [h] at hc; cases hc
  rw [h, Except.ok.injEq] at hc
  subst hc
  -- the subsequences of the lengths considered
  have key : ∀ ℓ, Considered z.ds.maxCol whole ratio q.length ℓ → ∀ c, SubAt (rows.map (·.map (fin : K → Dbl K))) ℓ c →
      NearDtw m ratio e (4 * θ) q (finPts rows ℓ c) (distTo (fun x => Computed rd m ratio x q) rows ℓ c) ∧
      NearDtw m ratio e (4 * θ) q (finPts rows ℓ c) (distTo (Computed rd m ratio q) rows ℓ c) ∧
      ∃ D, Dtw m ratio q (finPts rows ℓ c) (fin D) := by
    intro ℓ hcon c hsub
    have h2 := considered_two hq hle hcon
    obtain ⟨-, g2, g3⟩ := ptsAt_fin hsub
    have hFx := floats_subOf hF g3
    obtain ⟨f1, f2⟩ := (hd.distAt rows h2 (by omega)).2 c hsub
    have hw : 12 * (((q.length + (finPts rows ℓ c).length : ℕ) : K) * u) ≤ e := by rw [g2]; exact width_le hu hcon.1.1 he
    exact ⟨computed_near' hp hm hs hr hFq hFx hq (by omega) hw he1 f1, computed_near hp hm hs hr hFq hFx (by omega) (by omega) hw he1 f2,
      (comparable_finite m hm hs ratio hr q (finPts rows ℓ c) hq (by omega)).1 (by rw [g2]; exact hcon.2)⟩
  obtain ⟨n, hn, R⟩ := U.spaces.rep ℓ hℓ.1
  have h2 := considered_two hq hle hℓ
  have hmem := List.mem_of_getElem? ha
  have hsubc := R.mems a hmem c' hc'
  have hsubr := R.reps a hmem
  obtain ⟨g1, g2, g3⟩ := ptsAt_fin hsubc
  obtain ⟨-, nc, -⟩ := key ℓ hℓ c' hsubc
  obtain ⟨nr, -, -⟩ := key ℓ hℓ a.rep hsubr
  obtain ⟨x, hx⟩ := hd.finD (finPts rows ℓ c') (by omega) (by rw [g2]; exact hℓ.2)
  have hxe : distTo (Computed rd m ratio q) rows ℓ c' = fin x := hd.eqD hx
  obtain ⟨D, hD, hxD⟩ := near_fin (hxe ▸ nc)
  obtain ⟨-, -, Dr, hDr⟩ := key ℓ hℓ a.rep hsubr
  have hj : j < (SP ℓ).groups.length := by rw [R.num]; exact (List.getElem?_eq_some_iff.1 ha).1
  have hg := List.getElem?_eq_getElem hj
  refine ⟨ℓ, c'.1, c'.2, _, x, D, hℓ, g3, viewAt_eq _ _ _, ?_, hxe, hD, hxD, SP ℓ, _, _, a.rep.1, a.rep.2, _, Dr,
    U.spaces.on ℓ hℓ.1, List.getElem_mem hj, ?_, (ptsAt_fin hsubr).2.2, hDr, R.getMembers (by omega) hn H hg ha,
    List.mem_map.2 ⟨a.rep, U.repMem ℓ hℓ.1 a hmem, viewAt_eq _ _ _⟩, List.mem_map.2 ⟨c', hc', rfl⟩, ?_, ?_⟩
  · rw [← g1]
    exact hsubc.points H
  · rw [(R.grp j _ _ hg ha).centroid, viewAt_eq]
  · intro i' p' y D' hv hy hd'
    obtain ⟨c'', hc'', e'⟩ := List.mem_map.1 hv
    rw [viewAt_eq] at e'
    obtain ⟨rfl, rfl⟩ := subView_inj e'
    have hsub'' := R.mems a hmem c'' hc''
    rw [subOf_unique hy (ptsAt_fin hsub'').2.2] at hd'
    obtain ⟨D2, k1, k2⟩ := near_le nc (key ℓ hℓ c'' hsub'').2.1 (hleast c'' hc'') hd'
    have := dtw_unique hD k1
    cases this
    exact eight k2
  · intro ℓ' sp' g' i' p' y D' hcon hsp hg' hcen hy hd'
    have hon := U.spaces.on ℓ' hcon.1
    rw [hsp, Option.some.injEq, Option.some.injEq] at hon
    subst hon
    obtain ⟨n', hn', R'⟩ := U.spaces.rep ℓ' hcon.1
    obtain ⟨j', hj'⟩ := List.mem_iff_getElem?.1 hg'
    have hlt : j' < (ABS ℓ').length := by rw [← R'.num]; exact (List.getElem?_eq_some_iff.1 hj').1
    have ha' := List.getElem?_eq_getElem hlt
    have hmem' := List.mem_of_getElem? ha'
    have hsub' := R'.reps _ hmem'
    have hc2 := (R'.grp j' g' _ hj' ha').centroid
    rw [hcen, viewAt_eq, Centroid.view.injEq] at hc2
    obtain ⟨e1, e2⟩ := subView_inj hc2
    subst e1 e2
    rw [subOf_unique hy (ptsAt_fin hsub').2.2] at hd'
    obtain ⟨D2, k1, k2⟩ := near_le nr (key ℓ' hcon _ hsub').1 (hmin ℓ' hcon _ hmem') hd'
    have := dtw_unique hDr k1
    cases this
    exact eight k2

/-! ## The k best -/

include hF hFq he he1 in
/-- C74: the k-best search in floating point returns `min k (number of subsequences of comparable lengths)` different subsequences
with their distances up to the error in non-decreasing order, followed by the default-constructed entries of C39; with a
budget of at least that number, a subsequence left out is not closer than a returned one up to the error. -/
theorem C74_kbest (heps : 0 < rd eps) (A : Algos (Cand K)) (hA : A.Lawful (Cand.ltR rd)) (B : Algos (GIdx K)) (hB : B.Lawful GIdx.lt)
    (hq : 1 ≤ q.length) (hle : (q.length : Int) ≤ z.ds.maxCol) (hwide : 2 ≤ z.ds.maxCol) (hW : SpacedFor (Computed rd m ratio q) rows)
    (k h : ℕ) (hh : 1 ≤ h) (hkh : k ≤ h) :
    ∃ res : List (Cand K), z.getKBestMatches A B ratio (q.map fin) k h =
        .ok (res.map GSet.Entry.cand ++ List.replicate (k - available rows z.ds.maxCol whole ratio q.length) .pad) ∧
      res.length = min k (available rows z.ds.maxCol whole ratio q.length) ∧
      (res.map Cand.view).Nodup ∧
      (∀ c ∈ res, FoundFor (NearDtw m ratio e (4 * θ) q) rows z.ds.maxCol whole ratio q.length c.view c.dist) ∧
      res.Pairwise (fun c c' => c.dist ≤ c'.dist) ∧
      (available rows z.ds.maxCol whole ratio q.length ≤ h → ∀ v E, IsFound rows z.ds.maxCol whole m ratio q v (fin E) →
        v ∉ res.map Cand.view → ∀ c ∈ res, ∃ D, IsFound rows z.ds.maxCol whole m ratio q c.view (fin D) ∧ (1 - e) * D ≤ (1 + e) * E + 8 * θ) := by
  have := rounded_evals hE
  have hrd := hp.toRounding
  have hu := hp.u_nonneg
  have hd := dists_rounded hE hrd m hm hs ratio hr q (by omega)
  have near : ∀ {ℓ i p x F}, Considered z.ds.maxCol whole ratio q.length ℓ → SubOf rows ℓ i p x → Computed rd m ratio q x F →
      NearDtw m ratio e (4 * θ) q x F := by
    intro ℓ i p x F hcon hx hc
    have h2 := considered_wide hwide hcon
    have hl := subOf_length hx
    exact computed_near hp hm hs hr hFq (floats_subOf hF hx) (by omega) (by omega) (by rw [hl]; exact width_le hu hcon.1.1 he) he1 hc
  obtain ⟨res, h1, h2, h3, h4, h5, h6⟩ := kbest_return z rows ratio hr m t whole hz A (hA.apartR hrd heps) B hB q hd hq hle hwide hW k h hh hkh
  refine ⟨res, h1, h2, h3, ?_, h5, ?_⟩
  · intro c hc
    obtain ⟨ℓ, i, p, x, f1, f2, f3, f4⟩ := h4 c hc
    exact ⟨ℓ, i, p, x, f1, f2, f3, near f1 f2 f4⟩
  · rintro hav v E ⟨ℓ, i, p, x, f1, f2, f3, f4⟩ hv c hc
    obtain ⟨ℓ', i', p', x', f1', f2', f3', f4'⟩ := h4 c hc
    have hl := subOf_length f2
    obtain ⟨F, k1, -⟩ := warpedR_ok hrd m hm hs ratio hr q x (by omega) (by have := considered_wide hwide f1; omega)
      (by have := considered_wide hwide f1; omega)
    obtain ⟨D, d1, d2⟩ := near_le (near f1' f2' f4') (near f1 f2 k1) (h6 hav v F ⟨ℓ, i, p, x, f1, f2, f3, k1⟩ hv c hc) f4
    exact ⟨D, ⟨ℓ', i', p', x', f1', f2', f3', d1⟩, eight d2⟩

end

/-! ## Grouping -/

/-- C74: with rounded distances too, grouping partitions the subsequences of every length in range (C27). -/
theorem C74_partition [Arith K] [BandOps] (hE : Rounds rd) (s : GSet K) (rows : List (List (Dbl K)))
    (H : Holds s.ds rows) (hmax : 0 ≤ s.ds.maxCol) (ratio : ℚ) (name : String) (t : Dbl K) (whole : Bool) (log : ℕ → Bool)
    (numThreads : Int) (out : GSet K × Res Int) (ho : GSet.GroupAll ratio log name t whole numThreads s out) (N : Int)
    (hN : out.2 = .ok N) :
    ∃ gs, out.1 = { s with groups := some gs } ∧
      (∀ ℓ, InRange s.ds.maxCol whole ℓ → ∃ sp members, gs.spaces[ℓ]? = some (some sp) ∧
        sp.groups.mapM (LocalSpace.getMembers s.ds sp) = .ok members ∧
        (∀ M ∈ members, M ≠ []) ∧
        sp.groups.map Group.count = members.map (fun M => (M.length : Int)) ∧
        members.flatten.Nodup ∧
        (∀ v, v ∈ members.flatten ↔ ∃ i p y, SubOf rows ℓ i p y ∧ v = subView s.ds.maxCol i p ℓ) ∧
        (members.map List.length).sum = subsOfLength rows ℓ) ∧
      (∀ ℓ sp, gs.spaces[ℓ]? = some (some sp) → InRange s.ds.maxCol whole ℓ) := by
  have := rounded_evals hE
  exact partition_for s rows H hmax ratio name t whole log numThreads out ho N hN

/-- The computed pairwise distance as a number. -/
def pwR (rd : K → K) (m : Metric) (a b : List K) : K :=
  match pairwiseDistance (m.dmR rd) (a.map fin) (b.map fin) .inf with
  | .ok (fin x) => x
  | _ => 0

theorem pwR_near (hp : FloatOps rd u θ) {m : Metric} (hm : m ≠ .sorensen ∧ m ≠ .cosine)
    (hs : m = .euclidean → LawfulSqrt K) {a b : List K} (hFa : Floats rd a) (hFb : Floats rd b) (hl : a.length = b.length)
    (hn : 1 ≤ a.length) {w : Int}
    (hw : (a.length : Int) ≤ w) (he : 2 * (((w : K) + 4) * u) ≤ e) (he1 : e ≤ 1) :
    pairwiseDistance (m.dmR rd) (a.map fin) (b.map fin) .inf = .ok (fin (pwR rd m a b)) ∧
      |pwR rd m a b - textbook m a b| ≤ e * textbook m a b + 4 * θ ∧
      NearEval (pairwiseDistance (m.dmR rd) (a.map fin) (b.map fin)) (fin (pwR rd m a b)) (fin ((1 + e) * textbook m a b + 4 * θ)) := by
  have hrd := hp.toRounding
  have hu := hp.u_nonneg
  have hc : ((a.length : Int) : K) ≤ (w : K) := by exact_mod_cast hw
  push_cast at hc
  have hb : 2 * (((a.length + 4 : ℕ) : K) * u) ≤ e := by
    refine le_trans (mul_le_mul_of_nonneg_left (mul_le_mul_of_nonneg_right ?_ hu) (by norm_num)) he
    push_cast
    linarith
  have hnn : 0 ≤ (a.length : K) * u := mul_nonneg (Nat.cast_nonneg _) hu
  -- the value
  have val : pairwiseDistance (m.dmR rd) (a.map fin) (b.map fin) .inf = .ok (fin (pwR rd m a b)) ∧
      |pwR rd m a b - textbook m a b| ≤ e * textbook m a b + 4 * θ := by
    obtain ⟨⟨x, h1, h2⟩, ⟨y, h3, h4⟩, h5⟩ := C73_pairwise hp a b hFa hFb hl hn (le_trans hb he1)
    cases m with
    | manhattan =>
      have hx : pwR rd .manhattan a b = x := by simp only [pwR, Metric.dmR, h1]
      rw [hx]
      refine ⟨h1, le_trans h2 (add_le_add_left (mul_le_mul_of_nonneg_right hb ?_) _)⟩
      exact div_nonneg (sumabs_nonneg a b) (Nat.cast_nonneg _)
    | chebyshev =>
      have hx : pwR rd .chebyshev a b = y := by simp only [pwR, Metric.dmR, h3]
      rw [hx]
      refine ⟨h3, le_trans h4 (add_le_add_left (mul_le_mul_of_nonneg_right ?_ (maxabs_nonneg a b)) _)⟩
      push_cast at hb
      linarith
    | euclidean =>
      have hL := hs rfl
      obtain ⟨z, h6, h7⟩ := h5 hL
      have hx : pwR rd .euclidean a b = z := by simp only [pwR, Metric.dmR, h6]
      rw [hx]
      refine ⟨h6, le_trans h7 (add_le_add_left (mul_le_mul_of_nonneg_right hb ?_) _)⟩
      exact LawfulSqrt.sqrt_nonneg (div_nonneg (sumsq_nonneg a b) (Nat.cast_nonneg _))
    | cosine => exact absurd rfl hm.2
    | sorensen => exact absurd rfl hm.1
  refine ⟨val.1, val.2, fun d => ?_⟩
  have hle : (fin (pwR rd m a b) : Dbl K) ≤ fin ((1 + e) * textbook m a b + 4 * θ) := by
    rw [fin_le_fin]
    have := (abs_le.1 val.2).2
    linarith
  by_cases hme : m = .euclidean
  · subst hme
    have hL := hs rfl
    obtain ⟨F, h1, h2⟩ := euclideanR_within hrd hp.on hu a b hl hFa hFb (sq_nonneg θ) hp.θ_nonneg (le_of_eq (pow_two θ)) hb he1 d
    have h0 := val.1
    simp only [Metric.dmR] at h0 ⊢
    rw [h0, Except.ok.injEq] at h1
    subst h1
    refine h2.imp_right (fun h => ⟨lt_of_lt_of_le h.1 ?_, h.2⟩)
    rw [fin_le_fin]
    have := mul_le_mul_of_nonneg_right he1 hp.θ_nonneg
    simp only [textbook]
    linarith
  · obtain ⟨F, h1, h2⟩ := C72_pairwise_partial hrd m (by cases m <;> simp_all) a b hl d
    rw [val.1, Except.ok.injEq] at h1
    subst h1
    exact h2.imp_right (fun h => ⟨lt_of_lt_of_le h.1 hle, h.2⟩)

theorem gNear_rounded [Arith K] [BandOps] (hE : Rounds rd) (hp : FloatOps rd u θ) {m : Metric}
    (hm : m ≠ .sorensen ∧ m ≠ .cosine) (hs : m = .euclidean → LawfulSqrt K) (ratio : ℚ) (R : List (List K)) (hF : ∀ r ∈ R, Floats rd r) (ℓ : ℕ) (hl : 1 ≤ ℓ)
    {w : Int} (hw : (ℓ : Int) ≤ w) (he : 2 * (((w : K) + 4) * u) ≤ e) (he1 : e ≤ 1) :
    GNear (R.map (·.map fin)) ℓ ratio (.pairwise m) (fun r c => fin (pwR rd m (finPts R ℓ r) (finPts R ℓ c)))
      (fun r c => fin ((1 + e) * textbook m (finPts R ℓ r) (finPts R ℓ c) + 4 * θ)) := by
  intro r c hr hc
  obtain ⟨e1, l1, s1⟩ := ptsAt_fin hr
  obtain ⟨e2, l2, s2⟩ := ptsAt_fin hc
  obtain ⟨-, h2, h3⟩ := pwR_near hp hm hs (floats_subOf hF s1) (floats_subOf hF s2) (by omega : (finPts R ℓ r).length = (finPts R ℓ c).length) (by omega)
    (by omega) he he1
  refine ⟨fun d => ?_, ?_⟩
  · rw [e1, e2, hE]
    exact h3 d
  · rw [fin_le_fin]
    have := (abs_le.1 h2).2
    linarith

/-- C74: in the groups made in floating point every member is within half of the threshold of the representative, the
representatives of two groups are more than half of the threshold apart, and a member is no farther from its own representative than
from one inserted before it, all up to the error; although the euclidean distance is sometimes given up when it is not above the bound
(`C72_euclidean_false`). -/
theorem C74_radius [Arith K] [BandOps] (hE : Rounds rd) (hp : FloatOps rd u θ) (s : GSet K)
    (rows : List (List K)) (hF : ∀ r ∈ rows, Floats rd r) (H : Holds s.ds (rows.map (·.map fin))) (hmax : 0 ≤ s.ds.maxCol) (ratio : ℚ)
    (m : Metric) (hm : m ≠ .sorensen ∧ m ≠ .cosine) (hs : m = .euclidean → LawfulSqrt K) (τ : K) (hτ : 0 ≤ τ) (whole : Bool) (log : ℕ → Bool) (numThreads : Int)
    (out : GSet K × Res Int) (ho : GSet.GroupAll ratio log (metricName m) (fin τ) whole numThreads s out) (N : Int)
    (hN : out.2 = .ok N) (he : 2 * (((s.ds.maxCol : K) + 4) * u) ≤ e) (he1 : e ≤ 1) :
    ∃ gs, out.1 = { s with groups := some gs } ∧
      ∀ ℓ sp, gs.spaces[ℓ]? = some (some sp) → ∀ (j : ℕ) g, sp.groups[j]? = some g →
        ∃ ri rp x members, g.centroid = .view (subView s.ds.maxCol ri rp ℓ) ∧ SubOf rows ℓ ri rp x ∧
          LocalSpace.getMembers s.ds sp g = .ok members ∧ subView s.ds.maxCol ri rp ℓ ∈ members ∧
          (∀ v ∈ members, ∃ i p y, v = subView s.ds.maxCol i p ℓ ∧ SubOf rows ℓ i p y ∧ (1 - e) * textbook m x y ≤ τ / 2 + 4 * θ) ∧
          ∀ (j' : ℕ) g', sp.groups[j']? = some g' → j ≠ j' → ∃ ri' rp' x', g'.centroid = .view (subView s.ds.maxCol ri' rp' ℓ) ∧
            SubOf rows ℓ ri' rp' x' ∧ τ / 2 < (1 + e) * textbook m x x' + 4 * θ ∧
            ∀ i p y, subView s.ds.maxCol i p ℓ ∈ members → SubOf rows ℓ i p y → ¬ (i = ri ∧ p = rp) →
              Earlier ri rp i p ∧ (Earlier ri' rp' i p → (1 - e) * textbook m x y ≤ (1 + e) * textbook m x' y + 8 * θ) := by
  have := rounded_evals hE
  obtain ⟨m', gs, hname, rfl, rfl, G, hw⟩ := groupAll_success H hmax ho hN
  obtain rfl := metricName_inj hname
  refine ⟨gs, rfl, ?_⟩
  intro ℓ sp hsp j g hj
  have hℓ : InRange s.ds.maxCol whole ℓ := by
    by_contra hr
    have hlt : ℓ < gs.spaces.length := (List.getElem?_eq_some_iff.1 hsp).1
    have := G.size
    rw [G.off_range ℓ (by omega) hr] at hsp
    cases hsp
  obtain ⟨sp', abs, hsp', hnum, hgrp, I⟩ := grouped_for H ratio m (pwR rd m) (fun x y => (1 + e) * textbook m x y + 4 * θ) τ whole G
    hw ℓ hℓ (fun h => gNear_rounded hE hp hm hs ratio rows hF ℓ h (w := s.ds.maxCol) hℓ.1 he he1)
  rw [hsp, Option.some.injEq, Option.some.injEq] at hsp'
  subst hsp'
  have hab : ∀ (j : ℕ) g, sp.groups[j]? = some g → ∃ a, abs[j]? = some a := by
    intro j g hj
    have : j < abs.length := by rw [← hnum]; exact (List.getElem?_eq_some_iff.1 hj).1
    exact ⟨_, List.getElem?_eq_getElem this⟩
  obtain ⟨a, ha⟩ := hab j g hj
  obtain ⟨h1, h2, h3, h4, h5, h6⟩ := hgrp j g a hj ha
  have hl : 1 ≤ ℓ := range_pos hw (by
    obtain ⟨r, hr, -⟩ := h2
    rintro h
    rw [List.map_eq_nil_iff] at h
    simp [h] at hr) hℓ
  have hM := textbook_metric (K := K) m hm hs ℓ hl
  have near : ∀ {i p x i' p' y}, SubOf rows ℓ i p x → SubOf rows ℓ i' p' y → |pwR rd m x y - textbook m x y| ≤ e * textbook m x y + 4 * θ := by
    intro i p x i' p' y hx hy
    have l1 := subOf_length hx
    have l2 := subOf_length hy
    exact (pwR_near hp hm hs (floats_subOf hF hx) (floats_subOf hF hy) (by omega) (by omega) (w := s.ds.maxCol) (by rw [l1]; exact hℓ.1) he he1).2.1
  have hsep : ∀ (u v : ℕ) b b', u < v → abs[u]? = some b → abs[v]? = some b' →
      τ / 2 < (1 + e) * textbook m (finPts rows ℓ b.rep) (finPts rows ℓ b'.rep) + 4 * θ := by
    intro u v b b' huv hb hb'
    have := List.pairwise_iff_getElem.1 I.sep u v (List.getElem?_eq_some_iff.1 hb).1 (List.getElem?_eq_some_iff.1 hb').1 huv
    rw [(List.getElem?_eq_some_iff.1 hb).2, (List.getElem?_eq_some_iff.1 hb').2] at this
    simpa using this
  have hθ := hp.θ_nonneg
  refine ⟨a.rep.1, a.rep.2, _, _, h1, h2, h3, List.mem_map.2 ⟨a.rep, h5, rfl⟩, ?_, ?_⟩
  · intro v hv
    obtain ⟨c, hc, rfl⟩ := List.mem_map.1 hv
    refine ⟨c.1, c.2, _, rfl, h4 c hc, ?_⟩
    rcases I.radius a (List.mem_of_getElem? ha) c hc with rfl | h
    · rw [(hM.zero _ _ (subOf_length h2) (subOf_length h2)).2 rfl]
      linarith
    · have n1 := (abs_le.1 (near h2 (h4 c hc))).1
      rw [fin_le_fin] at h
      linarith
  · intro j' g' hj' hjj
    obtain ⟨a', ha'⟩ := hab j' g' hj'
    obtain ⟨h1', h2', -, -, -, -⟩ := hgrp j' g' a' hj' ha'
    refine ⟨a'.rep.1, a'.rep.2, _, h1', h2', ?_, ?_⟩
    · rcases Nat.lt_or_gt_of_ne hjj with h | h
      · exact hsep j j' a a' h ha ha'
      · rw [hM.symm _ _ (subOf_length h2) (subOf_length h2')]
        exact hsep j' j a' a h ha' ha
    · intro i p y hv hy hne
      obtain ⟨c, hc, e'⟩ := List.mem_map.1 hv
      obtain ⟨rfl, rfl⟩ := subView_inj e'
      have hcr : c ≠ a.rep := by rintro rfl; exact hne ⟨rfl, rfl⟩
      rw [subOf_unique hy (h4 c hc)]
      refine ⟨h6 c hc hcr, ?_⟩
      intro hEa
      have k := I.near a (List.mem_of_getElem? ha) c hc hcr a' (List.mem_of_getElem? ha') hEa
      rw [fin_le_fin] at k
      have := (abs_le.1 (near h2 (h4 c hc))).1
      linarith

/-! ## Cases

Seven digits, so that the rounding is seen. -/

section examples

local instance exArith7 : Arith ℚ := roundedArith (roundTo 7)

theorem exRounds : Rounds (K := ℚ) (roundTo 7) := fun _ _ _ _ _ => rfl

theorem exEps : (0 : ℚ) < roundTo 7 eps := by decide +kernel

theorem ex7 : FloatOps (roundTo (K := ℚ) 7) (1 / 128) 0 := by
  have := C73_digits (K := ℚ) (p := 7) (by norm_num)
  norm_num at this
  norm_num
  exact this

theorem exData_width : exData.maxCol = 3 := by decide +kernel

theorem computed_spaced {rd : ℚ → ℚ} {m : Metric} [BandOps] {ratio : ℚ} {rows : List (List ℚ)} {q : List ℚ} (L : List (Dbl ℚ))
    (h : (allCoords (rows.map List.length)).map (fun c => warpedValue (m.dmR rd) ratio (q.map fin)
      ((((rows.getD c.1 []).drop c.2.1).take (c.2.2 - c.2.1)).map fin) .inf) = L.map .ok)
    (hL : ∀ a ∈ L, ∀ b ∈ L, exGap a b = true) : SpacedFor (Computed rd m ratio q) rows := by
  have key : ∀ i s e x u, IsSub rows i s e x → Computed rd m ratio q x (fin u) → fin u ∈ L := by
    rintro i s e x u ⟨r, hr, h2, h3, rfl⟩ hd
    have : (.ok (fin u) : Res (Dbl ℚ)) ∈ L.map .ok := by
      rw [← h]
      refine List.mem_map.2 ⟨(i, s, e), mem_allCoords.2 ⟨r.length, by simp [hr], h2, h3⟩, ?_⟩
      simp only [List.getD_eq_getElem?_getD, hr, Option.getD_some]
      exact hd
    rw [List.mem_map] at this
    obtain ⟨y, hy, e⟩ := this
    rw [Except.ok.injEq] at e
    rwa [← e]
  intro i s e x i' s' e' x' u v hx hx' hu hv huv
  have := hL _ (key _ _ _ _ _ hx hu) _ (key _ _ _ _ _ hx' hv)
  simp only [exGap, decide_eq_true_eq] at this
  exact this.resolve_left huv

/-- The exact distance 5/6 is not a number of seven digits. -/
theorem exRows_spaced7 : SpacedFor (Computed (K := ℚ) (roundTo 7) .manhattan (1 / 2) [3, 2]) [[7, 2, 3], [4, 12]] :=
  computed_spaced [fin 1, fin (1 / 2), fin (107 / 128), fin (11 / 4)] (by decide +kernel) (by decide +kernel)

example := C74_topk exRounds ex7 .manhattan (by simp) (by simp) (1 / 2) (by norm_num) exEps
  (refAlgos (Cand.ltR (roundTo 7))) (refAlgos_lawful _) exData [[7, 2, 3], [4, 12]] exData_holds (by decide +kernel) [3, 2] (by decide +kernel) (by simp) (e := 1 / 2)
  (by rw [exData_width]; norm_num) (by norm_num) 2 (by simp) exRows_spaced7
example : (bruteForce (refAlgos (Cand.ltR (roundTo 7))) (1 / 2) exData [fin 3, fin 2] 2 "manhattan").map
    (fun l => l.map (fun c => (c.view.index, c.view.start, c.view.stop, c.dist))) =
    .ok [(0, 1, 3, fin (1 / 2)), (0, 0, 3, fin (107 / 128))] := by decide +kernel

/-- Grouped with threshold 10 by one thread, with rounded distances. -/
def exGrouped7 : GSet ℚ × Res Int :=
  exSet.groupAllLengths (GSpace.group exData (1 / 10) (fun _ => false) "manhattan" (fin 10) false) (fun _ => (GSpace.fresh, .ok 0)) 1

theorem exGrouped7_run : GSet.GroupAll (1 / 10) (fun _ => false) "manhattan" (fin 10) false 1 exSet exGrouped7 :=
  ⟨(GSpace.fresh, .ok 0), fun h => absurd h (by decide), rfl⟩

theorem exGrouped7_ok : exGrouped7.2 = .ok 3 := by decide +kernel

theorem exGrouped7_ready : Ready ([[7, 2, 3], [4, 12]].map (·.map (fin : ℚ → Dbl ℚ))) (metricName .manhattan) (fin 10) false
    exGrouped7.1 :=
  .grouped exSet exSet_holds exSet_max (1 / 10) (fun _ => false) 1 exGrouped7 exGrouped7_run 3 exGrouped7_ok

theorem exGrouped7_width : exGrouped7.1.ds.maxCol = 3 := by decide +kernel

example := C74_returns exRounds .manhattan (by simp) (by simp) (1 / 2) (by norm_num) exGrouped7.1 [[7, 2, 3], [4, 12]] (fin 10) false
  exGrouped7_ready [3, 2] ex7.toRounding (by simp) (Or.inl ⟨rfl, [7, 2, 3], by simp, by simp⟩)
example := C74_best exRounds ex7 .manhattan (by simp) (by simp) (1 / 2) (by norm_num) exGrouped7.1
  [[7, 2, 3], [4, 12]] (fin 10) false exGrouped7_ready [3, 2] (by decide +kernel) (by decide +kernel) (e := 1 / 2) (by rw [exGrouped7_width]; norm_num) (by norm_num)
  ⟨⟨0, 0, 0, 3⟩, fin (107 / 128)⟩ (by decide +kernel)
example := C74_kbest exRounds ex7 .manhattan (by simp) (by simp) (1 / 2) (by norm_num) exGrouped7.1
  [[7, 2, 3], [4, 12]] (fin 10) false exGrouped7_ready [3, 2] (by decide +kernel) (by decide +kernel) (e := 1 / 2) (by rw [exGrouped7_width]; norm_num) (by norm_num) exEps
  (refAlgos (Cand.ltR (roundTo 7))) (refAlgos_lawful _) (refAlgos GIdx.lt) (refAlgos_lawful _) (by simp) (by rw [exGrouped7_width]; simp)
  (by rw [exGrouped7_width]; norm_num) exRows_spaced7 2 4 (by norm_num) (by norm_num)
example := C74_partition exRounds exSet _ exSet_holds exSet_max _ _ _ _ _ _ _ exGrouped7_run 3 exGrouped7_ok
example := C74_radius exRounds ex7 exSet [[7, 2, 3], [4, 12]] (by decide +kernel) exSet_holds exSet_max (1 / 10) .manhattan (by simp)
  (by simp) 10 (by norm_num) false _ _ _ exGrouped7_run 3 exGrouped7_ok (e := 1 / 2) (by rw [show exSet.ds.maxCol = 3 from exData_width]; norm_num) (by norm_num)
example : exMembers exGrouped7 2 = some (.ok [[subView 3 0 1 2, subView 3 0 0 2], [subView 3 1 0 2]]) := by decide +kernel

end examples

/-- `double` over the reals and the euclidean metric; a million points in all give an error below `2 / 10 ^ 9`. -/
noncomputable example [Arith ℝ] [BandOps] (hE : Rounds (K := ℝ) roundDouble) (z : GSet ℝ) (rows : List (List ℝ)) (t : Dbl ℝ)
    (hz : Ready (rows.map (·.map fin)) (metricName .euclidean) t false z) (q : List ℝ) (hF : ∀ r ∈ rows, Floats roundDouble r)
    (hFq : Floats roundDouble q) (h : (q.length : ℝ) + (z.ds.maxCol : ℝ) ≤ 1000000) :=
  C74_best hE C73_double .euclidean (by simp)
    (fun _ => inferInstance) (1 / 10) (by norm_num) z rows t false hz q hF hFq (e := 2 / 10 ^ 9) (by
      have := mul_le_mul_of_nonneg_right h (by norm_num : (0 : ℝ) ≤ 1 / 2 ^ 53)
      refine le_trans (mul_le_mul_of_nonneg_left this (by norm_num)) (by norm_num)) (by norm_num)

end Genex.Props
