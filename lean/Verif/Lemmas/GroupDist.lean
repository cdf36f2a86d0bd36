import Verif.Lemmas.GroupMulti
import Verif.Lemmas.MetricLaws

/-! Grouping of finite data: the distances, and what grouping amounts to for a whole set. -/

set_option linter.unusedSectionVars false

namespace Genex

open Spec Dbl Props

section any
variable {K : Type} [Field K] [LinearOrder K] [HasSqrt K]

/-- The pairwise distances answer on series of one length. -/
class PairwiseEvals (K : Type) [Field K] [LinearOrder K] [HasSqrt K] [Arith K] : Prop where
  evals : ∀ (ratio : ℚ) (m : Metric), Evals K ratio (.pairwise m)

instance exactEvals [BandOps] : PairwiseEvals K := ⟨by
  intro ratio m x y h d
  change ∃ v, pairwiseDistance (m.dm K) x y d = .ok v
  unfold pairwiseDistance
  rw [if_neg (by simp [h])]
  exact ⟨_, rfl⟩⟩

section arith
variable [Arith K] [PairwiseEvals K]

theorem evals_pairwise (ratio : ℚ) (m : Metric) : Evals K ratio (.pairwise m) :=
  PairwiseEvals.evals ratio m

theorem range_le {maxCol : Int} {whole : Bool} {ℓ : ℕ} (h : InRange maxCol whole ℓ) : (ℓ : Int) ≤ maxCol := h.1

/-- The data hold something. -/
theorem maxCol_nonneg {ds : Dataset K} {rows : List (List (Dbl K))} (H : Holds ds rows) (hne : rows ≠ []) : 0 ≤ ds.maxCol := by
  obtain ⟨r, rs, rfl⟩ := List.exists_cons_of_ne_nil hne
  have := H.fits 0 r rfl
  omega

theorem maxCol_pos {ds : Dataset K} {rows : List (List (Dbl K))} (H : Holds ds rows) (h : ∃ r ∈ rows, r ≠ []) :
    1 ≤ ds.maxCol := by
  obtain ⟨r, hr, hn⟩ := h
  obtain ⟨i, hi⟩ := List.mem_iff_getElem?.1 hr
  have := H.fits i r hi
  have : 0 < r.length := List.length_pos_iff.2 hn
  omega

/-- The outcomes of grouping, seen from the single-threaded one. -/
theorem groupAll_cases {s : GSet K} {ratio : ℚ} {log : ℕ → Bool} {name : String} {t : Dbl K} {whole : Bool} {numThreads : Int}
    {out : GSet K × Res Int} (ho : GSet.GroupAll ratio log name t whole numThreads s out) :
    (∃ e, out.2 = .error (.genex e)) ∨
      (∃ w, out.2 = .error (.ub w) ∧ LengthUndefined s.ds ratio log name t whole GSpace.fresh w) ∨
      (1 ≤ numThreads ∧ s.ds.data ≠ none ∧ out.2 = (GSpace.group s.ds ratio log name t whole GSpace.fresh).2 ∧
        ∀ N, out.2 = .ok N → out = ({ s with groups := some (GSpace.group s.ds ratio log name t whole GSpace.fresh).1 }, .ok N)) := by
  obtain ⟨multi, hmulti, rfl⟩ := ho
  unfold GSet.groupAllLengths
  cases hdata : s.ds.data with
  | none => exact Or.inl ⟨_, rfl⟩
  | some x =>
    simp only
    by_cases h1 : numThreads = 1
    · rw [if_pos h1]
      refine Or.inr (Or.inr ⟨by omega, by simp, rfl, ?_⟩)
      intro N h
      simp only at h ⊢
      rw [h]
    · rw [if_neg h1]
      by_cases h2 : 1 < numThreads
      · rw [if_pos h2]
        rcases multi_res (n := numThreads.toNat) (by omega) (hmulti h2) with hres | ⟨w, hw, hu⟩
        case inr => exact Or.inr (Or.inl ⟨w, hw, hu⟩)
        refine Or.inr (Or.inr ⟨by omega, by simp, hres, ?_⟩)
        intro N h
        simp only at h ⊢
        rw [h] at hres
        have := multi_eq (n := numThreads.toNat) (by omega) (Prod.ext rfl hres.symm) (fun i _ => Or.inl rfl) (hmulti h2)
        rw [h, this]
      · rw [if_neg h2]
        exact Or.inl ⟨_, rfl⟩

theorem metricName_inj {m m' : Metric} (h : metricName m = metricName m') : m = m' := by
  cases m <;> cases m' <;> first | rfl | (revert h; decide +kernel)

/-- Only the five metrics can be used for grouping. -/
theorem loadDistance_name {name : String} {gs : GSpace K} :
    (∃ m, name = metricName m) ∨ ∃ e, (gs.loadDistance name).2 = .error (.genex e) := by
  by_cases h : ∃ m, name = metricName m
  · exact Or.inl h
  · right
    unfold GSpace.loadDistance
    simp only
    have hdef : ∀ n e, getDistanceFromName n = .error e → ∃ x, e = .genex x := by
      intro n e he
      unfold getDistanceFromName at he
      split at he
      · cases he
      · cases he; exact ⟨_, rfl⟩
    cases hp : getDistanceFromName name with
    | error e =>
      obtain ⟨x, rfl⟩ := hdef _ _ hp
      exact ⟨x, rfl⟩
    | ok p =>
      simp only
      have hne : ¬ name = "euclidean" := fun h' => h ⟨.euclidean, h'⟩
      rw [if_neg hne]
      cases hw : getDistanceFromName (name ++ "_dtw") with
      | error e =>
        obtain ⟨x, rfl⟩ := hdef _ _ hw
        exact ⟨x, rfl⟩
      | ok w =>
        exfalso
        have key : ∀ (l : List (String × DistRef)) n d, l.lookup n = some d → n ∈ l.map Prod.fst := by
          intro l n d hl
          induction l with
          | nil => simp at hl
          | cons x xs ih =>
            rw [List.lookup_cons] at hl
            cases hx : (n == x.1) with
            | true => simp only [beq_iff_eq] at hx; simp [hx]
            | false => rw [hx] at hl; simp [ih hl]
        have hmem : ∀ n d, getDistanceFromName n = .ok d → n ∈ (gAllDistanceName.zip gAllDistance).map Prod.fst := by
          intro n d hn
          unfold getDistanceFromName at hn
          split at hn
          · rename_i d' hd
            exact key _ n d' hd
          · cases hn
        have h1 := hmem _ _ hp
        have h2 := hmem _ _ hw
        have e : (gAllDistanceName.zip gAllDistance).map Prod.fst = gAllDistanceName := by decide +kernel
        rw [e] at h1 h2
        simp only [gAllDistanceName, List.mem_cons, List.not_mem_nil, or_false] at h1
        rcases h1 with rfl | rfl | rfl | rfl | rfl | rfl | rfl | rfl | rfl | rfl <;>
          first
          | exact h ⟨.euclidean, rfl⟩
          | exact h ⟨.manhattan, rfl⟩
          | exact h ⟨.chebyshev, rfl⟩
          | exact h ⟨.sorensen, rfl⟩
          | exact h ⟨.cosine, rfl⟩
          | (revert h2; decide +kernel)


/-- Whole series without points cannot be grouped. -/
theorem groupLength_zero {ds : Dataset K} {rows : List (List (Dbl K))} (H : Holds ds rows) (hne : rows ≠ []) (hmax : ds.maxCol = 0)
    (ratio : ℚ) (log : ℕ → Bool) (ref : DistRef) (t : Dbl K) :
    ∃ e, (GSpace.groupLength ds ratio log ref t 0).2 = .error e ∧
      ((log 0 = true → 5 ≤ rows.length) → ∃ x, e = .genex x) := by
  obtain ⟨r, rs, rfl⟩ : ∃ r rs, rows = r :: rs := by
    cases rows with
    | nil => exact absurd rfl hne
    | cons r rs => exact ⟨r, rs, rfl⟩
  have hr : r.length = 0 := by
    have := H.fits 0 r (by simp)
    omega
  unfold GSpace.groupLength
  obtain ⟨sp, e, R⟩ := Rep.new (ℓ := 0) H (n := 1) (by rw [hmax]; rfl)
  rw [e]
  simp only [LocalSpace.generateGroups]
  have hco : sp.coords ds = (0, 0) :: ((List.range rs.length).map (fun i => (i + 1, 0))) := by
    unfold LocalSpace.coords
    rw [R.sub, H.count, show ((1 : ℕ) : Int).toNat = 1 from rfl, List.length_cons, List.range_succ_eq_map (n := rs.length)]
    simp [List.range_succ]
  rw [hco]
  unfold loopS
  by_cases hl : log 0 = true ∧ sp.subCount * ds.itemCount / 5 = 0
  · refine ⟨.ub "division by zero", ?_, ?_⟩
    · simp only [LocalSpace.groupStep, if_pos hl]
      rfl
    · intro h
      have := h hl.1
      have h2 := hl.2
      rw [R.sub, H.count] at h2
      have h3 : (5 : Int) ≤ ((r :: rs).length : Int) := by exact_mod_cast this
      simp only [Nat.cast_one, one_mul] at h2
      omega
  · refine ⟨.genex "Invalid starting or ending position of a time series", ?_, fun _ => ⟨_, rfl⟩⟩
    have hlen : ds.getItemLength 0 = .ok 0 := by
      have := H.getItemLength (i := 0) (r := r) (by simp)
      simpa [hr] using this
    have hts : ds.getTimeSeries 0 0 0 = .error (.genex "Invalid starting or ending position of a time series") := by
      simp [Dataset.getTimeSeries, H.count, hlen, bind, Except.bind]
    simp [LocalSpace.groupStep, if_neg hl, LocalSpace.insert, R.len, hlen, hts, bind, Except.bind, Except.map]

/-- What a successful grouping has done. -/
theorem groupAll_success {s : GSet K} {rows : List (List (Dbl K))} (H : Holds s.ds rows) (hmax : 0 ≤ s.ds.maxCol)
    {ratio : ℚ} {name : String} {t : Dbl K} {whole : Bool} {log : ℕ → Bool} {numThreads : Int} {out : GSet K × Res Int}
    (ho : GSet.GroupAll ratio log name t whole numThreads s out) {N : Int} (hN : out.2 = .ok N) :
    ∃ m gs, name = metricName m ∧ N = gs.total ∧ out = ({ s with groups := some gs }, .ok N) ∧
      GroupedAll s.ds rows ratio m t whole gs ∧ (whole = true → rows ≠ [] → 1 ≤ s.ds.maxCol) := by
  rcases groupAll_cases ho with ⟨e, h⟩ | ⟨_, h, -⟩ | ⟨-, -, h2, h3⟩
  · rw [hN] at h; cases h
  · rw [hN] at h; cases h
  · have ho := h3 N hN
    rw [hN] at h2
    clear h3 hN
    rcases loadDistance_name (name := name) (gs := ({ GSpace.fresh with spaces := [] } : GSpace K)) with ⟨m, rfl⟩ | ⟨e, he⟩
    · have hok : ∀ ℓ, InRange s.ds.maxCol whole ℓ → ∃ N, (GSpace.groupLength s.ds ratio log (.pairwise m) t ℓ).2 = .ok N := by
        unfold GSpace.group at h2
        simp only [prepare_ok hmax] at h2
        cases hu : (GSpace.groupLoop (GSpace.groupLength s.ds ratio log (.pairwise m) t) (prepared s.ds m t whole).lengths
            (prepared s.ds m t whole)).2 with
        | error e => rw [hu] at h2; cases h2
        | ok u =>
          intro ℓ hℓ
          exact groupLoop_ok_all _ _ _ u hu ℓ ((mem_lengths (maxCol := s.ds.maxCol) hmax (by
            simp only [prepared, List.length_replicate]; omega) ℓ).2 hℓ)
      have hw : whole = true → rows ≠ [] → 1 ≤ s.ds.maxCol := by
        intro hw hne
        by_contra hlt
        have h0 : s.ds.maxCol = 0 := by omega
        obtain ⟨N, hN⟩ := hok 0 ⟨by simp [h0], by simp [hw, h0]⟩
        obtain ⟨e, he, -⟩ := groupLength_zero H hne h0 ratio log (.pairwise m) t
        rw [hN] at he; cases he
      obtain ⟨gs, e, G⟩ := group_ok H hmax ratio m t whole hw log (fun ℓ hℓ => Or.inr (hok ℓ hℓ)) (evals_pairwise ratio m)
        GSpace.fresh
      rw [e] at h2 ho
      simp only [Except.ok.injEq] at h2
      exact ⟨m, gs, rfl, h2, ho, G, hw⟩
    · exfalso
      unfold GSpace.group GSpace.prepare at h2
      simp only [he] at h2
      cases h2

/-- Grouping never does anything undefined, under the conditions named. -/
theorem groupAll_safe {s : GSet K} {rows : List (List (Dbl K))} (H : Holds s.ds rows) (hmax : 0 ≤ s.ds.maxCol)
    {ratio : ℚ} {name : String} {t : Dbl K} {whole : Bool} {log : ℕ → Bool} {numThreads : Int} {out : GSet K × Res Int}
    (ht : ∀ m, name = metricName m → ∀ ℓ, 1 ≤ ℓ → InRange s.ds.maxCol whole ℓ → SafeT rows ℓ ratio (.pairwise m) t)
    (hlog : ∀ ℓ, InRange s.ds.maxCol whole ℓ → log ℓ = true → 5 ≤ (s.ds.maxCol - ℓ + 1) * rows.length)
    (ho : GSet.GroupAll ratio log name t whole numThreads s out) :
    (∃ e, out.2 = .error (.genex e)) ∨ ∃ N, out.2 = .ok N := by
  have key : (out.2 = (GSpace.group s.ds ratio log name t whole GSpace.fresh).2 ∨
      ∃ w, LengthUndefined s.ds ratio log name t whole GSpace.fresh w) →
      (∃ e, out.2 = .error (.genex e)) ∨ ∃ N, out.2 = .ok N := by
    intro h2
    rcases loadDistance_name (name := name) (gs := ({ GSpace.fresh with spaces := [] } : GSpace K)) with ⟨m, rfl⟩ | ⟨e, he⟩
    · by_cases h0 : whole = true ∧ rows ≠ [] ∧ s.ds.maxCol = 0
      · obtain ⟨h01, h02, h03⟩ := h0
        left
        obtain ⟨e, he, hx⟩ := groupLength_zero H h02 h03 ratio log (.pairwise m) t
        obtain ⟨x, rfl⟩ := hx (fun hl => by
          have := hlog 0 ⟨by simp [h03], by simp [h01, h03]⟩ hl
          rw [h03] at this
          have h3 : (5 : Int) ≤ (rows.length : Int) := by simpa using this
          exact_mod_cast h3)
        refine ⟨x, ?_⟩
        have hlen : (prepared s.ds m t whole).lengths = [0] := by
          simp [GSpace.lengths, GSpace.minLength, prepared, h01, h03]
        rcases h2 with h2 | ⟨w, p, i, hp, hi, hu⟩
        · rw [h2]
          unfold GSpace.group
          simp only [prepare_ok hmax]
          rw [hlen]
          simp only [GSpace.groupLoop, he]
          rfl
        · exfalso
          rw [prepare_ok hmax] at hp hi
          rw [hlen, List.mem_singleton] at hi
          cases hp
          rw [hi, he] at hu
          cases hu
      · right
        have hS : ∀ ℓ, InRange s.ds.maxCol whole ℓ → SafeT rows ℓ ratio (.pairwise m) t := by
          intro ℓ hℓ
          by_cases h1 : 1 ≤ ℓ
          · exact ht m rfl ℓ h1 hℓ
          · have hr : rows = [] := by
              by_contra hne
              obtain ⟨q1, q2⟩ := hℓ
              cases whole
              · simp at q2; omega
              · simp at q2; exact h0 ⟨rfl, hne, by omega⟩
            refine Or.inr ⟨fun _ _ => fin 0, ?_, ?_⟩
            · rintro r c ⟨x, hx, -⟩; simp [hr] at hx
            · rintro r c ⟨x, hx, -⟩; simp [hr] at hx
        obtain ⟨gs, e, -⟩ := group_ok H hmax ratio m t whole (fun h1 h2 => by
            by_contra h3
            exact h0 ⟨h1, h2, by omega⟩) log (fun ℓ hℓ => Or.inl ⟨hS ℓ hℓ, hlog ℓ hℓ⟩) (evals_pairwise ratio m)
          GSpace.fresh
        rcases h2 with h2 | ⟨w, hw⟩
        · exact ⟨gs.total, by rw [h2, e]⟩
        · obtain ⟨x, hx⟩ := hw.fails
          rw [e] at hx
          cases hx
    · left
      refine ⟨e, ?_⟩
      rcases h2 with h2 | ⟨w, p, i, hp, hi, hu⟩
      · rw [h2]
        unfold GSpace.group GSpace.prepare
        simp only [he]
      · unfold GSpace.prepare at hp
        simp only [he] at hp
        cases hp
  rcases groupAll_cases ho with h | ⟨w, -, h⟩ | ⟨-, -, h2, -⟩
  · exact Or.inl h
  · exact key (Or.inr ⟨w, h⟩)
  · exact key (Or.inl h2)

/-- When grouping returns. -/
theorem groupAll_returns {s : GSet K} {rows : List (List (Dbl K))} (H : Holds s.ds rows) (hmax : 0 ≤ s.ds.maxCol)
    {ratio : ℚ} {m : Metric} {t : Dbl K} {whole : Bool} {log : ℕ → Bool} {numThreads : Int} {out : GSet K × Res Int}
    (ht : ∀ ℓ, 1 ≤ ℓ → InRange s.ds.maxCol whole ℓ → SafeT rows ℓ ratio (.pairwise m) t)
    (hlog : ∀ ℓ, InRange s.ds.maxCol whole ℓ → log ℓ = true → 5 ≤ (s.ds.maxCol - ℓ + 1) * rows.length)
    (ho : GSet.GroupAll ratio log (metricName m) t whole numThreads s out) (hd : s.ds.data ≠ none) (hn : 1 ≤ numThreads)
    (h0 : whole = true → rows ≠ [] → 1 ≤ s.ds.maxCol) : ∃ N, out.2 = .ok N := by
  have h2 : out.2 = (GSpace.group s.ds ratio log (metricName m) t whole GSpace.fresh).2 ∨
      ∃ e, (GSpace.group s.ds ratio log (metricName m) t whole GSpace.fresh).2 = .error e := by
    obtain ⟨multi, hmulti, rfl⟩ := ho
    unfold GSet.groupAllLengths
    cases hdata : s.ds.data with
    | none => exact absurd hdata hd
    | some x =>
      simp only
      by_cases h1 : numThreads = 1
      · rw [if_pos h1]; exact Or.inl rfl
      · rw [if_neg h1, if_pos (by omega)]
        exact (multi_res (n := numThreads.toNat) (by omega) (hmulti (by omega))).imp_right (fun ⟨_, _, h⟩ => h.fails)
  have hS : ∀ ℓ, InRange s.ds.maxCol whole ℓ → SafeT rows ℓ ratio (.pairwise m) t := by
    intro ℓ hℓ
    by_cases h1 : 1 ≤ ℓ
    · exact ht ℓ h1 hℓ
    · have hr : rows = [] := by
        by_contra hne
        obtain ⟨q1, q2⟩ := hℓ
        cases whole
        · simp at q2; omega
        · simp at q2
          have := h0 rfl hne
          omega
      refine Or.inr ⟨fun _ _ => fin 0, ?_, ?_⟩
      · rintro r c ⟨x, hx, -⟩; simp [hr] at hx
      · rintro r c ⟨x, hx, -⟩; simp [hr] at hx
  obtain ⟨gs, e, -⟩ := group_ok H hmax ratio m t whole h0 log (fun ℓ hℓ => Or.inl ⟨hS ℓ hℓ, hlog ℓ hℓ⟩) (evals_pairwise ratio m)
    GSpace.fresh
  rw [e] at h2
  rcases h2 with h2 | ⟨_, h2⟩
  · exact ⟨gs.total, h2⟩
  · cases h2

omit [PairwiseEvals K] in
/-- There is always some outcome. -/
theorem groupAll_exists (s : GSet K) (ratio : ℚ) (log : ℕ → Bool) (name : String) (t : Dbl K) (whole : Bool)
    (numThreads : Int) : ∃ out, GSet.GroupAll ratio log name t whole numThreads s out := by
  by_cases h : 1 < numThreads
  · have : ∃ multi, GSpace.GroupMulti s.ds ratio log name t numThreads.toNat whole GSpace.fresh multi := by
      cases hp : (GSpace.prepare s.ds name t whole GSpace.fresh).2 with
      | error e => exact ⟨_, .fails e hp⟩
      | ok p =>
        set g0 := (GSpace.prepare s.ds name t whole (GSpace.fresh : GSpace K)).1 with hg0
        have I := Pool.inv_init (n := numThreads.toNat) (groupTasks s.ds ratio log p t) (fun _ => (none, .ok 0))
          (groupOps g0.lengths) (by rw [Pool.enqs_ops]; exact lengths_nodup g0) (Pool.wf_ops _)
        obtain ⟨s', m', hr, hd⟩ := Pool.can_finish (by omega) _ _ _ 0 0 (Nat.le_refl _) I (.refl _)
        by_cases hu : ∃ i w, (s'.slot i).2 = .error (.ub w)
        · obtain ⟨i, w, hu⟩ := hu
          exact ⟨_, .undefined p hp 0 m' s' hr hd i w hu⟩
        · exact ⟨_, .runs p hp 0 m' s' hr hd (fun i w h => hu ⟨i, w, h⟩)⟩
    obtain ⟨multi, hm⟩ := this
    exact ⟨_, multi, fun _ => hm, rfl⟩
  · exact ⟨_, (GSpace.fresh, .ok 0), fun h' => absurd h' h, rfl⟩

end arith

theorem viewAt_eq (ds : Dataset K) (ℓ : ℕ) (c : ℕ × ℕ) : viewAt ds ℓ c = subView ds.maxCol c.1 c.2 ℓ := by
  simp [viewAt, viewOf, subView]

theorem viewAt_inj {ds : Dataset K} {ℓ : ℕ} {c c' : ℕ × ℕ} (h : viewAt ds ℓ c = viewAt ds ℓ c') : c = c' := by
  simp only [viewAt, viewOf, View.mk.injEq, Nat.cast_inj] at h
  exact Prod.ext h.2.1 h.2.2.1

/-- All subsequences of one length. -/
def subList (rows : List (List (Dbl K))) (ℓ : ℕ) : List (ℕ × ℕ) :=
  rows.zipIdx.flatMap (fun x => (List.range (x.1.length + 1 - ℓ)).map (fun s => (x.2, s)))

theorem mem_subList {rows : List (List (Dbl K))} {ℓ : ℕ} (c : ℕ × ℕ) : c ∈ subList rows ℓ ↔ SubAt rows ℓ c := by
  unfold subList SubAt
  simp only [List.mem_flatMap, List.mem_map, List.mem_range, Prod.exists, List.mem_zipIdx_iff_getElem?]
  constructor
  · rintro ⟨r, i, hi, s, hs, rfl⟩
    exact ⟨r, hi, by simp only; omega⟩
  · rintro ⟨r, hr, hle⟩
    exact ⟨r, c.1, hr, c.2, by omega, rfl⟩

theorem subList_nodup (rows : List (List (Dbl K))) (ℓ : ℕ) : (subList rows ℓ).Nodup := by
  unfold subList
  rw [List.nodup_flatMap]
  constructor
  · intro x _
    exact List.Nodup.map (fun a b h => (Prod.mk.inj h).2) List.nodup_range
  · have : rows.zipIdx.Pairwise (fun a b => a.2 ≠ b.2) := by
      have h2 : (rows.zipIdx.map Prod.snd).Nodup := by
        rw [List.zipIdx_map_snd]; exact List.nodup_range'
      rw [List.Nodup, List.pairwise_map] at h2
      exact h2
    refine this.imp ?_
    intro a b hab x hx hx'
    obtain ⟨s, -, rfl⟩ := List.mem_map.1 hx
    obtain ⟨s', -, h⟩ := List.mem_map.1 hx'
    exact hab (Prod.mk.inj h).1.symm

theorem subList_length (rows : List (List (Dbl K))) (ℓ : ℕ) : (subList rows ℓ).length = subsOfLength rows ℓ := by
  unfold subList subsOfLength
  rw [List.length_flatMap]
  simp only [List.length_map, List.length_range]
  congr 1
  conv_rhs => rw [← List.zipIdx_map_fst 0 rows, List.map_map]
  rfl

end any

section finite
variable {K : Type} [Field K] [LinearOrder K] [IsStrictOrderedRing K] [HasSqrt K]

/-- The points of a subsequence of finite data. -/
def finPts (R : List (List K)) (ℓ : ℕ) (c : ℕ × ℕ) : List K := ((R.getD c.1 []).drop c.2).take ℓ

theorem subAt_fin {R : List (List K)} {ℓ : ℕ} {c : ℕ × ℕ} :
    SubAt (R.map (·.map fin)) ℓ c ↔ ∃ r, R[c.1]? = some r ∧ c.2 + ℓ ≤ r.length := by
  unfold SubAt
  simp only [List.getElem?_map, Option.map_eq_some_iff]
  constructor
  · rintro ⟨r', ⟨r, hr, rfl⟩, h⟩
    exact ⟨r, hr, by simpa using h⟩
  · rintro ⟨r, hr, h⟩
    exact ⟨_, ⟨r, hr, rfl⟩, by simpa using h⟩

theorem ptsAt_fin {R : List (List K)} {ℓ : ℕ} {c : ℕ × ℕ} (h : SubAt (R.map (·.map fin)) ℓ c) :
    ptsAt (R.map (·.map fin)) ℓ c = (finPts R ℓ c).map fin ∧ (finPts R ℓ c).length = ℓ ∧ SubOf R ℓ c.1 c.2 (finPts R ℓ c) := by
  obtain ⟨r, hr, hle⟩ := subAt_fin.1 h
  have h1 : R.getD c.1 [] = r := by rw [List.getD_eq_getElem?_getD, hr]; rfl
  have h2 : (R.map (·.map (fin : K → Dbl K))).getD c.1 [] = r.map fin := by
    rw [List.getD_eq_getElem?_getD, List.getElem?_map, hr]; rfl
  refine ⟨?_, ?_, r, hr, hle, ?_⟩
  · simp only [ptsAt, finPts, h1, h2, slice, List.map_take, List.map_drop, Nat.add_sub_cancel_left]
  · simp only [finPts, h1, List.length_take, List.length_drop]; omega
  · simp only [finPts, h1]

theorem pairwise_textbook (m : Metric) (hm : m ≠ .sorensen ∧ m ≠ .cosine) (a b : List K) (hl : a.length = b.length)
    (hp : 1 ≤ a.length) : pairwiseDistance (m.dm K) (a.map fin) (b.map fin) .inf = .ok (fin (textbook m a b)) := by
  cases m with
  | euclidean => exact C03_euclidean a b hl hp
  | manhattan => exact C03_manhattan a b hl hp
  | chebyshev => exact C03_chebyshev a b hl hp
  | cosine => exact absurd rfl hm.2
  | sorensen => exact absurd rfl hm.1

theorem pairwise_exact (m : Metric) (hm : m ≠ .sorensen ∧ m ≠ .cosine) (hs : m = .euclidean → LawfulSqrt K) (a b : List K)
    (hl : a.length = b.length) (hp : 1 ≤ a.length) :
    ExactEval (pairwiseDistance (m.dm K) (a.map fin) (b.map fin)) (fin (textbook m a b)) := by
  have hD : ∀ d, DropExact (fun d => pairwiseDistance (m.dm K) (a.map fin) (b.map fin) d) d := by
    intro d
    cases m with
    | euclidean => have := hs rfl; exact drop_euclidean a b hl d
    | manhattan => exact drop_manhattan a b hl d
    | chebyshev => exact drop_chebyshev a b hl d
    | cosine => exact absurd rfl hm.2
    | sorensen => exact absurd rfl hm.1
  intro d
  obtain ⟨F, h1, h2⟩ := hD d
  simp only [pairwise_textbook m hm a b hl hp, Except.ok.injEq] at h1
  subst h1
  exact h2

theorem textbook_metric (m : Metric) (hm : m ≠ .sorensen ∧ m ≠ .cosine) (hs : m = .euclidean → LawfulSqrt K) (n : ℕ)
    (hn : 1 ≤ n) : MetricOn n (textbook m : List K → List K → K) := by
  have hI : IsMetric (m.dm K) := by
    cases m with
    | euclidean => have := hs rfl; exact C10_euclidean
    | manhattan => exact C10_manhattan
    | chebyshev => exact C10_chebyshev
    | cosine => exact absurd rfl hm.2
    | sorensen => exact absurd rfl hm.1
  obtain ⟨D, M, hD⟩ := hI n hn
  have heq : ∀ a b : List K, a.length = n → b.length = n → textbook m a b = D a b := by
    intro a b ha hb
    have h1 := hD a b ha hb
    rw [pairwise_textbook m hm a b (by omega) (by omega), Except.ok.injEq, Dbl.fin.injEq] at h1
    exact h1
  obtain ⟨m1, m2, m3, m4⟩ := M
  refine ⟨?_, ?_, ?_, ?_⟩
  · intro a b ha hb; rw [heq a b ha hb]; exact m1 a b ha hb
  · intro a b ha hb; rw [heq a b ha hb]; exact m2 a b ha hb
  · intro a b ha hb; rw [heq a b ha hb, heq b a hb ha]; exact m3 a b ha hb
  · intro a b c ha hb hc
    rw [heq a c ha hc, heq a b ha hb, heq b c hb hc]; exact m4 a b c ha hb hc

theorem gNear_fin (m : Metric) (hm : m ≠ .sorensen ∧ m ≠ .cosine) (hs : m = .euclidean → LawfulSqrt K) (ratio : ℚ)
    (R : List (List K)) (ℓ : ℕ) (hl : 1 ≤ ℓ) :
    GNear (R.map (·.map fin)) ℓ ratio (.pairwise m) (fun r c => fin (textbook m (finPts R ℓ r) (finPts R ℓ c)))
      (fun r c => fin (textbook m (finPts R ℓ r) (finPts R ℓ c))) := by
  intro r c hr hc
  obtain ⟨e1, l1, -⟩ := ptsAt_fin hr
  obtain ⟨e2, l2, -⟩ := ptsAt_fin hc
  refine ⟨?_, by simp⟩
  rw [e1, e2]
  exact pairwise_exact m hm hs _ _ (by omega) (by omega)

end finite

end Genex
