import Verif.Lemmas.Units
import Verif.Lemmas.ArithCongr
import Verif.Lemmas.SearchDist
import Verif.Lemmas.GroupMulti

/-!
# Lemmas: groups and searches in other units
-/

set_option linter.unusedSectionVars false

namespace Genex

open Spec Dbl Props

variable {K : Type} [Field K] [LinearOrder K] [IsStrictOrderedRing K]

/-- A distance in another unit. -/
def inUnit (t : K) : Dbl K → Dbl K
  | .fin x => .fin (t * x)
  | d => d

theorem inUnit_lt {t : K} (ht : 0 < t) {a b : Dbl K} : inUnit t a < inUnit t b ↔ a < b := by
  cases a <;> cases b <;> simp [inUnit, ht]

theorem inUnit_half (t : K) (d : Dbl K) : inUnit t d / fin 2 = inUnit t (d / fin 2) := by
  have h2 : (2 : K) ≠ 0 := two_ne_zero
  cases d with
  | fin x =>
    change (if (2 : K) = 0 then _ else fin (t * x / 2)) = inUnit t (if (2 : K) = 0 then _ else fin (x / 2))
    rw [if_neg h2, if_neg h2]
    simp [inUnit, mul_div_assoc]
  | nan => rfl
  | inf =>
    have : (Dbl.inf : Dbl K) / fin 2 = .inf := by change Dbl.div _ _ = _; simp [Dbl.div, infTimes]
    simp only [inUnit, this]
  | ninf =>
    have : (Dbl.ninf : Dbl K) / fin 2 = .ninf := by change Dbl.div _ _ = _; simp [Dbl.div, infTimes]
    simp only [inUnit, this]

/-- The same distance in two units. -/
def SameIn (t : K) (f f' : Dbl K → Res (Dbl K)) : Prop :=
  (∃ e, (∀ d, f d = .error e) ∧ ∀ d, f' d = .error e) ∨ ∃ F, ExactEval f F ∧ ExactEval f' (inUnit t F)

theorem SameIn.step {t : K} (ht : 0 < t) {f f' : Dbl K → Res (Dbl K)} (h : SameIn t f f') (b : Dbl K) :
    (∃ e, f b = .error e ∧ f' (inUnit t b) = .error e) ∨ (∃ x, f b = .ok x ∧ f' (inUnit t b) = .ok (inUnit t x) ∧ x < b) ∨
      ∃ x x', f b = .ok x ∧ f' (inUnit t b) = .ok x' ∧ ¬ x < b ∧ ¬ x' < inUnit t b := by
  rcases h with ⟨e, h, h'⟩ | ⟨F, h, h'⟩
  · exact .inl ⟨e, h _, h' _⟩
  · have hinf : ∀ d : Dbl K, ¬ Dbl.inf < d := by intro d; cases d <;> simp
    by_cases hF : F < b
    · refine .inr (.inl ⟨F, ?_, ?_, hF⟩)
      · rcases h b with e | ⟨hlt, -⟩
        · exact e
        · exact absurd hF (Dbl.lt_asymm hlt)
      · rcases h' (inUnit t b) with e | ⟨hlt, -⟩
        · exact e
        · exact absurd hF (Dbl.lt_asymm ((inUnit_lt ht).1 hlt))
    · refine .inr (.inr ?_)
      have h1 : ∃ x, f b = .ok x ∧ ¬ x < b := by
        rcases h b with e | ⟨-, e⟩
        · exact ⟨F, e, hF⟩
        · exact ⟨_, e, hinf _⟩
      have h2 : ∃ x, f' (inUnit t b) = .ok x ∧ ¬ x < inUnit t b := by
        rcases h' (inUnit t b) with e | ⟨-, e⟩
        · exact ⟨_, e, fun hl => hF ((inUnit_lt ht).1 hl)⟩
        · exact ⟨_, e, hinf _⟩
      obtain ⟨x, k1, k2⟩ := h1
      obtain ⟨x', k1', k2'⟩ := h2
      exact ⟨x, x', k1, k1', k2, k2'⟩

theorem bestLoop_units {t : K} (ht : 0 < t) {f f' : Group K → Dbl K → Res (Dbl K)} : ∀ (gs : List (Group K)) (i : ℕ) (b : Dbl K) (o : Option ℕ),
    (∀ g ∈ gs, SameIn t (f g) (f' g)) →
    bestLoop f' gs i (inUnit t b, o) = (bestLoop f gs i (b, o)).map fun r => (inUnit t r.1, r.2)
  | [], _, _, _, _ => rfl
  | g :: gs, i, b, o, h => by
    have ih := bestLoop_units ht (f := f) (f' := f') gs (i + 1)
    have hr := fun x hx => h x (List.mem_cons_of_mem g hx)
    simp only [bestLoop, bind, Except.bind]
    rcases (h g (by simp)).step ht b with ⟨e, h1, h2⟩ | ⟨x, h1, h2, h3⟩ | ⟨x, x', h1, h2, h3, h4⟩
    · rw [h1, h2]; rfl
    · rw [h1, h2]
      simp only [if_pos h3, if_pos ((inUnit_lt ht).2 h3)]
      exact ih _ _ hr
    · rw [h1, h2]
      simp only [if_neg h3, if_neg h4]
      exact ih _ _ hr

/-- Two datasets of the same shape with the same numbers in two units. -/
structure Twin (s c : K) (ds ds' : Dataset K) : Prop where
  item : ds'.itemCount = ds.itemCount
  lens : ds'.lengths = ds.lengths
  max : ds'.maxCol = ds.maxCol
  pts : ∀ i a b v, 0 ≤ a → ds.getTimeSeries i a b = .ok v → ∃ y : List K, ds.points v = .ok (y.map fin) ∧
    ds'.points v = .ok ((y.map fun x => s * x + c).map fin) ∧ (y.length : Int) = b - a ∧ 1 ≤ y.length

theorem Spec.ConvertedAll.twin {s c : K} {ds ds' : Dataset K} {rows rows' : List (List K)} (H : Holds ds (rows.map (·.map fin)))
    (H' : Holds ds' (rows'.map (·.map fin))) (h : ConvertedAll s c rows rows') (hm : ds'.maxCol = ds.maxCol) : Twin s c ds ds' := by
  have e := h.map
  subst e
  refine ⟨?_, ?_, hm, ?_⟩
  · rw [H.count, H'.count]; simp
  · rw [H.lens, H'.lens]; simp [Function.comp_def]
  · intro i a b v ha hv
    unfold Dataset.getTimeSeries at hv
    split at hv
    · cases hv
    rename_i hi
    rw [if_neg (by omega)] at hv
    push Not at hi
    obtain ⟨i, rfl⟩ := Int.eq_ofNat_of_zero_le hi.1
    have hil : i < rows.length := by
      have := hi.2
      rw [H.count] at this
      simp at this
      exact this
    have hr : (rows.map (·.map (fin : K → Dbl K)))[i]? = some (rows[i].map fin) := by simp [hil]
    have hr' : ((rows.map (·.map fun x => s * x + c)).map (·.map (fin : K → Dbl K)))[i]? = some ((rows[i].map fun x => s * x + c).map fin) := by
      simp [hil]
    have hgl := H.getItemLength hr
    rw [hgl] at hv
    simp only [bind, Except.bind] at hv
    split at hv
    · cases hv
    rename_i hb
    cases hv
    push Not at hb
    obtain ⟨a, rfl⟩ := Int.eq_ofNat_of_zero_le ha
    obtain ⟨b, rfl⟩ := Int.eq_ofNat_of_zero_le (show 0 ≤ b by omega)
    have hb' : b ≤ rows[i].length := by
      have := hb.2.2
      simpa using this
    have hab : a < b := by
      have := hb.2.1
      simpa using this
    refine ⟨(rows[i].drop a).take (b - a), ?_, ?_, ?_, ?_⟩
    · refine (H.points (s := a) (e := b) hr (by simpa using hb')).trans ?_
      simp [slice, List.map_take, List.map_drop]
    · have := H'.points (s := a) (e := b) hr' (by simpa using hb')
      rw [hm] at this
      refine this.trans ?_
      simp [slice, List.map_take, List.map_drop]
    · simp only [List.length_take, List.length_drop]
      have : min (b - a) (rows[i].length - a) = b - a := by omega
      rw [this]
      omega
    · simp only [List.length_take, List.length_drop]
      omega

section
variable {s c : K} {ds ds' : Dataset K} (T : Twin s c ds ds')
include T

theorem Twin.getItemLength : ds'.getItemLength = ds.getItemLength := by
  funext i
  unfold Dataset.getItemLength
  rw [T.lens]

theorem Twin.getTimeSeries : ds'.getTimeSeries = ds.getTimeSeries := by
  funext i a b
  unfold Dataset.getTimeSeries
  rw [T.getItemLength, T.item, T.max]

theorem Twin.new (ℓ : Int) : LocalSpace.new ds' ℓ = LocalSpace.new ds ℓ := by
  unfold LocalSpace.new
  rw [T.item, T.max]

theorem Twin.pushGroup (sp : LocalSpace K) (p : Int × Int) : LocalSpace.pushGroup ds' sp p = LocalSpace.pushGroup ds sp p := by
  unfold LocalSpace.pushGroup
  rw [T.getTimeSeries]

end

/-- The representatives are parts of the dataset. -/
def RefersTo (ds : Dataset K) (sp : LocalSpace K) : Prop :=
  ∀ g ∈ sp.groups, ∃ v i a, g.centroid = .view v ∧ 0 ≤ a ∧ ds.getTimeSeries i a (a + sp.length) = .ok v

theorem refers_addMember {ds : Dataset K} {sp sp' : LocalSpace K} (hsp : RefersTo ds sp) {gi : ℕ} {c : Int × Int}
    (h : sp.addMember gi c = .ok sp') : RefersTo ds sp' ∧ sp'.length = sp.length ∧ sp'.subCount = sp.subCount := by
  unfold LocalSpace.addMember at h
  cases hg : sp.groups[gi]? with
  | none => rw [hg] at h; cases h
  | some g =>
    rw [hg] at h
    simp only [bind, Except.bind] at h
    cases hc : sp.cell c with
    | error e => rw [hc] at h; cases h
    | ok m =>
      rw [hc] at h
      simp only [Except.ok.injEq] at h
      subst h
      refine ⟨?_, rfl, rfl⟩
      intro g' hg'
      simp only at hg'
      rcases List.mem_or_eq_of_mem_set hg' with h' | rfl
      · exact hsp g' h'
      · exact hsp g (List.mem_of_getElem? hg)

section
variable [HasSqrt K] [BandOps] {s c : K} {ds ds' : Dataset K} {ratio : ℚ} {m : Metric}

theorem pairwise_units (hm : m ≠ .sorensen ∧ m ≠ .cosine) (hs : m = .euclidean → LawfulSqrt K) (a b : List K) (ha : 1 ≤ a.length) :
    SameIn |s| (Arith.eval ratio (.pairwise m) (a.map fin) (b.map fin))
      (Arith.eval ratio (.pairwise m) ((a.map fun x => s * x + c).map fin) ((b.map fun x => s * x + c).map fin)) := by
  by_cases hl : a.length = b.length
  · refine .inr ⟨_, pairwise_exact m hm hs a b hl ha, ?_⟩
    have h1 := pairwise_exact m hm hs (a.map fun x => s * x + c) (b.map fun x => s * x + c) (by simpa using hl) (by simpa using ha)
    have e : textbook m (a.map fun x => s * x + c) (b.map fun x => s * x + c) = |s| * textbook m a b := by
      cases m with
      | euclidean =>
        have := hs rfl
        have h0 : 0 ≤ (List.zipWith (fun x y => (x - y) ^ 2) a b).sum / (a.length : K) := div_nonneg (sumsq_nonneg a b) (Nat.cast_nonneg _)
        simp only [textbook, rms, zip_sq_converted, List.length_map, mul_div_assoc, sqrt_mul_sq (abs_nonneg s) h0]
      | manhattan => simp only [textbook, meanAbs, zip_abs_converted, sum_mul_left', List.length_map, mul_div_assoc]
      | chebyshev => simp only [textbook, maxAbs, zip_abs_converted, foldr_max_scaled (abs_nonneg s)]
      | cosine => exact absurd rfl hm.2
      | sorensen => exact absurd rfl hm.1
    rw [e] at h1
    exact h1
  · refine .inl ⟨.genex "Two time series must have the same length for pairwise distance", fun d => ?_, fun d => ?_⟩
    · simp only [Arith.eval, DistRef.eval, pairwiseDistance, List.length_map]
      rw [if_pos hl]
    · simp only [Arith.eval, DistRef.eval, pairwiseDistance, List.length_map]
      rw [if_pos hl]

theorem distance_units (T : Twin s c ds ds') (hm : m ≠ .sorensen ∧ m ≠ .cosine) (hs : m = .euclidean → LawfulSqrt K) (y : List K)
    {ℓ : Int} {g : Group K} (hg : ∃ v i a, g.centroid = .view v ∧ 0 ≤ a ∧ ds.getTimeSeries i a (a + ℓ) = .ok v) :
    SameIn |s| (Group.distance ds ratio (.pairwise m) (y.map fin) g)
      (Group.distance ds' ratio (.pairwise m) ((y.map fun x => s * x + c).map fin) g) := by
  obtain ⟨v, i, a, h1, h2, h3⟩ := hg
  obtain ⟨z, k1, k2, -, k3⟩ := T.pts _ _ _ _ h2 h3
  have := pairwise_units (s := s) (c := c) (ratio := ratio) hm hs z y k3
  unfold Group.distance Group.centroidPts
  simp only [h1, k1, k2, bind, Except.bind]
  exact this

theorem insert_units (T : Twin s c ds ds') (hs0 : s ≠ 0) (hm : m ≠ .sorensen ∧ m ≠ .cosine) (hs : m = .euclidean → LawfulSqrt K) (t : Dbl K)
    {sp : LocalSpace K} (hsp : RefersTo ds sp) (p : Int × Int) (hp : 0 ≤ p.2) :
    LocalSpace.insert ds' ratio (.pairwise m) (inUnit |s| t) sp p = LocalSpace.insert ds ratio (.pairwise m) t sp p := by
  have hpos : 0 < |s| := abs_pos.2 hs0
  unfold LocalSpace.insert
  rw [T.getTimeSeries]
  simp only [bind, Except.bind]
  cases hv : ds.getTimeSeries p.1 p.2 (p.2 + sp.length) with
  | error e => rfl
  | ok v =>
    obtain ⟨y, k1, k2, -⟩ := T.pts _ _ _ _ hp hv
    simp only [k1, k2]
    have hb := bestLoop_units hpos (f := Group.distance ds ratio (.pairwise m) (y.map fin))
      (f' := Group.distance ds' ratio (.pairwise m) ((y.map fun x => s * x + c).map fin)) sp.groups 0 .inf none
      (fun g hg => distance_units T hm hs y (hsp g hg))
    rw [show ((Dbl.inf : Dbl K), (none : Option ℕ)) = (inUnit |s| .inf, none) from rfl, hb]
    simp only [show inUnit |s| (Dbl.inf : Dbl K) = .inf from rfl]
    cases bestLoop (Group.distance ds ratio (.pairwise m) (y.map fin)) sp.groups 0 (.inf, none) with
    | error e => rfl
    | ok b =>
      simp only [Except.map, inUnit_half, inUnit_lt hpos, T.pushGroup]

theorem refers_insert [Arith K] {ref : DistRef} {t : Dbl K} {sp sp' : LocalSpace K} (hsp : RefersTo ds sp) {p : Int × Int} (hp : 0 ≤ p.2)
    (h : LocalSpace.insert ds ratio ref t sp p = .ok sp') : RefersTo ds sp' := by
  unfold LocalSpace.insert at h
  simp only [bind, Except.bind] at h
  split at h
  · cases h
  split at h
  · cases h
  split at h
  · cases h
  split at h
  · unfold LocalSpace.pushGroup at h
    simp only [bind, Except.bind] at h
    split at h
    · cases h
    · rename_i sp1 h1
      split at h1
      · cases h1
      · rename_i v hv
        simp only [Except.ok.injEq] at h1
        subst h1
        refine (refers_addMember (fun g hg => ?_) h).1
        simp only [List.mem_append, List.mem_singleton] at hg
        rcases hg with hg | rfl
        · exact hsp g hg
        · exact ⟨v, _, _, rfl, hp, hv⟩
  · split at h
    · cases h
    · exact (refers_addMember hsp h).1

theorem groupStep_units (T : Twin s c ds ds') (hs0 : s ≠ 0) (hm : m ≠ .sorensen ∧ m ≠ .cosine) (hs : m = .euclidean → LawfulSqrt K) (t : Dbl K)
    (log : Bool) {sp : LocalSpace K} (hsp : RefersTo ds sp) (p : ℕ × ℕ) :
    LocalSpace.groupStep ds' ratio (.pairwise m) (inUnit |s| t) log sp p = LocalSpace.groupStep ds ratio (.pairwise m) t log sp p := by
  unfold LocalSpace.groupStep
  rw [T.item, T.getItemLength]
  split
  · rfl
  · simp only [bind, Except.bind]
    cases ds.getItemLength p.1 with
    | error e => rfl
    | ok len =>
      simp only
      split
      · rfl
      · exact insert_units T hs0 hm hs t hsp _ (by simp)

theorem refers_groupStep [Arith K] {ref : DistRef} {t : Dbl K} {log : Bool} {sp sp' : LocalSpace K} (hsp : RefersTo ds sp) {p : ℕ × ℕ}
    (h : LocalSpace.groupStep ds ratio ref t log sp p = .ok sp') : RefersTo ds sp' := by
  unfold LocalSpace.groupStep at h
  split at h
  · cases h
  · simp only [bind, Except.bind] at h
    split at h
    · cases h
    · split at h
      · cases h; exact hsp
      · exact refers_insert hsp (by simp) h

theorem groupLength_units (T : Twin s c ds ds') (hs0 : s ≠ 0) (hm : m ≠ .sorensen ∧ m ≠ .cosine) (hs : m = .euclidean → LawfulSqrt K) (t : Dbl K)
    (log : ℕ → Bool) (i : ℕ) :
    GSpace.groupLength ds' ratio log (.pairwise m) (inUnit |s| t) i = GSpace.groupLength ds ratio log (.pairwise m) t i := by
  unfold GSpace.groupLength
  rw [T.new]
  cases hn : LocalSpace.new ds i with
  | error e => rfl
  | ok sp =>
    have hsp : RefersTo ds sp := by
      unfold LocalSpace.new at hn
      simp only at hn
      split at hn
      · cases hn
      · cases hn; intro g hg; cases hg
    simp only [LocalSpace.generateGroups]
    have h1 := loopS_congr (P := RefersTo ds) (f := LocalSpace.groupStep ds ratio (.pairwise m) t (log i))
      (g := LocalSpace.groupStep ds' ratio (.pairwise m) (inUnit |s| t) (log i))
      (fun sp p h => (groupStep_units T hs0 hm hs t (log i) h p).symm) (fun sp p sp' h e => refers_groupStep h e) (sp.coords ds) sp hsp
    have h2 : sp.coords ds' = sp.coords ds := by
      unfold LocalSpace.coords
      rw [T.item]
    rw [h2, h1.1]

omit [IsStrictOrderedRing K] [HasSqrt K] [BandOps] in
theorem groupLoop_threshold (f : ℕ → Option (LocalSpace K) × Res ℕ) (x : Option (Dbl K)) : ∀ (is : List ℕ) (gs : GSpace K),
    GSpace.groupLoop f is { gs with threshold := x } = ({ (GSpace.groupLoop f is gs).1 with threshold := x }, (GSpace.groupLoop f is gs).2)
  | [], _ => rfl
  | i :: is, gs => by
    simp only [GSpace.groupLoop]
    cases (f i).2 with
    | error e => rfl
    | ok n => exact groupLoop_threshold f x is { gs with spaces := gs.spaces.set i (f i).1, total := gs.total + n }

theorem group_units (T : Twin s c ds ds') (hmax : 0 ≤ ds.maxCol) (hs0 : s ≠ 0) (hm : m ≠ .sorensen ∧ m ≠ .cosine)
    (hs : m = .euclidean → LawfulSqrt K) (t : Dbl K) (log : ℕ → Bool) (whole : Bool) (gs : GSpace K) :
    GSpace.group ds' ratio log (metricName m) (inUnit |s| t) whole gs =
      ({ (GSpace.group ds ratio log (metricName m) t whole gs).1 with threshold := some (inUnit |s| t) },
       (GSpace.group ds ratio log (metricName m) t whole gs).2) := by
  unfold GSpace.group
  simp only [prepare_ok hmax, prepare_ok (show 0 ≤ ds'.maxCol by rw [T.max]; exact hmax)]
  have e1 : prepared ds' m (inUnit |s| t) whole = { prepared ds m t whole with threshold := some (inUnit |s| t) } := by
    simp only [prepared, T.max]
  have e2 : (prepared ds' m (inUnit |s| t) whole).lengths = (prepared ds m t whole).lengths := by rw [e1]; rfl
  rw [e2, e1, funext (groupLength_units T hs0 hm hs t log), groupLoop_threshold]

/-! ### The search -/

omit [Field K] [LinearOrder K] [IsStrictOrderedRing K] [HasSqrt K] [BandOps] in
theorem foldlM_units {σ ι : Type} {f g : σ → ι → Res σ} (φ : σ → σ) (P : σ → Prop) : ∀ (l : List ι) (x : σ), P x →
    (∀ y, ∀ i ∈ l, P y → g (φ y) i = (f y i).map φ) → (∀ y i z, i ∈ l → P y → f y i = .ok z → P z) →
    l.foldlM g (φ x) = (l.foldlM f x).map φ ∧ ∀ z, l.foldlM f x = .ok z → P z
  | [], x, hx, _, _ => ⟨rfl, fun z h => by cases h; exact hx⟩
  | i :: l, x, hx, h, hP => by
    rw [List.foldlM_cons, List.foldlM_cons, h x i (by simp) hx]
    cases hf : f x i with
    | error e => exact ⟨rfl, fun z h => by cases h⟩
    | ok z =>
      exact foldlM_units φ P l z (hP x i z (by simp) hx hf) (fun y j hj => h y j (by simp [hj])) (fun y j w hj => hP y j w (by simp [hj]))

theorem warped_units (hm : m ≠ .sorensen ∧ m ≠ .cosine) (hs : m = .euclidean → LawfulSqrt K) (hr : 0 ≤ ratio) (q x : List K)
    (hq : 2 ≤ q.length) (hx : 2 ≤ x.length) :
    SameIn |s| (Arith.eval ratio (warpedOf m) (x.map fin) (q.map fin))
      (Arith.eval ratio (warpedOf m) ((x.map fun x => s * x + c).map fin) ((q.map fun x => s * x + c).map fin)) ∧
    SameIn |s| (Arith.eval ratio (warpedOf m) (q.map fin) (x.map fin))
      (Arith.eval ratio (warpedOf m) ((q.map fun x => s * x + c).map fin) ((x.map fun x => s * x + c).map fin)) := by
  obtain ⟨F, h1, -, h2, h3⟩ := warpedOf_exact m hm hs ratio hr q x (by omega) hx (by omega)
  obtain ⟨F', h1', -, h2', h3'⟩ := warpedOf_exact m hm hs ratio hr (q.map fun x => s * x + c) (x.map fun x => s * x + c)
    (by simp; omega) (by simpa using hx) (by simp; omega)
  have e : F' = inUnit |s| F := by
    rcases dtw_converted hs rfl rfl (by omega) (by omega) h1 h1' with ⟨rfl, rfl⟩ | ⟨d, rfl, rfl⟩ <;> rfl
  rw [e] at h2' h3'
  exact ⟨.inr ⟨F, h2, h2'⟩, .inr ⟨F, h3, h3'⟩⟩

/-- A space of groups of parts of the dataset. -/
def Rests (ds : Dataset K) (rows : List (List (Dbl K))) (sp : LocalSpace K) : Prop :=
  ∃ (ℓ n : ℕ) (abs : List AG), 2 ≤ ℓ ∧ (n : Int) = ds.maxCol - ℓ + 1 ∧ Rep ds rows ℓ n sp abs

variable {rows : List (List (Dbl K))}

theorem bestGroup_units (T : Twin s c ds ds') (H : Holds ds rows) (hs0 : s ≠ 0) (hm : m ≠ .sorensen ∧ m ≠ .cosine)
    (hs : m = .euclidean → LawfulSqrt K) (hr : 0 ≤ ratio) (q : List K) (hq : 2 ≤ q.length) {sp : LocalSpace K} (hsp : Rests ds rows sp)
    (d : Dbl K) :
    sp.getBestGroup ds' ratio (warpedOf m) ((q.map fun x => s * x + c).map fin) (inUnit |s| d) =
      (sp.getBestGroup ds ratio (warpedOf m) (q.map fin) d).map fun r => (inUnit |s| r.1, r.2) := by
  obtain ⟨ℓ, n, abs, h2, hn, R⟩ := hsp
  refine bestLoop_units (abs_pos.2 hs0) _ _ _ _ fun g hg => ?_
  obtain ⟨j, hj⟩ := List.mem_iff_getElem?.1 hg
  have hja : j < abs.length := by rw [← R.num]; exact (List.getElem?_eq_some_iff.1 hj).1
  have ha := List.getElem?_eq_getElem hja
  have hv := (R.reps _ (List.mem_of_getElem? ha)).getTimeSeries H (by omega)
  obtain ⟨y, k1, k2, k3, -⟩ := T.pts _ _ _ _ (by simp) hv
  have := (warped_units (s := s) (c := c) (ratio := ratio) hm hs hr q y hq (by omega)).1
  unfold Group.distance Group.centroidPts
  simp only [(R.grp j g _ hj ha).centroid, k1, k2, bind, Except.bind]
  exact this

theorem bestMember_units (T : Twin s c ds ds') (H : Holds ds rows) (hs0 : s ≠ 0) (hm : m ≠ .sorensen ∧ m ≠ .cosine)
    (hs : m = .euclidean → LawfulSqrt K) (hr : 0 ≤ ratio) (q : List K) (hq : 2 ≤ q.length) {sp : LocalSpace K} (hsp : Rests ds rows sp)
    {g : Group K} (hg : g ∈ sp.groups) :
    sp.getBestMatch ds' ratio (warpedOf m) ((q.map fun x => s * x + c).map fin) g =
      (sp.getBestMatch ds ratio (warpedOf m) (q.map fin) g).map fun r => ⟨r.view, inUnit |s| r.dist⟩ := by
  have hpos := abs_pos.2 hs0
  obtain ⟨ℓ, n, abs, h2, hn, R⟩ := hsp
  obtain ⟨j, hj⟩ := List.mem_iff_getElem?.1 hg
  have hja : j < abs.length := by rw [← R.num]; exact (List.getElem?_eq_some_iff.1 hj).1
  have ha := List.getElem?_eq_getElem hja
  have hmem : sp.member ds' = sp.member ds := by
    funext p
    unfold LocalSpace.member
    rw [T.getTimeSeries]
  unfold LocalSpace.getBestMatch
  rw [R.walk hn H hj ha, R.walk hn H hj ha, hmem]
  have key := (foldlM_units (f := fun (st : Dbl K × (Int × Int)) (p : ℕ × ℕ) => (do
      let v ← sp.member ds ((p.1 : Int), (p.2 : Int))
      let pts ← ds.points v
      let d ← Arith.eval ratio (warpedOf m) (q.map fin) pts st.1
      .ok (if d < st.1 then (d, ((p.1 : Int), (p.2 : Int))) else st) : Res (Dbl K × (Int × Int))))
    (g := fun (st : Dbl K × (Int × Int)) (p : ℕ × ℕ) => (do
      let v ← sp.member ds ((p.1 : Int), (p.2 : Int))
      let pts ← ds'.points v
      let d ← Arith.eval ratio (warpedOf m) ((q.map fun x => s * x + c).map fin) pts st.1
      .ok (if d < st.1 then (d, ((p.1 : Int), (p.2 : Int))) else st) : Res (Dbl K × (Int × Int))))
    (fun st => (inUnit |s| st.1, st.2)) (fun _ => True) abs[j].mem (.inf, (0, 0)) trivial (by
      intro st p hp _
      have hv := R.member (by omega) H (R.mems _ (List.mem_of_getElem? ha) p hp)
      have hv' := (R.mems _ (List.mem_of_getElem? ha) p hp).getTimeSeries H (by omega)
      obtain ⟨y, k1, k2, k3, -⟩ := T.pts _ _ _ _ (by simp) hv'
      simp only [hv, bind, Except.bind, k1, k2]
      rcases (warped_units (s := s) (c := c) (ratio := ratio) hm hs hr q y hq (by omega)).2.step hpos st.1 with
        ⟨e, h1, h2⟩ | ⟨x, h1, h2, h3⟩ | ⟨x, x', h1, h2, h3, h4⟩
      · rw [h1, h2]; rfl
      · rw [h1, h2]
        simp only [if_pos h3, if_pos ((inUnit_lt hpos).2 h3)]
        rfl
      · rw [h1, h2]
        simp only [if_neg h3, if_neg h4]
        rfl) (fun _ _ _ _ _ _ => trivial)).1
  simp only [show inUnit |s| (Dbl.inf : Dbl K) = .inf from rfl] at key
  simp only [bind, Except.bind] at key ⊢
  rw [key]
  cases List.foldlM (m := Except Fault) (s := Dbl K × (Int × Int)) (α := ℕ × ℕ) _ ((Dbl.inf : Dbl K), ((0 : Int), (0 : Int))) abs[j].mem with
  | error e => rfl
  | ok b =>
    simp only [Except.map]
    cases sp.member ds b.2 <;> rfl

theorem spaceAt_rests {t : Dbl K} {whole : Bool} {gs : GSpace K} (G : GroupedAll ds rows ratio m t whole gs) (h2 : 2 ≤ ds.maxCol) {i : Int}
    {sp : LocalSpace K} (h : gs.spaceAt i = .ok (some sp)) : Rests ds rows sp := by
  unfold GSpace.spaceAt at h
  split at h
  · cases h
  · split at h
    · rename_i hsp
      cases h
      have hl := (List.getElem?_eq_some_iff.1 hsp).1
      have hle : ((i.toNat : ℕ) : Int) ≤ ds.maxCol := by have := G.size; omega
      by_cases hR : InRange ds.maxCol whole i.toNat
      · obtain ⟨sp', abs, k1, k2⟩ := G.at_range _ hR
        rw [hsp] at k1
        cases k1
        obtain ⟨n, hn, R⟩ := k2.rep
        refine ⟨_, n, abs, ?_, hn, R⟩
        have := hR.2
        cases whole <;> simp at this <;> omega
      · rw [G.off_range _ hle hR] at hsp
        cases hsp
    · cases h

theorem best_units (T : Twin s c ds ds') (H : Holds ds rows) (hs0 : s ≠ 0) (hm : m ≠ .sorensen ∧ m ≠ .cosine)
    (hs : m = .euclidean → LawfulSqrt K) (hr : 0 ≤ ratio) (q : List K) (hq : 2 ≤ q.length) {t : Dbl K} {whole : Bool} {gs : GSpace K}
    {ratio₀ : ℚ} (G : GroupedAll ds rows ratio₀ m t whole gs) (h2 : 2 ≤ ds.maxCol) (x : Option (Dbl K)) :
    GSpace.getBestMatch ds' ratio { gs with threshold := x } ((q.map fun x => s * x + c).map fin) =
      (GSpace.getBestMatch ds ratio gs (q.map fin)).map fun r => ⟨r.view, inUnit |s| r.dist⟩ := by
  have hpos := abs_pos.2 hs0
  unfold GSpace.getBestMatch
  simp only [List.length_map, G.warped]
  rw [if_neg (by omega), if_neg (by omega)]
  simp only [bind, Except.bind]
  cases generateTraverseOrder ratio q.length ((gs.spaces.length : Int) - 1) with
  | error e => rfl
  | ok order =>
    simp only
    have key := foldlM_units (f := GSpace.bestStep ds ratio (warpedOf m) (q.map fin) gs)
      (g := GSpace.bestStep ds' ratio (warpedOf m) ((q.map fun x => s * x + c).map fin) { gs with warped := some (warpedOf m), threshold := x })
      (fun st => (inUnit |s| st.1, st.2)) (fun st => ∀ y, st.2 = some y → Rests ds rows y.1) order (.inf, none) (by simp)
      (by
        intro st i _ _
        unfold GSpace.bestStep
        rw [show GSpace.spaceAt { gs with warped := some (warpedOf m), threshold := x } i = gs.spaceAt i from rfl]
        simp only [bind, Except.bind]
        cases hsp : gs.spaceAt i with
        | error e => rfl
        | ok o =>
          cases o with
          | none => rfl
          | some sp =>
            simp only
            rw [bestGroup_units T H hs0 hm hs hr q hq (spaceAt_rests G h2 hsp)]
            cases sp.getBestGroup ds ratio (warpedOf m) (q.map fin) st.1 with
            | error e => rfl
            | ok b =>
              simp only [Except.map, inUnit_lt hpos]
              split <;> rfl)
      (by
        intro st i z _ hst hz
        unfold GSpace.bestStep at hz
        simp only [bind, Except.bind] at hz
        cases hsp : gs.spaceAt i with
        | error e => rw [hsp] at hz; cases hz
        | ok o =>
          rw [hsp] at hz
          cases o with
          | none => cases hz; exact hst
          | some sp =>
            simp only at hz
            cases hb : sp.getBestGroup ds ratio (warpedOf m) (q.map fin) st.1 with
            | error e => rw [hb] at hz; cases hz
            | ok b =>
              rw [hb] at hz
              simp only [Except.ok.injEq] at hz
              subst hz
              split
              · intro y hy
                simp only [Option.map_eq_some_iff] at hy
                obtain ⟨g, -, rfl⟩ := hy
                exact spaceAt_rests G h2 hsp
              · exact hst)
    obtain ⟨k1, k2⟩ := key
    simp only [show inUnit |s| (Dbl.inf : Dbl K) = .inf from rfl] at k1
    rw [k1]
    cases hfold : List.foldlM (GSpace.bestStep ds ratio (warpedOf m) (q.map fin) gs) (.inf, none) order with
    | error e => rfl
    | ok st =>
      simp only [Except.map]
      cases ho : st.2 with
      | none => rfl
      | some y =>
        simp only
        cases hg : y.1.groups[y.2]? with
        | none => rfl
        | some g => exact bestMember_units T H hs0 hm hs hr q hq (k2 st hfold y ho) (List.mem_of_getElem? hg)

end

/-! ### The clock -/

/-- Two runs that both return, with different clocks. -/
theorem loop_clocks [HasSqrt K] [Arith K] {ds : Dataset K} {ratio : ℚ} {ref : DistRef} {t : Dbl K} {b b' : Bool} : ∀ (cs : List (ℕ × ℕ)) (sp : LocalSpace K) (u u' : Unit),
    (loopS (LocalSpace.groupStep ds ratio ref t b) cs sp).2 = .ok u → (loopS (LocalSpace.groupStep ds ratio ref t b') cs sp).2 = .ok u' →
    loopS (LocalSpace.groupStep ds ratio ref t b') cs sp = loopS (LocalSpace.groupStep ds ratio ref t b) cs sp
  | [], _, _, _, _, _ => rfl
  | c :: cs, sp, u, u', h, h' => by
    unfold loopS at h h' ⊢
    cases hs : LocalSpace.groupStep ds ratio ref t b sp c with
    | error e => rw [hs] at h; cases h
    | ok x =>
      cases hs' : LocalSpace.groupStep ds ratio ref t b' sp c with
      | error e => rw [hs'] at h'; cases h'
      | ok x' =>
        have e : x' = x := by
          unfold LocalSpace.groupStep at hs hs'
          split at hs
          · cases hs
          · split at hs'
            · cases hs'
            · rw [hs] at hs'
              cases hs'
              rfl
        subst e
        rw [hs] at h
        rw [hs'] at h'
        exact loop_clocks cs x' u u' h h'

theorem length_clocks [HasSqrt K] [Arith K] {ds : Dataset K} {ratio : ℚ} {ref : DistRef} {t : Dbl K} {log log' : ℕ → Bool} {i k k' : ℕ}
    (h : (GSpace.groupLength ds ratio log ref t i).2 = .ok k) (h' : (GSpace.groupLength ds ratio log' ref t i).2 = .ok k') :
    GSpace.groupLength ds ratio log' ref t i = GSpace.groupLength ds ratio log ref t i := by
  unfold GSpace.groupLength at h h' ⊢
  cases hnew : LocalSpace.new ds (i : Int) with
  | error e => rfl
  | ok sp =>
    rw [hnew] at h h'
    simp only [LocalSpace.generateGroups] at h h' ⊢
    cases hr : (loopS (LocalSpace.groupStep ds ratio ref t (log i)) (sp.coords ds) sp).2 with
    | error e => rw [hr] at h; cases h
    | ok u =>
      cases hr' : (loopS (LocalSpace.groupStep ds ratio ref t (log' i)) (sp.coords ds) sp).2 with
      | error e => rw [hr'] at h'; cases h'
      | ok u' => rw [loop_clocks _ sp u u' hr hr']

theorem groupLoop_on {f g : ℕ → Option (LocalSpace K) × Res ℕ} : ∀ (is : List ℕ) (gs : GSpace K), (∀ i ∈ is, g i = f i) →
    GSpace.groupLoop g is gs = GSpace.groupLoop f is gs
  | [], _, _ => rfl
  | i :: is, gs, h => by
    simp only [GSpace.groupLoop]
    rw [h i (by simp)]
    cases (f i).2 with
    | error e => rfl
    | ok n => exact groupLoop_on is _ fun j hj => h j (by simp [hj])

theorem group_clocks [HasSqrt K] [Arith K] {ds : Dataset K} {ratio : ℚ} {log log' : ℕ → Bool} {name : String} {t : Dbl K} {whole : Bool} {gs : GSpace K} {N N' : Int}
    (h : (GSpace.group ds ratio log name t whole gs).2 = .ok N) (h' : (GSpace.group ds ratio log' name t whole gs).2 = .ok N') :
    GSpace.group ds ratio log' name t whole gs = GSpace.group ds ratio log name t whole gs := by
  unfold GSpace.group at h h' ⊢
  simp only at h h' ⊢
  cases hp : (gs.prepare ds name t whole).2 with
  | error e => rfl
  | ok p =>
    rw [hp] at h h'
    simp only at h h'
    cases hu : (GSpace.groupLoop (GSpace.groupLength ds ratio log p t) (gs.prepare ds name t whole).1.lengths (gs.prepare ds name t whole).1).2 with
    | error e => rw [hu] at h; cases h
    | ok u =>
      cases hu' : (GSpace.groupLoop (GSpace.groupLength ds ratio log' p t) (gs.prepare ds name t whole).1.lengths (gs.prepare ds name t whole).1).2 with
      | error e => rw [hu'] at h'; cases h'
      | ok u' =>
        simp only
        rw [groupLoop_on (f := GSpace.groupLength ds ratio log p t) (g := GSpace.groupLength ds ratio log' p t) _ _ fun i hi => ?_]
        obtain ⟨k, hk⟩ := groupLoop_ok_all _ _ _ _ hu i hi
        obtain ⟨k', hk'⟩ := groupLoop_ok_all _ _ _ _ hu' i hi
        exact length_clocks hk hk'

end Genex
