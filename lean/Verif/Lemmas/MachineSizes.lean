import Verif.Lemmas.Machine
import Verif.Lemmas.DatasetProps
import Verif.Lemmas.OverflowSet

/-! Sizes of files, the total of groups, and what happens beyond them. -/

set_option linter.unusedSectionVars false

namespace Genex

open Spec Dbl Props

section

variable {K : Type} [Field K]

theorem rowsRead_eq (m : Int) (content : Text) :
    (if m ≤ 0 then (fileLines content).length else min m.toNat (fileLines content).length) = (firstLines m content).length := by
  rw [← firstLines_eq, List.length_take]
  change rowsRead m (fileLines content).length = _
  have := rowsRead_le m (fileLines content).length
  omega

theorem maxColumns_bound {sep : List Char} {content : Text} {W : ℕ} (hW : ∀ l ∈ linesOf content, (columns sep l).length ≤ W) :
    Dataset.maxColumns sep (fileLines content) ≤ W :=
  maxColumns_le _ 0 (Nat.zero_le _) (fun l hl => by rw [tokens_eq]; rw [linesOf_eq] at hl; exact hW l hl)

theorem sizesI_over {sep : List Char} {content : Text} {m : Int} {l : Text} (hl : l ∈ linesOf content)
    (h : 2 ^ 31 ≤ (firstLines m content).length * (columns sep l).length) :
    Dataset.sizesI sep (fileLines content) m = .error (.ub "int overflow") := by
  have hge : (columns sep l).length ≤ Dataset.maxColumns sep (fileLines content) := by
    rw [← tokens_eq]; exact le_maxColumns _ _ _ (by rw [linesOf_eq]; exact hl)
  unfold Dataset.sizesI
  rw [rowsRead_eq]
  have h3 : (2 : Int) ^ 31 ≤ ((firstLines m content).length * Dataset.maxColumns sep (fileLines content) : ℕ) := by
    have := h.trans (Nat.mul_le_mul_left (firstLines m content).length hge)
    omega
  dsimp only
  rw [int32_over h3]
  have hcase : ∀ z : Int, int32 z = .ok z ∨ int32 z = .error (.ub "int overflow") := by
    intro z; unfold int32; split <;> simp
  rcases hcase (fileLines content).length with e | e <;>
    rcases hcase (Dataset.maxColumns sep (fileLines content)) with e' | e' <;> rw [e, e'] <;> rfl

theorem loadData_maxCol (parse : Text → Parsed K) (content path : Text) (m s : Int) (sep : List Char) (h : Bool)
    (ds0 ds : Dataset K) (e : Dataset.loadData parse (some content) path m s sep h ds0 = (ds, .ok ())) :
    ds.maxCol = Dataset.maxColumns sep (fileLines content) - s - b2i h := by
  unfold Dataset.loadData at e
  simp only at e
  split at e
  · simp at e
  · simp only [Prod.mk.injEq] at e
    rw [← e.1]

theorem load_fits (parse : Text → Parsed K) (content path : Text) (m : Int) (s : ℕ) (sep : List Char) (h : Bool)
    (ds0 ds : Dataset K) (e : Dataset.loadData parse (some content) path m s sep h ds0 = (ds, .ok ())) {W : ℕ}
    (hW : ∀ l ∈ linesOf content, (columns sep l).length ≤ W) (hW' : W + 1 < 2 ^ 31)
    (hl : (linesOf content).length < 2 ^ 31) (ha : (firstLines m content).length * W < 2 ^ 31) (h0 : 0 ≤ ds.maxCol) : Fits32 ds := by
  have h1 := loadData_count _ _ _ _ _ _ _ _ _ e
  have h2 := loadData_maxCol _ _ _ _ _ _ _ _ _ e
  have h3 := maxColumns_bound hW
  have hb : 0 ≤ b2i h := by unfold b2i; split <;> simp
  have h4 : ds.maxCol ≤ W := by omega
  refine ⟨h0, by omega, ?_, ?_⟩
  · rw [h1, ← firstLines_eq, List.length_take]
    have := linesOf_eq content
    rw [this]
    omega
  · have h5 : (ds.itemCount : Int) * ds.maxCol ≤ ds.itemCount * W := Int.mul_le_mul_of_nonneg_left h4 (by omega)
    have h6 : (((firstLines m content).length * W : ℕ) : Int) < 2 ^ 31 := cast_lt_int ha
    push_cast at h6
    rw [h1] at h5 ⊢
    omega

theorem getTimeSeries_bounds {ds : Dataset K} {rows : List (List (Dbl K))} (H : Holds ds rows) (hI : Fits32 ds) {index start stop : Int}
    {v : View} (hv : ds.getTimeSeries index start stop = .ok v) : 0 ≤ v.start ∧ v.stop < 2 ^ 31 := by
  have hc := hI.cols
  unfold Dataset.getTimeSeries at hv
  by_cases h1 : index < 0 ∨ (ds.itemCount : Int) ≤ index
  · rw [if_pos h1] at hv; cases hv
  · rw [if_neg h1] at hv
    push Not at h1
    obtain ⟨i, rfl⟩ := Int.eq_ofNat_of_zero_le h1.1
    have hlt : i < rows.length := by rw [← H.count]; omega
    have hr : rows[i]? = some rows[i] := List.getElem?_eq_getElem hlt
    have hfit := H.fits i _ hr
    rw [H.getItemLength hr] at hv
    simp only [bind, Except.bind] at hv
    by_cases h2 : start < 0 ∧ stop < 0
    · rw [if_pos h2, Except.ok.injEq] at hv
      subst hv
      simp only
      omega
    · rw [if_neg h2] at hv
      by_cases h3 : start < 0 ∨ stop ≤ start ∨ (rows[i].length : Int) < stop
      · rw [if_pos h3] at hv; cases hv
      · rw [if_neg h3, Except.ok.injEq] at hv
        subst hv
        simp only
        omega

end

section

variable {K : Type} [Field K] [LinearOrder K]

theorem groupLoop_grows (f : ℕ → Option (LocalSpace K) × Res ℕ) : ∀ (is : List ℕ) (gs gs' : GSpace K),
    GSpace.groupLoop f is gs = (gs', .ok ()) → gs.total ≤ gs'.total := by
  intro is
  induction is with
  | nil => intro gs gs' h; simp only [GSpace.groupLoop, Prod.mk.injEq] at h; rw [h.1]
  | cons i is ih =>
    intro gs gs' h
    unfold GSpace.groupLoop at h
    simp only at h
    split at h
    · simp at h
    · have := ih _ _ h
      simp only at this
      omega

/-- With a result, the checked loop is the other one or overflows. -/
theorem groupLoopI_total (f : ℕ → Option (LocalSpace K) × Res ℕ) : ∀ (is : List ℕ) (gs gs' : GSpace K),
    GSpace.groupLoop f is gs = (gs', .ok ()) → 0 ≤ gs.total →
    (gs'.total < 2 ^ 31 → GSpace.groupLoopI f is gs = (gs', .ok ())) ∧
    (2 ^ 31 ≤ gs'.total → gs.total < 2 ^ 31 → (GSpace.groupLoopI f is gs).2 = .error (.ub "int overflow")) := by
  intro is
  induction is with
  | nil =>
    intro gs gs' h h0
    simp only [GSpace.groupLoop, Prod.mk.injEq, and_true] at h
    subst h
    exact ⟨fun _ => rfl, fun h h' => by omega⟩
  | cons i is ih =>
    intro gs gs' h h0
    unfold GSpace.groupLoop at h
    unfold GSpace.groupLoopI
    simp only at h ⊢
    cases hf : (f i).2 with
    | error e => rw [hf] at h; simp at h
    | ok m =>
      rw [hf] at h
      simp only at h ⊢
      have hg := groupLoop_grows f _ _ _ h
      simp only at hg
      have hi := ih _ _ h (by simp only; omega)
      simp only at hi
      by_cases hm : gs.total + m < 2 ^ 31
      · rw [int32_ok (by omega) hm]
        exact ⟨hi.1, fun h' _ => hi.2 h' hm⟩
      · rw [int32_over (by omega)]
        exact ⟨fun h' => by omega, fun _ _ => rfl⟩

end

section

variable {K : Type} [Field K] [LinearOrder K] [IsStrictOrderedRing K] [HasSqrt K] [Arith K]
variable {ds : Dataset K} {rows : List (List (Dbl K))}

/-- When the unbounded computation counts `N` groups, the `int` total is right or overflows. -/
theorem groupI_total (H : Holds ds rows) (hI : Fits32 ds) (ratio : ℚ) (m : Metric) (t : Dbl K) (whole : Bool)
    (hw : whole = true → rows ≠ [] → 1 ≤ ds.maxCol) (log : ℕ → Bool)
    (hlog : ∀ ℓ, InRange ds.maxCol whole ℓ → log ℓ = true → rows.length * (ds.maxCol - ℓ + 1) < 21474840)
    (hev : Evals K ratio (.pairwise m)) (gs gs' : GSpace K) (N : Int)
    (h : GSpace.group ds ratio log (metricName m) t whole gs = (gs', .ok N)) :
    (N < 2 ^ 31 → GSpace.groupI ds ratio log (metricName m) t whole gs = (gs', .ok N)) ∧
    (2 ^ 31 ≤ N → (GSpace.groupI ds ratio log (metricName m) t whole gs).2 = .error (.ub "int overflow")) := by
  rw [groupI_loop H hI ratio m t whole hw log hlog hev]
  unfold GSpace.group at h
  simp only [prepare_ok hI.nonneg] at h
  rcases hg : GSpace.groupLoop (GSpace.groupLength ds ratio log (.pairwise m) t)
    (prepared ds m t whole : GSpace K).lengths (prepared ds m t whole) with ⟨g1, r1⟩
  rw [hg] at h
  cases r1 with
  | error e => simp [Except.map] at h
  | ok u =>
    simp only [Except.map, Prod.mk.injEq, Except.ok.injEq] at h
    obtain ⟨rfl, rfl⟩ := h
    have := groupLoopI_total _ _ _ _ hg (Int.le_refl 0)
    refine ⟨fun h' => ?_, fun h' => ?_⟩
    · rw [this.1 h']; rfl
    · have e := this.2 h' (by change (0 : Int) < 2 ^ 31; omega)
      simp only [e, Except.map]

/-- Logging few places divides by zero. -/
theorem groupLength_few (H : Holds ds rows) {ℓ n : ℕ} (hn : (n : Int) = ds.maxCol - ℓ + 1) (ratio : ℚ) (ref : DistRef) (t : Dbl K)
    (log : ℕ → Bool) (hlog : log ℓ = true) (h1 : 1 ≤ rows.length * n) (h5 : rows.length * n < 5) :
    (GSpace.groupLength ds ratio log ref t ℓ).2 = .error (.ub "division by zero") := by
  obtain ⟨sp0, e0, R0⟩ := Rep.new (ℓ := ℓ) H hn
  unfold GSpace.groupLength
  rw [e0]
  simp only [LocalSpace.generateGroups]
  have hlen : (sp0.coords ds).length = rows.length * n := by
    rw [coords_length, R0.sub, H.count, Int.toNat_natCast, Nat.mul_comm]
  cases hc : sp0.coords ds with
  | nil => rw [hc, List.length_nil] at hlen; omega
  | cons c cs =>
    have e : LocalSpace.groupStep ds ratio ref t (log ℓ) sp0 c = .error (.ub "division by zero") := by
      unfold LocalSpace.groupStep
      rw [if_pos]
      refine ⟨hlog, ?_⟩
      rw [R0.sub, H.count]
      have : (n : Int) * (rows.length : ℕ) = (rows.length * n : ℕ) := by push_cast; ring
      rw [this]
      omega
    unfold loopS
    rw [e]
    rfl

/-- Whether a length can be grouped, with the threshold finite or the distances in range. -/
theorem groupLengthI_iff (H : Holds ds rows) (hI : Fits32 ds) {ℓ n : ℕ} (hl : rows ≠ [] → 1 ≤ ℓ) (hn : (n : Int) = ds.maxCol - ℓ + 1)
    (hT : rows.length * n < 2 ^ 31) (ratio : ℚ) (ref : DistRef) (t : Dbl K) (log : ℕ → Bool) (hev : Evals K ratio ref)
    (hS : SafeT rows ℓ ratio ref t) :
    (∃ N, (GSpace.groupLengthI ds ratio log ref t ℓ).2 = .ok N) ↔
      (log ℓ = true → rows = [] ∨ n = 0 ∨ 5 ≤ rows.length * n ∧ rows.length * n < 21474840) := by
  by_cases hlog : log ℓ = true
  · by_cases hbig : 21474840 ≤ rows.length * n
    · have h0 : rows ≠ [] ∧ n ≠ 0 := ⟨by rintro rfl; simp at hbig, by rintro rfl; simp at hbig⟩
      rw [groupLengthI_over H hI hl hn hT ratio ref t log hev hS hlog hbig]
      refine iff_of_false (by simp) (fun h => ?_)
      rcases h hlog with h | h | h
      · exact h0.1 h
      · exact h0.2 h
      · omega
    · rw [groupLengthI_eq H hI hl hn hT ratio ref t log hev (fun _ => by omega)]
      by_cases h5 : 5 ≤ rows.length * n
      · obtain ⟨sp, abs, e, -⟩ := generate_ok H hl (by omega) ratio ref t log (Or.inl ⟨hS, fun _ => by
          rw [← hn]
          have : (n : Int) * (rows.length : ℕ) = (rows.length * n : ℕ) := by push_cast; ring
          rw [this]; omega⟩) hev
        rw [e]
        exact iff_of_true ⟨_, rfl⟩ (fun _ => Or.inr (Or.inr ⟨h5, by omega⟩))
      · by_cases h1 : rows.length * n = 0
        · have hz : rows = [] ∨ n = 0 := by
            rcases Nat.mul_eq_zero.1 h1 with h | h
            · exact Or.inl (List.length_eq_zero_iff.1 h)
            · exact Or.inr h
          refine iff_of_true ?_ (fun _ => hz.imp_right Or.inl)
          obtain ⟨sp0, e0, R0⟩ := Rep.new (ℓ := ℓ) H hn
          unfold GSpace.groupLength
          rw [e0]
          simp only [LocalSpace.generateGroups]
          have hlen : (sp0.coords ds).length = rows.length * n := by
            rw [coords_length, R0.sub, H.count, Int.toNat_natCast, Nat.mul_comm]
          rw [h1, List.length_eq_zero_iff] at hlen
          rw [hlen]
          exact ⟨_, rfl⟩
        · rw [groupLength_few H hn ratio ref t log hlog (by omega) (by omega)]
          refine iff_of_false (by simp) (fun h => ?_)
          rcases h hlog with h | h | h
          · subst h; simp at h1
          · subst h; simp at h1
          · omega
  · rw [groupLengthI_eq H hI hl hn hT ratio ref t log hev (fun h => absurd h hlog)]
    obtain ⟨sp, abs, e, -⟩ := generate_ok H hl (by omega) ratio ref t log (Or.inl ⟨hS, fun h => absurd h hlog⟩) hev
    rw [e]
    exact iff_of_true ⟨_, rfl⟩ (fun h => absurd h hlog)

end

/-! ### Every subsequence in a group of its own -/

section

variable {K : Type} [Field K] [LinearOrder K] [IsStrictOrderedRing K] [HasSqrt K]

theorem groupLoop_sum (f : ℕ → Option (LocalSpace K) × Res ℕ) (B : ℕ → ℕ) : ∀ (is : List ℕ) (gs : GSpace K),
    (∀ i ∈ is, (f i).2 = .ok (B i)) →
    ∃ gs', GSpace.groupLoop f is gs = (gs', .ok ()) ∧ gs'.total = gs.total + ((is.map B).sum : ℕ) := by
  intro is
  induction is with
  | nil => intro gs _; exact ⟨gs, rfl, by simp⟩
  | cons i is ih =>
    intro gs h
    obtain ⟨gs', e, ht⟩ := ih { gs with spaces := gs.spaces.set i (f i).1, total := gs.total + B i } (fun j hj => h j (by simp [hj]))
    refine ⟨gs', ?_, ?_⟩
    · rw [← e]
      conv_lhs => unfold GSpace.groupLoop
      simp only [h i (by simp)]
    · rw [ht, List.map_cons, List.sum_cons]
      push_cast
      ring

/-- With threshold zero and no subsequence twice, every group has one member. -/
theorem groups_distinct [BandOps] (ratio : ℚ) {ds : Dataset K} {R : List (List K)} {m : Metric} (hm : m ≠ .sorensen ∧ m ≠ .cosine)
    (hs : m = .euclidean → LawfulSqrt K) {ℓ : ℕ} (hl : 1 ≤ ℓ) {sp : LocalSpace K} {abs : List AG}
    (hdist : ∀ i p i' p' x, SubOf R ℓ i p x → SubOf R ℓ i' p' x → i = i' ∧ p = p')
    (G : Grouped ds (R.map (·.map fin)) ratio (.pairwise m) (fin 0) ℓ sp abs) : sp.groups.length = subsOfLength R ℓ := by
  obtain ⟨n, -, Rp⟩ := G.rep
  have I := G.inv _ _ (gNear_fin m hm hs ratio R ℓ hl) (by rw [fin_div_fin two_ne_zero]; simp)
  rw [fin_div_fin two_ne_zero, zero_div] at I
  have hM := textbook_metric (K := K) m hm hs ℓ hl
  have hsub : ∀ c, SubAt (R.map (·.map fin)) ℓ c → SubOf R ℓ c.1 c.2 (finPts R ℓ c) := by
    intro c hc
    obtain ⟨r, hr, h⟩ := subAt_fin.1 hc
    exact ⟨r, hr, h, by unfold finPts; rw [List.getD_eq_getElem?_getD, hr]; rfl⟩
  have hlen : ∀ c, SubAt (R.map (·.map fin)) ℓ c → (finPts R ℓ c).length = ℓ := by
    intro c hc
    obtain ⟨r, -, h1, h2⟩ := hsub c hc
    rw [h2, List.length_take, List.length_drop]; omega
  have hone : ∀ a ∈ abs, a.mem.length = 1 := by
    intro a ha
    have hrep := Rp.reps a ha
    have hall : ∀ c ∈ a.mem, c = a.rep := by
      intro c hc
      rcases I.radius a ha c hc with h | h
      · exact h
      · have hc' := Rp.mems a ha c hc
        have h0 : textbook m (finPts R ℓ a.rep) (finPts R ℓ c) = 0 := by
          apply _root_.le_antisymm
          · simpa using h
          · exact hM.nonneg _ _ (hlen _ hrep) (hlen _ hc')
        have he := (hM.zero _ _ (hlen _ hrep) (hlen _ hc')).1 h0
        have := hdist _ _ _ _ _ (hsub _ hc') (by rw [← he]; exact hsub _ hrep)
        exact Prod.ext this.1 this.2
    have hnd : a.mem.Nodup := by
      have := (G.repIn a ha).2
      exact this.imp (fun {x y} h e => by subst e; unfold Before at h; omega)
    have hin : a.rep ∈ a.mem := List.mem_of_getLast? (G.repIn a ha).1
    rcases hme : a.mem with _ | ⟨x, _ | ⟨y, l⟩⟩
    · rw [hme] at hin; cases hin
    · rfl
    · rw [hme] at hall hnd
      have h1 := hall x (by simp)
      have h2 := hall y (by simp)
      rw [h1, h2] at hnd
      simp at hnd
  have h1 : (abs.flatMap AG.mem).length = subsOfLength (R.map (·.map (fin : K → Dbl K))) ℓ := by
    rw [← subList_length]
    exact (List.Perm.length_eq ((List.perm_ext_iff_of_nodup Rp.nodup (subList_nodup _ _)).2
      (fun c => (G.all c).trans (mem_subList c).symm)))
  have h2 : ∀ l : List AG, (∀ a ∈ l, a.mem.length = 1) → (l.flatMap AG.mem).length = l.length := by
    intro l
    induction l with
    | nil => intro _; rfl
    | cons a l ih =>
      intro h
      rw [List.flatMap_cons, List.length_append, ih (fun b hb => h b (by simp [hb])), h a (by simp), List.length_cons]
      omega
  rw [Rp.num, ← h2 abs hone, h1]
  unfold subsOfLength
  rw [List.map_map]
  congr 1
  apply List.map_congr_left
  intro r _
  simp

/-- The number of groups then. -/
theorem group_distinct [BandOps] (ratio : ℚ) {ds : Dataset K} {R : List (List K)} (H : Holds ds (R.map (·.map fin))) (hmax : 0 ≤ ds.maxCol)
    {m : Metric} (hm : m ≠ .sorensen ∧ m ≠ .cosine) (hs : m = .euclidean → LawfulSqrt K) (log : ℕ → Bool) (whole : Bool)
    (hw : whole = true → R ≠ [] → 1 ≤ ds.maxCol)
    (hlog : ∀ ℓ, InRange ds.maxCol whole ℓ → log ℓ = true → 5 ≤ (ds.maxCol - ℓ + 1) * R.length)
    (hdist : ∀ ℓ, InRange ds.maxCol whole ℓ → ∀ i p i' p' x, SubOf R ℓ i p x → SubOf R ℓ i' p' x → i = i' ∧ p = p') (gs : GSpace K) :
    ∃ gs', GSpace.group ds ratio log (metricName m) (fin 0) whole gs = (gs', .ok (groupable ds.maxCol whole R : ℕ)) := by
  have hsz : ((prepared ds m (fin 0) whole : GSpace K).spaces.length : Int) = ds.maxCol + 1 := by
    simp only [prepared, List.length_replicate]; omega
  have hmem : ∀ i, i ∈ (prepared ds m (fin 0) whole : GSpace K).lengths ↔ InRange ds.maxCol whole i := fun i => mem_lengths hmax hsz i
  have hone : ∀ i ∈ (prepared ds m (fin 0) whole : GSpace K).lengths,
      (GSpace.groupLength ds ratio log (.pairwise m) (fin 0) i).2 = .ok (subsOfLength R i) := by
    intro i hi
    have hr := (hmem i).1 hi
    have hl : R.map (·.map (fin : K → Dbl K)) ≠ [] → 1 ≤ i := by
      intro hne
      have hne' : R ≠ [] := by rintro rfl; exact hne rfl
      unfold InRange at hr
      cases whole
      · simp at hr; omega
      · have := hw rfl hne'; simp at hr; omega
    obtain ⟨sp, abs, e, G⟩ := generate_ok H hl (by have := hr.1; omega) ratio (.pairwise m) (fin 0) log
      (Or.inl ⟨Or.inl (by rw [fin_div_fin two_ne_zero]; simp), by rw [List.length_map]; exact hlog i hr⟩) (evals_pairwise ratio m)
    rw [e]
    by_cases hne : R = []
    · obtain ⟨n, -, Rp⟩ := G.rep
      have : abs = [] := by
        rcases abs with _ | ⟨a, abs⟩
        · rfl
        · obtain ⟨r, hr, -⟩ := Rp.reps a (by simp)
          subst hne
          simp at hr
      rw [Rp.num, this, hne]
      rfl
    · rw [groups_distinct ratio hm hs (hl (by simpa using hne)) (hdist i hr) G]
  obtain ⟨gs', e, ht⟩ := groupLoop_sum _ _ _ (prepared ds m (fin 0) whole) hone
  refine ⟨gs', ?_⟩
  unfold GSpace.group
  simp only [prepare_ok hmax]
  rw [e, ht, groupable_eq _ R hmax hsz]
  change (gs', Except.ok ((0 : Int) + (groupable ds.maxCol whole R : ℕ))) = _
  rw [Int.zero_add]

end

/-- The subsequences of at least two points of one series. -/
theorem groupable_one {α : Type} (r : List α) : 2 * groupable (r.length : Int) false [r] = (r.length - 1) * r.length := by
  unfold groupable subsOfLength
  simp only [Bool.false_eq_true, if_false, List.map_cons, List.map_nil, List.sum_cons, List.sum_nil, add_zero]
  rw [show ((r.length : Int) + 1).toNat = r.length + 1 by omega]
  generalize r.length = w
  have key : ∀ n, n ≤ w → 2 * (((List.range (n + 1)).filter (fun (ℓ : ℕ) => decide (2 ≤ ℓ))).map (fun ℓ => w + 1 - ℓ)).sum =
      (n - 1) * (2 * w - n) := by
    intro n
    induction n with
    | zero => intro _; simp
    | succ n ih =>
      intro h
      rw [List.range_succ, List.filter_append, List.map_append, List.sum_append, Nat.mul_add, ih (by omega)]
      rcases n with _ | n
      · simp
      · have : decide (2 ≤ n + 1 + 1) = true := by simp
        rw [List.filter_cons, this]
        simp only [if_true, List.filter_nil, List.map_cons, List.map_nil, List.sum_cons, List.sum_nil, add_zero]
        obtain ⟨k, rfl⟩ : ∃ k, w = n + 1 + 1 + k := ⟨w - (n + 1 + 1), by omega⟩
        rw [show 2 * (n + 1 + 1 + k) - (n + 1) = n + 3 + 2 * k by omega, show n + 1 + 1 + k + 1 - (n + 1 + 1) = k + 1 by omega,
          show 2 * (n + 1 + 1 + k) - (n + 1 + 1) = n + 2 + 2 * k by omega, show n + 1 - 1 = n by omega,
          show n + 1 + 1 - 1 = n + 1 by omega]
        ring
  rw [key w le_rfl]
  congr 1
  omega

end Genex
