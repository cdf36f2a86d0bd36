import Verif.Model.ScriptGroups
import Verif.Spec.Float
import Verif.Props.RoundedError
import Mathlib.Tactic.Linarith
import Mathlib.Tactic.NormNum
import Mathlib.Tactic.Ring

/-!
# C106: thresholds and progress of the grouping script (scripts/2_generate_groups.py), extents of scripts/5_genex.py
-/

set_option linter.unusedSectionVars false

namespace Genex.Props

open Spec Scripts

section
variable {K : Type} [Field K] [LinearOrder K] [IsStrictOrderedRing K] [FloorRing K] {rd : K → K} {u θ : K}

theorem rd_within (hp : FloatOps rd u θ) (hu : u ≤ 1 / 2 ^ 40) {x M : K} (h : |x| ≤ M) : |rd x - x| ≤ u * (M + 1) := by
  have h0 := hp.u_nonneg
  have h1 := hp.θ_nonneg
  have h2 := hp.θ_le
  have hu1 : u ≤ 1 := hu.trans (by norm_num)
  have h3 : u ^ 2 ≤ u := by nlinarith
  have h4 : θ ^ 2 ≤ u := by nlinarith
  have := hp.err x
  have := mul_le_mul_of_nonneg_left h h0
  linarith

theorem pyRound_near {x : K} {n : ℤ} (h : |x - n| < 1 / 2) : pyRound x = n := by
  rw [abs_lt] at h
  unfold pyRound
  split_ifs with h0
  · rw [Int.floor_eq_iff]; constructor <;> linarith
  · have : ⌊-x + 1 / 2⌋ = -n := by
      rw [Int.floor_eq_iff]; push_cast; constructor <;> linarith
    rw [this, neg_neg]

/-- The length of the list of thresholds. -/
theorem arange_len (hp : FloatOps rd u θ) (hu : u ≤ 1 / 2 ^ 40) (a b : ℕ) (hab : a ≤ b) (hb : b ≤ 10000) :
    arangeLen rd (rd ((a : K) / 10)) (rd ((b : K) / 10)) (rd (1 / 10)) = b - a ∨ arangeLen rd (rd ((a : K) / 10)) (rd ((b : K) / 10)) (rd (1 / 10)) = b - a + 1 := by
  have h0 := hp.u_nonneg
  have hb' : (b : K) ≤ 10000 := by exact_mod_cast hb
  have ha' : (a : K) ≤ b := by exact_mod_cast hab
  have ha0 : (0 : K) ≤ a := Nat.cast_nonneg a
  have e1 := abs_le.1 (rd_within hp hu (x := (a : K) / 10) (M := 1000) (by rw [abs_le]; constructor <;> linarith))
  have e2 := abs_le.1 (rd_within hp hu (x := (b : K) / 10) (M := 1000) (by rw [abs_le]; constructor <;> linarith))
  have e3 := abs_le.1 (rd_within hp hu (x := (1 : K) / 10) (M := 1) (by rw [abs_le]; constructor <;> norm_num))
  set S := rd ((a : K) / 10)
  set T := rd ((b : K) / 10)
  set h := rd ((1 : K) / 10)
  have hu' : u ≤ 1 / 10 ^ 12 := hu.trans (by norm_num)
  have e4 := abs_le.1 (rd_within hp hu (x := T - S) (M := 1001) (by rw [abs_le]; constructor <;> linarith))
  set D := rd (T - S)
  have hh : (1 : K) / 11 < h := by linarith
  have hpos : 0 < h := by linarith
  have hd0 : (0 : K) ≤ (b : K) - a := by linarith
  have hdh1 : ((b : K) - a) * (1 / 10 - 2 * u) ≤ ((b : K) - a) * h := mul_le_mul_of_nonneg_left (by linarith) hd0
  have hdh2 : ((b : K) - a) * h ≤ ((b : K) - a) * (1 / 10 + 2 * u) := mul_le_mul_of_nonneg_left (by linarith) hd0
  have hdu : ((b : K) - a) * u ≤ 10000 * u := mul_le_mul_of_nonneg_right (by linarith) h0
  have q1 : D / h ≤ (b : K) - a + 1 / 1000 := by
    rw [div_le_iff₀ hpos]
    nlinarith
  have q2 : (b : K) - a - 1 / 1000 ≤ D / h := by
    rw [le_div_iff₀ hpos]
    nlinarith
  have e5 := abs_le.1 (rd_within hp hu (x := D / h) (M := 10001) (by rw [abs_le]; constructor <;> linarith))
  unfold arangeLen
  set Q := rd (D / h)
  have c1 : ((b : ℤ) - a) ≤ ⌈Q⌉ := by
    rw [← Int.sub_one_lt_iff, Int.lt_ceil]
    push_cast
    linarith
  have c2 : ⌈Q⌉ ≤ (b : ℤ) - a + 1 := by
    rw [Int.ceil_le]
    push_cast
    linarith
  omega

/-- The thresholds themselves. -/
theorem arange_at (hp : FloatOps rd u θ) (hu : u ≤ 1 / 2 ^ 40) (a i : ℕ) (hai : a + i ≤ 10000) :
    toTenth rd (arangeAt rd (rd ((a : K) / 10)) (rd (1 / 10)) i) = rd (((a + i : ℕ) : K) / 10) := by
  have h0 := hp.u_nonneg
  have hu' : u ≤ 1 / 10 ^ 12 := hu.trans (by norm_num)
  have hai' : (a : K) + i ≤ 10000 := by exact_mod_cast hai
  have ha0 : (0 : K) ≤ a := Nat.cast_nonneg a
  have hi0 : (0 : K) ≤ i := Nat.cast_nonneg i
  have e1 := abs_le.1 (rd_within hp hu (x := (a : K) / 10) (M := 1000) (by rw [abs_le]; constructor <;> linarith))
  have e3 := abs_le.1 (rd_within hp hu (x := (1 : K) / 10) (M := 1) (by rw [abs_le]; constructor <;> norm_num))
  have hv : |arangeAt rd (rd ((a : K) / 10)) (rd (1 / 10)) i - ((a : K) + i) / 10| ≤ 1 / 10000 := by
    set S := rd ((a : K) / 10)
    set h := rd ((1 : K) / 10)
    have e2 := abs_le.1 (rd_within hp hu (x := S + h) (M := 1001) (by rw [abs_le]; constructor <;> linarith))
    unfold arangeAt
    split_ifs with hz ho
    · subst hz
      rw [abs_le]; push_cast at *; constructor <;> linarith
    · subst ho
      rw [abs_le]; push_cast at *; constructor <;> linarith
    · have e4 := abs_le.1 (rd_within hp hu (x := rd (S + h) - S) (M := 1) (by rw [abs_le]; constructor <;> linarith))
      set δ := rd (rd (S + h) - S)
      have d1 : (i : K) * (1 / 10 - 1010 * u) ≤ i * δ := mul_le_mul_of_nonneg_left (by linarith) hi0
      have d2 : (i : K) * δ ≤ i * (1 / 10 + 1010 * u) := mul_le_mul_of_nonneg_left (by linarith) hi0
      have d3 : (i : K) * u ≤ 10000 * u := mul_le_mul_of_nonneg_right (by linarith) h0
      have e5 := abs_le.1 (rd_within hp hu (x := i * δ) (M := 1001) (by rw [abs_le]; constructor <;> linarith))
      have e6 := abs_le.1 (rd_within hp hu (x := S + rd (i * δ)) (M := 2003) (by rw [abs_le]; constructor <;> linarith))
      rw [abs_le]; constructor <;> linarith
  have hv' := abs_le.1 hv
  set v := arangeAt rd (rd ((a : K) / 10)) (rd (1 / 10)) i
  have e7 := abs_le.1 (rd_within hp hu (x := v * 10) (M := 10001) (by rw [abs_le]; constructor <;> linarith))
  unfold toTenth
  have : pyRound (rd (v * 10)) = ((a + i : ℕ) : ℤ) := by
    apply pyRound_near
    push_cast
    rw [abs_lt]; constructor <;> linarith
  rw [this, Int.cast_natCast]

/-- C106.  From one tenth to another, both as the nearest numbers, the thresholds are exactly the numbers nearest to the tenths from the first up to the last, the last one excluded or
included. -/
theorem C106_thresholds (hp : FloatOps rd u θ) (hu : u ≤ 1 / 2 ^ 40) (a b : ℕ) (hab : a ≤ b) (hb : b < 10000) :
    ∃ n, (n = b - a ∨ n = b - a + 1) ∧ thresholds rd (rd ((a : K) / 10)) (rd ((b : K) / 10)) = (List.range n).map fun i => rd (((a + i : ℕ) : K) / 10) := by
  refine ⟨_, arange_len hp hu a b hab (by omega), ?_⟩
  have hn := arange_len hp hu a b hab (by omega)
  unfold thresholds
  refine List.map_congr_left fun i hi => ?_
  rw [List.mem_range] at hi
  exact arange_at hp hu a i (by omega)

theorem C106_double (a b : ℕ) (hab : a ≤ b) (hb : b < 10000) :
    ∃ n, (n = b - a ∨ n = b - a + 1) ∧
      thresholds (roundDouble (K := K)) (roundDouble ((a : K) / 10)) (roundDouble ((b : K) / 10)) = (List.range n).map fun i => roundDouble (((a + i : ℕ) : K) / 10) :=
  C106_thresholds C73_double (one_div_le_one_div_of_le (by norm_num) (pow_le_pow_right₀ (by norm_num) (by norm_num))) a b hab hb

end

/-- The arguments that are the default: 0.1 to 0.5. -/
example : thresholds roundDouble (roundDouble ((1 : ℚ) / 10)) (roundDouble (6 / 10)) = [1, 2, 3, 4, 5].map fun i => roundDouble (i / 10) := by decide +kernel

/-- C106.  From 0.1 to 0.4 the last one is included, although `arange` is to exclude it. -/
theorem C106_included_false : thresholds roundDouble (roundDouble ((1 : ℚ) / 10)) (roundDouble (4 / 10)) = [1, 2, 3, 4].map fun i => roundDouble (i / 10) := by decide +kernel

/-! ## Extents of the search -/

/-- C106.  The extents of the searches of one query grow from round to round. -/
theorem C106_extent_mono {K : Type} [Field K] [LinearOrder K] [IsStrictOrderedRing K] [FloorRing K] {rd : K → K} {u θ : K} (hp : FloatOps rd u θ)
    (hu : u ≤ 1 / 2 ^ 40) (subseq i j : ℕ) (hij : i ≤ j) : extent rd subseq i ≤ extent rd subseq j := by
  have hr := hp.toRounding
  have hu0 := hp.u_nonneg
  have hu' : u ≤ 1 / 10 ^ 12 := hu.trans (by norm_num)
  have hpy : ∀ x y : K, x ≤ y → pyRound x ≤ pyRound y := by
    intro x y h
    unfold pyRound
    split_ifs with h1 h2 h2
    · exact Int.floor_le_floor (by linarith)
    · exact absurd (h1.trans h) h2
    · have a1 : 0 ≤ ⌊-x + 1 / 2⌋ := Int.floor_nonneg.2 (by linarith)
      have a2 : 0 ≤ ⌊y + 1 / 2⌋ := Int.floor_nonneg.2 (by linarith)
      omega
    · exact neg_le_neg (Int.floor_le_floor (by linarith))
  have rd0 : rd 0 = 0 := by
    have := hr.neg 0
    rw [neg_zero] at this
    linarith
  have rdn : ∀ x : K, 0 ≤ x → 0 ≤ rd x := fun x h => rd0 ▸ hr.mono 0 x h
  have e3 := abs_le.1 (rd_within hp hu (x := (1 : K) / 10) (M := 1) (by rw [abs_le]; constructor <;> norm_num))
  set h := rd ((1 : K) / 10) with hh
  have h0 : 0 ≤ h := rdn _ (by norm_num)
  have hS : h ≤ rd (h + h) := by
    have := hr.mono h (h + h) (by linarith)
    rwa [hh, hr.idem, ← hh] at this
  have hδ0 : 0 ≤ rd (rd (h + h) - h) := rdn _ (by linarith)
  have hstep : ∀ k, arangeAt rd h h k ≤ arangeAt rd h h (k + 1) := by
    intro k
    rcases k with _ | _ | k
    · simpa [arangeAt] using hS
    · simp only [arangeAt]
      norm_num
      apply hr.mono
      have e4 := abs_le.1 (rd_within hp hu (x := h + h) (M := 1) (by rw [abs_le]; constructor <;> linarith))
      have e5 := abs_le.1 (rd_within hp hu (x := rd (h + h) - h) (M := 1) (by rw [abs_le]; constructor <;> linarith))
      have e6 := abs_le.1 (rd_within hp hu (x := 2 * rd (rd (h + h) - h)) (M := 1) (by rw [abs_le]; constructor <;> linarith))
      have h2 : h ≤ rd (2 * rd (rd (h + h) - h)) := by linarith
      linarith
    · simp only [arangeAt]
      norm_num
      apply hr.mono
      have := hr.mono (((k : K) + 1 + 1) * rd (rd (h + h) - h)) (((k : K) + 1 + 1 + 1) * rd (rd (h + h) - h)) (by linarith)
      linarith
  have hm : arangeAt rd h h i ≤ arangeAt rd h h j := monotone_nat_of_le_succ hstep hij
  unfold extent
  apply hpy
  apply hr.mono
  apply mul_le_mul_of_nonneg_right _ (Nat.cast_nonneg _)
  apply hr.mono
  linarith

/-- C106.  There are 1000 extents, and the last is the whole number of subsequences. -/
theorem C106_extent_last (subseq : ℕ) (h : subseq ≤ 2 ^ 53) :
    arangeLen roundDouble (roundDouble ((1 : ℚ) / 10)) (roundDouble (1001 / 10)) (roundDouble (1 / 10)) = 1000 ∧ extent (K := ℚ) roundDouble subseq 999 = subseq := by
  refine ⟨by decide +kernel, ?_⟩
  have h1 : roundDouble (arangeAt roundDouble (roundDouble ((1 : ℚ) / 10)) (roundDouble (1 / 10)) 999 / 100) = 1 := by decide +kernel
  have h2 := C73_representable (K := ℚ) subseq 0 (by rw [abs_of_nonneg (by positivity)]; exact_mod_cast h) (by norm_num)
  rw [zpow_zero, mul_one] at h2
  unfold extent
  rw [h1, one_mul]
  have h3 : roundDouble ((subseq : ℕ) : ℚ) = subseq := by exact_mod_cast h2
  rw [h3]
  apply pyRound_near
  simp

example : (List.range 6).map (extent (K := ℚ) roundDouble 12345) = [12, 25, 37, 49, 62, 74] := by decide +kernel

/-! ## Progress -/

section
variable {K : Type} [DecidableEq K]

theorem mem_record {p : List (Params K)} {c d : Params K} : d ∈ record p c ↔ d ∈ p ∨ d = c := by
  unfold record
  split_ifs with h
  · exact ⟨.inl, fun h' => h'.elim id fun e => e ▸ h⟩
  · simp

theorem record_nodup {p : List (Params K)} {c : Params K} (h : p.Nodup) : (record p c).Nodup := by
  unfold record
  split_ifs with hc
  · exact h
  · exact List.nodup_append.2 ⟨h, by simp, by
      intro a ha b hb e
      rw [List.mem_singleton] at hb
      exact hc (hb ▸ e ▸ ha)⟩

/-- C106.  A run of the grouping script on a data set: what is recorded afterwards is what was recorded before and what was grouped, nothing twice; only parameters asked for are grouped, none
that was recorded unless one starts over; a run that ends without exception and is no dry run has recorded everything asked for, and when starting over has grouped all of it. -/
theorem C106_progress (startOver dry : Bool) (grp : Params K → Res Unit) (cs p p' called : List (Params K)) (e : Res Unit)
    (h : groupLoop startOver dry grp cs p = (p', called, e)) (hnd : p.Nodup) :
    p'.Nodup ∧ (∀ c, c ∈ p' ↔ c ∈ p ∨ c ∈ called) ∧ called.Sublist cs ∧ (∀ c ∈ called, grp c = .ok () ∧ dry = false) ∧
      (startOver = false → called.Nodup ∧ ∀ c ∈ called, c ∉ p) ∧ (e = .ok () → dry = false → ∀ c ∈ cs, c ∈ p') ∧
      (e = .ok () → dry = false → startOver = true → called = cs) := by
  induction cs generalizing p p' called e with
  | nil =>
    simp only [groupLoop, Prod.mk.injEq] at h
    obtain ⟨rfl, rfl, rfl⟩ := h
    simp [hnd]
  | cons c cs ih =>
    simp only [groupLoop] at h
    split_ifs at h with hx hd
    · obtain ⟨h1, h2, h3, h4, h5, h6, h7⟩ := ih p p' called e h hnd
      simp only [exclude, Bool.and_eq_true, Bool.not_eq_true', decide_eq_true_eq] at hx
      refine ⟨h1, h2, h3.cons c, h4, h5, fun he hdry d hdm => ?_, fun _ _ hs => absurd hs (by simp [hx.1])⟩
      rcases List.mem_cons.1 hdm with rfl | hdm
      · exact (h2 d).2 (.inl hx.2)
      · exact h6 he hdry d hdm
    · obtain ⟨h1, h2, h3, h4, h5, h6, h7⟩ := ih p p' called e h hnd
      exact ⟨h1, h2, h3.cons c, h4, h5, fun _ hdry => absurd hd (by simp [hdry]), fun _ hdry => absurd hd (by simp [hdry])⟩
    · cases hg : grp c with
      | error f =>
        simp only [hg, Prod.mk.injEq] at h
        obtain ⟨rfl, rfl, rfl⟩ := h
        simp [hnd]
      | ok _ =>
        simp only [hg, Prod.mk.injEq] at h
        obtain ⟨rfl, rfl, rfl⟩ := h
        obtain ⟨h1, h2, h3, h4, h5, h6, h7⟩ := ih (record p c) _ _ _ rfl (record_nodup hnd)
        refine ⟨h1, fun d => ?_, h3.cons_cons c, fun d hdm => ?_, fun hs => ?_, fun he hdry d hdm => ?_, fun he hdry hs => by rw [h7 he hdry hs]⟩
        · rw [h2, mem_record, List.mem_cons]; tauto
        · rcases List.mem_cons.1 hdm with rfl | hdm
          · exact ⟨hg, by simpa using hd⟩
          · exact h4 d hdm
        · obtain ⟨n1, n2⟩ := h5 hs
          have hcp : c ∉ p := fun hc => hx (by simp [exclude, hs, hc])
          refine ⟨List.nodup_cons.2 ⟨fun hc => n2 c hc (mem_record.2 (.inr rfl)), n1⟩, fun d hdm => ?_⟩
          rcases List.mem_cons.1 hdm with rfl | hdm
          · exact hcp
          · exact fun hp => n2 d hdm (mem_record.2 (.inl hp))
        · rcases List.mem_cons.1 hdm with rfl | hdm
          · exact (h2 d).2 (.inl (mem_record.2 (.inr rfl)))
          · exact h6 he hdry d hdm

theorem groupLoop_known {dry : Bool} {grp : Params K → Res Unit} {cs p : List (Params K)} (h : ∀ c ∈ cs, c ∈ p) : groupLoop false dry grp cs p = (p, [], .ok ()) := by
  induction cs with
  | nil => rfl
  | cons c cs ih =>
    have hx : exclude false p c = true := by simp [exclude, h c (by simp)]
    simp only [groupLoop, hx, if_true]
    exact ih fun d hd => h d (by simp [hd])

/-- C106.  After a run that ended without exception another one groups nothing. -/
theorem C106_again (startOver dry : Bool) (grp grp' : Params K → Res Unit) (cs p p' called : List (Params K)) (h : groupLoop startOver false grp cs p = (p', called, .ok ()))
    (hnd : p.Nodup) : groupLoop false dry grp' cs p' = (p', [], .ok ()) :=
  groupLoop_known ((C106_progress _ _ _ _ _ _ _ _ h hnd).2.2.2.2.2.1 rfl rfl)

/-- C106.  After an exception or a kill the next run goes on where the first stopped: together they group what one run would have grouped, in the same order, and record the same. -/
theorem C106_resume (grp grp' : Params K → Res Unit) (hg : ∀ c, grp c = .ok () → grp' c = .ok ()) (cs p p1 called : List (Params K)) (e : Res Unit) (k : ℕ)
    (h : groupLoop false false grp (cs.take k) p = (p1, called, e)) :
    groupLoop false false grp' cs p = ((groupLoop false false grp' cs p1).1, called ++ (groupLoop false false grp' cs p1).2.1, (groupLoop false false grp' cs p1).2.2) := by
  have key : ∀ (a b p p1 called : List (Params K)) (e : Res Unit), groupLoop false false grp a p = (p1, called, e) →
      (∀ c ∈ p, c ∈ p1) ∧ groupLoop false false grp' (a ++ b) p =
        ((groupLoop false false grp' (a ++ b) p1).1, called ++ (groupLoop false false grp' (a ++ b) p1).2.1, (groupLoop false false grp' (a ++ b) p1).2.2) := by
    intro a
    induction a with
    | nil =>
      intro b p p1 called e h
      simp only [groupLoop, Prod.mk.injEq] at h
      obtain ⟨rfl, rfl, -⟩ := h
      exact ⟨fun c hc => hc, by simp⟩
    | cons c a ih =>
      intro b p p1 called e h
      simp only [groupLoop, Bool.false_eq_true, if_false] at h
      split_ifs at h with hx
      · obtain ⟨s, r⟩ := ih b p p1 called e h
        have hx' : exclude false p1 c = true := by
          simp only [exclude, Bool.not_false, Bool.true_and, decide_eq_true_eq] at hx ⊢
          exact s c hx
        refine ⟨s, ?_⟩
        simp only [List.cons_append, groupLoop, hx, hx', if_true]
        exact r
      · cases hgc : grp c with
        | error f =>
          simp only [hgc, Prod.mk.injEq] at h
          obtain ⟨rfl, rfl, -⟩ := h
          exact ⟨fun c hc => hc, by simp⟩
        | ok _ =>
          simp only [hgc, Prod.mk.injEq] at h
          obtain ⟨rfl, rfl, rfl⟩ := h
          obtain ⟨s, r⟩ := ih b (record p c) _ _ _ rfl
          have hc1 := s c (mem_record.2 (.inr rfl))
          refine ⟨fun d hd => s d (mem_record.2 (.inl hd)), ?_⟩
          have hx' : exclude false (groupLoop false false grp a (record p c)).1 c = true := by simp [exclude, hc1]
          simp only [List.cons_append, groupLoop, hx, hx', if_true, Bool.false_eq_true, if_false, hg c hgc]
          rw [r]
  have := (key (cs.take k) (cs.drop k) p p1 called e h).2
  rwa [List.take_append_drop] at this

/-- C106.  A dry run groups and records nothing. -/
theorem C106_dry (startOver : Bool) (grp : Params K → Res Unit) (cs p : List (Params K)) : groupLoop startOver true grp cs p = (p, [], .ok ()) := by
  induction cs with
  | nil => rfl
  | cons c cs ih => simp only [groupLoop, if_true, ih, ite_self]

end

example : groupLoop false false (fun _ => .ok ()) [("euclidean", 1), ("euclidean", 2), ("manhattan", 1)] [("euclidean", 1)] =
    ([("euclidean", 1), ("euclidean", 2), ("manhattan", 1)], [("euclidean", 2), ("manhattan", 1)], .ok ()) := by decide +kernel
example : groupLoop true false (fun _ => .ok ()) [("euclidean", 1), ("euclidean", 2)] [("euclidean", 1)] =
    ([("euclidean", 1), ("euclidean", 2)], [("euclidean", 1), ("euclidean", 2)], .ok ()) := by decide +kernel

end Genex.Props
