import Verif.Lemmas.Serialize
import Verif.Spec.OldFormat

/-!
# Lemmas on the text format of groups
-/

set_option linter.unusedSectionVars false

namespace Genex

open Spec Dbl Props

variable {K : Type} [Field K] [LinearOrder K] [IsStrictOrderedRing K] [HasSqrt K]

/-! ### Copies -/

/-- The group `g'` is `g` with a copy of its centroid. -/
structure CopyG (f : Dbl K → Dbl K) (ds : Dataset K) (g g' : Group K) : Prop where
  index : g'.groupIndex = g.groupIndex
  last : g'.last = g.last
  count : g'.count = g.count
  centroid : ∃ pts, g.centroidPts ds = .ok pts ∧ g'.centroid = .own (pts.map f)

structure CopyS (f : Dbl K → Dbl K) (ds : Dataset K) (sp sp' : LocalSpace K) : Prop where
  len : sp'.length = sp.length
  sub : sp'.subCount = sp.subCount
  map : sp'.memberMap = sp.memberMap
  groups : List.Forall₂ (CopyG f ds) sp.groups sp'.groups

/-- `gs'` is `gs` with copies of the centroids, the threshold aside. -/
structure CopyGS (f : Dbl K → Dbl K) (ds : Dataset K) (gs gs' : GSpace K) : Prop where
  name : gs'.distanceName = gs.distanceName
  pairwise : gs'.pairwise = gs.pairwise
  warped : gs'.warped = gs.warped
  total : gs'.total = gs.total
  whole : gs'.whole = gs.whole
  spaces : List.Forall₂ (Option.Rel (CopyS f ds)) gs.spaces gs'.spaces

theorem forall₂_get {α β : Type} {R : α → β → Prop} {l : List α} {l' : List β} (h : List.Forall₂ R l l') (j : ℕ) :
    Option.Rel R l[j]? l'[j]? := by
  induction h generalizing j with
  | nil => simp
  | cons h _ ih =>
    cases j with
    | zero => simpa using Option.Rel.some h
    | succ j => simpa using ih j

theorem forall₂_get_some {α β : Type} {R : α → β → Prop} {l : List α} {l' : List β} (h : List.Forall₂ R l l') {j : ℕ} {a : α}
    (ha : l[j]? = some a) : ∃ b, l'[j]? = some b ∧ R a b := by
  have := forall₂_get h j
  rw [ha] at this
  generalize l'[j]? = o at this
  cases this with
  | some h => exact ⟨_, rfl, h⟩

theorem forall₂_set {α β : Type} {R : α → β → Prop} {l : List α} {l' : List β} (h : List.Forall₂ R l l') (j : ℕ) {a : α} {b : β}
    (hab : R a b) : List.Forall₂ R (l.set j a) (l'.set j b) := by
  induction h generalizing j with
  | nil => exact .nil
  | cons h h' ih =>
    cases j with
    | zero => exact .cons hab h'
    | succ j => exact .cons h (ih j)

theorem CopyS.cell {f : Dbl K → Dbl K} {ds : Dataset K} {sp sp' : LocalSpace K} (h : CopyS f ds sp sp') (c : Int × Int) :
    sp'.cell c = sp.cell c := by
  unfold LocalSpace.cell
  rw [h.sub, h.map]

theorem CopyS.addMember {f : Dbl K → Dbl K} {ds : Dataset K} {sp sp' s1 : LocalSpace K} (h : CopyS f ds sp sp') {gi : ℕ}
    {c : Int × Int} (e : sp.addMember gi c = .ok s1) : ∃ s1', sp'.addMember gi c = .ok s1' ∧ CopyS f ds s1 s1' := by
  unfold LocalSpace.addMember at e ⊢
  cases hg : sp.groups[gi]? with
  | none => rw [hg] at e; cases e
  | some g =>
    obtain ⟨g', hg', G⟩ := forall₂_get_some h.groups hg
    rw [hg] at e
    rw [hg', h.cell]
    cases hc : sp.cell c with
    | error x => rw [hc] at e; cases e
    | ok m =>
      rw [hc] at e
      simp only [bind, Except.bind, Except.ok.injEq] at e ⊢
      subst e
      refine ⟨_, rfl, h.len, h.sub, ?_, ?_⟩
      · simp only [h.map, h.sub, G.last, G.index]
      · refine forall₂_set h.groups gi ⟨G.index, rfl, ?_, ?_⟩
        · simp only [G.count]
        · obtain ⟨pts, h1, h2⟩ := G.centroid
          exact ⟨pts, h1, h2⟩

/-! ### The text -/

def lexC (c : ℕ × ℕ) : List (Lex K) := [.int c.1, .int c.2]

def lexG (P : Printer K) (rows : List (List (Dbl K))) (ℓ : ℕ) (a : AG) : List (Lex K) :=
  (ptsAt rows ℓ a.rep).map P.high ++ .int a.mem.length :: a.mem.flatMap lexC

def lexSp (P : Printer K) (rows : List (List (Dbl K))) (ℓ : ℕ) (abs : List AG) : List (Lex K) :=
  .int abs.length :: abs.flatMap (lexG P rows ℓ)

theorem Rep.saveGroupOld {ds : Dataset K} {rows : List (List (Dbl K))} {ℓ n : ℕ} {sp : LocalSpace K} {abs : List AG}
    (R : Rep ds rows ℓ n sp abs) (hn : (n : Int) = ds.maxCol - ℓ + 1) (H : Holds ds rows) (P : Printer K) {j : ℕ} {g : Group K} {a : AG}
    (hg : sp.groups[j]? = some g) (ha : abs[j]? = some a) : sp.saveGroupOld P ds g = .ok (lexG P rows ℓ a) := by
  have G := R.grp j g a hg ha
  have hwalk : ∀ (l : List (ℕ × ℕ)) (acc : List (Lex K)),
      l.foldlM (m := Res) (fun (l : List (Lex K)) (c : ℕ × ℕ) =>
        (.ok (l ++ [.int (c.1 : Int), .int (c.2 : Int)]) : Res (List (Lex K)))) acc
        = .ok (acc ++ l.flatMap lexC) := by
    intro l
    induction l with
    | nil => intro acc; simp [pure, Except.pure]
    | cons c cs ih =>
      intro acc
      rw [List.foldlM_cons]
      simp only [bind, Except.bind]
      rw [ih]
      simp [lexC]
  unfold LocalSpace.saveGroupOld Group.centroidPts
  rw [R.walk hn H hg ha, hwalk, G.centroid]
  simp only [(R.reps a (List.mem_of_getElem? ha)).points H, bind, Except.bind, G.count, lexG, List.nil_append]

theorem Rep.saveOld {ds : Dataset K} {rows : List (List (Dbl K))} {ℓ n : ℕ} {sp : LocalSpace K} {abs : List AG}
    (R : Rep ds rows ℓ n sp abs) (hn : (n : Int) = ds.maxCol - ℓ + 1) (H : Holds ds rows) (P : Printer K) :
    sp.saveOld P ds false = .ok (lexSp P rows ℓ abs) := by
  have hg : sp.groups.mapM (sp.saveGroupOld P ds) = .ok (abs.map (lexG P rows ℓ)) := by
    have : ∀ (gs : List (Group K)) (as : List AG), gs.length = as.length →
        (∀ (j : ℕ) g a, gs[j]? = some g → as[j]? = some a → sp.saveGroupOld P ds g = .ok (lexG P rows ℓ a)) →
        gs.mapM (sp.saveGroupOld P ds) = .ok (as.map (lexG P rows ℓ)) := by
      intro gs
      induction gs with
      | nil =>
        intro as h _
        cases as with
        | nil => rfl
        | cons _ _ => simp at h
      | cons g gs ih =>
        intro as h hh
        cases as with
        | nil => simp at h
        | cons a as =>
          rw [List.mapM_cons, hh 0 g a rfl rfl, ih as (by simpa using h) (fun j g' a' h1 h2 => hh (j + 1) g' a' h1 h2)]
          rfl
    exact this _ _ R.num (fun j g a h1 h2 => R.saveGroupOld hn H P h1 h2)
  unfold LocalSpace.saveOld
  simp only [Bool.false_eq_true, if_false, hg, bind, Except.bind, lexSp, R.num, List.flatMap_def]

/-- What is written when only the sizes are. -/
theorem Rep.saveSizes {ds : Dataset K} {rows : List (List (Dbl K))} {ℓ n : ℕ} {sp : LocalSpace K} {abs : List AG}
    (R : Rep ds rows ℓ n sp abs) (P : Printer K) (ds' : Dataset K) :
    sp.saveOld P ds' true = .ok (.int abs.length :: abs.map (fun a => .int a.mem.length)) := by
  unfold LocalSpace.saveOld
  simp only [if_true, bind, Except.bind, R.num]
  congr 2
  rw [← List.flatMap_def, ← List.map_eq_flatMap]
  apply List.ext_getElem?
  intro j
  rw [List.getElem?_map, List.getElem?_map]
  cases hj : sp.groups[j]? with
  | none =>
    have : abs[j]? = none := by
      rw [List.getElem?_eq_none_iff] at hj ⊢
      rw [← R.num]; exact hj
    rw [this]; rfl
  | some g =>
    have hlt : j < abs.length := by rw [← R.num]; exact (List.getElem?_eq_some_iff.1 hj).1
    have ha := List.getElem?_eq_getElem hlt
    rw [ha]
    simp only [Option.map_some, (R.grp j g _ hj ha).count]

/-! ### Reading it -/

theorem In.num_ok (l : Lex K) (rest : List (Lex K)) (old x : Dbl K) (h : numberOf l = some x) :
    In.num ⟨l :: rest, false⟩ old = (x, ⟨rest, false⟩) := by
  cases l with
  | int z => simp only [numberOf, Option.some.injEq] at h; subst h; rfl
  | num t d => simp only [numberOf, Option.some.injEq] at h; subst h; rfl
  | word s => cases h

theorem In.nums_ok (P : Printer K) (f : Dbl K → Dbl K) (rest : List (Lex K)) : ∀ (pts : List (Dbl K)),
    (∀ x ∈ pts, numberOf (P.high x) = some (f x)) →
    In.nums pts.length ⟨pts.map P.high ++ rest, false⟩ = (pts.map f, ⟨rest, false⟩) := by
  intro pts
  induction pts with
  | nil => intro _; rfl
  | cons x xs ih =>
    intro h
    simp only [List.length_cons, In.nums, List.map_cons, List.cons_append, In.num_ok _ _ _ _ (h x (by simp)),
      ih (fun y hy => h y (by simp [hy]))]

theorem In.int_ok (z : Int) (rest : List (Lex K)) (old : Option Int) :
    In.int ⟨.int z :: rest, false⟩ old = .ok (some z, ⟨rest, false⟩) := rfl

section

variable {ds : Dataset K} {rows : List (List (Dbl K))} {P : Printer K} {f : Dbl K → Dbl K}

theorem loadMembersOld_ok (gi : ℕ) (rest : List (Tok K)) (rest' : List (Lex K)) : ∀ (l : List (ℕ × ℕ)) (sp sp' s1 : LocalSpace K)
    (r1 : List (Tok K)) (i0 s0 : Option Int), CopyS f ds sp sp' →
    LocalSpace.loadMembers gi l.length (sp, l.flatMap tokC ++ rest) = .ok (s1, r1) →
    r1 = rest ∧ ∃ s1', LocalSpace.loadMembersOld gi l.length (sp', ⟨l.flatMap lexC ++ rest', false⟩) i0 s0 =
      .ok (s1', ⟨rest', false⟩) ∧ CopyS f ds s1 s1' := by
  intro l
  induction l with
  | nil =>
    intro sp sp' s1 r1 i0 s0 h e
    simp only [List.length_nil, LocalSpace.loadMembers, List.flatMap_nil, List.nil_append, Except.ok.injEq, Prod.mk.injEq] at e
    obtain ⟨rfl, rfl⟩ := e
    exact ⟨rfl, sp', rfl, h⟩
  | cons c cs ih =>
    intro sp sp' s1 r1 i0 s0 h e
    simp only [List.length_cons, List.flatMap_cons, tokC, List.cons_append, List.nil_append, LocalSpace.loadMembers,
      rdInt, bind, Except.bind] at e
    cases hadd : sp.addMember gi ((c.1 : Int), (c.2 : Int)) with
    | error x => rw [hadd] at e; cases e
    | ok s2 =>
      rw [hadd] at e
      obtain ⟨s2', e2, h2⟩ := h.addMember hadd
      obtain ⟨hr, s1', e1, h1⟩ := ih s2 s2' s1 r1 (some c.1) (some c.2) h2 e
      refine ⟨hr, s1', ?_, h1⟩
      simp only [List.length_cons, List.flatMap_cons, lexC, List.cons_append, List.nil_append, LocalSpace.loadMembersOld,
        In.int_ok, bind, Except.bind, useVar, e2]
      exact e1

theorem CopyS.push {sp sp' : LocalSpace K} (h : CopyS f ds sp sp') {g g' : Group K} (hg : CopyG f ds g g') :
    CopyS f ds { sp with groups := sp.groups ++ [g] } { sp' with groups := sp'.groups ++ [g'] } :=
  ⟨h.len, h.sub, h.map, List.rel_append h.groups (.cons hg .nil)⟩

theorem ptsAt_mem {ℓ : ℕ} {c : ℕ × ℕ} (hc : SubAt rows ℓ c) {x : Dbl K} (hx : x ∈ ptsAt rows ℓ c) : ∃ r ∈ rows, x ∈ r := by
  obtain ⟨r, hr, -⟩ := hc
  have : rows.getD c.1 [] = r := by rw [List.getD_eq_getElem?_getD, hr]; rfl
  unfold ptsAt slice at hx
  rw [this] at hx
  exact ⟨r, List.mem_of_getElem? hr, List.mem_of_mem_drop (List.mem_of_mem_take hx)⟩

theorem addMember_length {sp s1 : LocalSpace K} {gi : ℕ} {c : Int × Int} (e : sp.addMember gi c = .ok s1) :
    s1.length = sp.length ∧ s1.groups.length = sp.groups.length := by
  unfold LocalSpace.addMember at e
  cases hg : sp.groups[gi]? with
  | none => rw [hg] at e; cases e
  | some g =>
    rw [hg] at e
    cases hc : sp.cell c with
    | error x => rw [hc] at e; cases e
    | ok m =>
      rw [hc] at e
      simp only [bind, Except.bind, Except.ok.injEq] at e
      subst e
      exact ⟨rfl, by simp⟩

theorem loadMembers_length (gi : ℕ) : ∀ (n : ℕ) (st st' : LocalSpace K × List (Tok K)), LocalSpace.loadMembers gi n st = .ok st' →
    st'.1.length = st.1.length ∧ st'.1.groups.length = st.1.groups.length := by
  intro n
  induction n with
  | zero =>
    intro st st' e
    simp only [LocalSpace.loadMembers, Except.ok.injEq] at e
    subst e
    exact ⟨rfl, rfl⟩
  | succ n ih =>
    intro st st' e
    simp only [LocalSpace.loadMembers, bind, Except.bind] at e
    split at e
    · cases e
    · split at e
      · cases e
      · split at e
        · cases e
        · rename_i hadd
          have h1 := ih _ _ e
          have h2 := addMember_length hadd
          exact ⟨h1.1.trans h2.1, h1.2.trans h2.2⟩

theorem loadGroup_length (st st' : LocalSpace K × List (Tok K)) (e : LocalSpace.loadGroup ds st = .ok st') :
    st'.1.groups.length = st.1.groups.length + 1 := by
  simp only [LocalSpace.loadGroup, LocalSpace.pushGroup, bind, Except.bind] at e
  split at e
  · cases e
  · split at e
    · cases e
    · split at e
      · cases e
      · rename_i hp
        split at hp
        · cases hp
        · simp only [Except.ok.injEq] at hp
          split at e
          · cases e
          · rw [(loadMembers_length _ _ _ _ e).2, ← hp]
            simp

theorem loadGroups_length : ∀ (n : ℕ) (st st' : LocalSpace K × List (Tok K)), LocalSpace.loadGroups ds n st = .ok st' →
    st'.1.groups.length = st.1.groups.length + n := by
  intro n
  induction n with
  | zero =>
    intro st st' e
    simp only [LocalSpace.loadGroups, Except.ok.injEq] at e
    subst e
    rfl
  | succ n ih =>
    intro st st' e
    simp only [LocalSpace.loadGroups, bind, Except.bind] at e
    split at e
    · cases e
    · rename_i h
      rw [ih _ _ e, loadGroup_length _ _ h]
      omega

theorem load_groups_length (ℓ : ℕ) (abs : List AG) (rest r1 : List (Tok K)) (s1 : LocalSpace K)
    (e : LocalSpace.load ds ℓ (tokSp abs ++ rest) = .ok (s1, r1)) : s1.groups.length = abs.length := by
  simp only [LocalSpace.load, bind, Except.bind, tokSp, List.cons_append, rdSize] at e
  cases e0 : LocalSpace.new ds (ℓ : Int) with
  | error x => rw [e0] at e; cases e
  | ok sp =>
    rw [e0] at e
    have := loadGroups_length _ _ _ e
    simp only at this
    rw [this]
    unfold LocalSpace.new at e0
    simp only at e0
    split at e0
    · cases e0
    · simp only [Except.ok.injEq] at e0
      subst e0
      simp

theorem loadGroupOld_ok (H : Holds ds rows) (hP : ReadsBack P rows f) {ℓ : ℕ} (hl : rows ≠ [] → 1 ≤ ℓ) (a : AG)
    (hr : SubAt rows ℓ a.rep) (sp sp' s1 : LocalSpace K) (hsp : sp.length = ℓ) (r1 rest : List (Tok K)) (rest' : List (Lex K))
    (h : CopyS f ds sp sp') (e : LocalSpace.loadGroup ds (sp, tokG a ++ rest) = .ok (s1, r1)) :
    r1 = rest ∧ s1.length = ℓ ∧ ∃ s1', LocalSpace.loadGroupOld (sp', ⟨lexG P rows ℓ a ++ rest', false⟩) = .ok (s1', ⟨rest', false⟩) ∧
      CopyS f ds s1 s1' := by
  have hl' := hl hr.ne
  have hview := hr.getTimeSeries H hl'
  have hpts := hr.points H
  simp only [LocalSpace.loadGroup, tokG, List.cons_append, rdInt, bind, Except.bind, LocalSpace.pushGroup, hsp, hview,
    Int.toNat_natCast] at e
  have hlen := ptsAt_length hr
  have hnums := In.nums_ok P f (.int (a.mem.length : Int) :: (a.mem.flatMap lexC ++ rest')) (ptsAt rows ℓ a.rep)
    (fun x hx => by obtain ⟨r, h1, h2⟩ := ptsAt_mem hr hx; exact hP r h1 x h2)
  rw [hlen] at hnums
  have hcopy : CopyS f ds
      { sp with groups := sp.groups ++ [{ (Group.fresh sp.groups.length (ℓ : Int) : Group K) with centroid := .view (viewAt ds ℓ a.rep) }] }
      { sp' with groups := sp'.groups ++ [{ (Group.fresh sp'.groups.length (ℓ : Int) : Group K) with
        centroid := .own ((ptsAt rows ℓ a.rep).map f) }] } :=
    h.push ⟨by simp only [Group.fresh, h.groups.length_eq], rfl, rfl, _, hpts, rfl⟩
  obtain ⟨hr1, s1', e1, h1⟩ := loadMembersOld_ok (ds := ds) (f := f) sp.groups.length rest rest' a.mem _ _ s1 r1 none none hcopy
    (by simpa only [hsp] using e)
  refine ⟨hr1, ?_, s1', ?_, h1⟩
  · have := loadMembers_length _ _ _ _ e
    simpa only [hsp] using this.1
  · have hsp' : sp'.length = ℓ := by rw [h.len, hsp]
    unfold LocalSpace.loadGroupOld
    simp only
    rw [if_neg (by rw [hsp']; omega)]
    simp only [hsp', Int.toNat_natCast, lexG, List.append_assoc, List.cons_append, hnums, In.int_ok, bind, Except.bind, useVar,
      ← h.groups.length_eq]
    simpa only [hsp', h.groups.length_eq] using e1

theorem loadGroupsOld_ok (H : Holds ds rows) (hP : ReadsBack P rows f) {ℓ : ℕ} (hl : rows ≠ [] → 1 ≤ ℓ) (rest : List (Tok K))
    (rest' : List (Lex K)) : ∀ (as : List AG), (∀ a ∈ as, SubAt rows ℓ a.rep) → ∀ (sp sp' s1 : LocalSpace K) (r1 : List (Tok K)),
    sp.length = ℓ → CopyS f ds sp sp' → LocalSpace.loadGroups ds as.length (sp, as.flatMap tokG ++ rest) = .ok (s1, r1) →
    r1 = rest ∧ ∃ s1', LocalSpace.loadGroupsOld as.length (sp', ⟨as.flatMap (lexG P rows ℓ) ++ rest', false⟩) =
      .ok (s1', ⟨rest', false⟩) ∧ CopyS f ds s1 s1' := by
  intro as
  induction as with
  | nil =>
    intro _ sp sp' s1 r1 _ h e
    simp only [List.length_nil, LocalSpace.loadGroups, List.flatMap_nil, List.nil_append, Except.ok.injEq, Prod.mk.injEq] at e
    obtain ⟨rfl, rfl⟩ := e
    exact ⟨rfl, sp', rfl, h⟩
  | cons a as ih =>
    intro hr sp sp' s1 r1 hsp h e
    simp only [List.length_cons, List.flatMap_cons, List.append_assoc, LocalSpace.loadGroups, bind, Except.bind] at e
    cases e2 : LocalSpace.loadGroup ds (sp, tokG a ++ (as.flatMap tokG ++ rest)) with
    | error x => rw [e2] at e; cases e
    | ok st =>
      obtain ⟨s2, r2⟩ := st
      rw [e2] at e
      obtain ⟨rfl, hlen, s2', e3, h2⟩ := loadGroupOld_ok H hP hl a (hr a (by simp)) sp sp' s2 hsp r2 _
        (as.flatMap (lexG P rows ℓ) ++ rest') h e2
      obtain ⟨hrest, s1', e4, h1⟩ := ih (fun x hx => hr x (by simp [hx])) s2 s2' s1 r1 hlen h2 e
      refine ⟨hrest, s1', ?_, h1⟩
      simp only [List.length_cons, List.flatMap_cons, List.append_assoc, LocalSpace.loadGroupsOld, bind, Except.bind, e3]
      exact e4

theorem loadSpaceOld_ok (H : Holds ds rows) (hP : ReadsBack P rows f) {ℓ : ℕ} (hl : rows ≠ [] → 1 ≤ ℓ) (rest : List (Tok K))
    (rest' : List (Lex K)) (abs : List AG) (hr : ∀ a ∈ abs, SubAt rows ℓ a.rep) (s1 : LocalSpace K) (r1 : List (Tok K))
    (e : LocalSpace.load ds ℓ (tokSp abs ++ rest) = .ok (s1, r1)) :
    r1 = rest ∧ ∃ s1', LocalSpace.loadOld ds ℓ ⟨lexSp P rows ℓ abs ++ rest', false⟩ = .ok (s1', abs.length, ⟨rest', false⟩) ∧
      CopyS f ds s1 s1' := by
  simp only [LocalSpace.load, bind, Except.bind, tokSp, List.cons_append, rdSize] at e
  cases e0 : LocalSpace.new ds (ℓ : Int) with
  | error x => rw [e0] at e; cases e
  | ok sp =>
    rw [e0] at e
    have hsp : sp.length = ℓ ∧ sp.groups = [] := by
      unfold LocalSpace.new at e0
      simp only at e0
      split at e0
      · cases e0
      · simp only [Except.ok.injEq] at e0
        subst e0
        exact ⟨rfl, rfl⟩
    obtain ⟨hr1, s1', e1, h1⟩ := loadGroupsOld_ok H hP hl rest rest' abs hr sp sp s1 r1 hsp.1
      ⟨rfl, rfl, rfl, by rw [hsp.2]; exact .nil⟩ e
    refine ⟨hr1, s1', ?_, h1⟩
    simp only [LocalSpace.loadOld, e0, lexSp, List.cons_append, In.int_ok, bind, Except.bind, useVar, Int.toNat_natCast, e1]

/-- The loop over the lengths. -/
theorem loadOldLoop_ok (H : Holds ds rows) (hP : ReadsBack P rows f) (ABS : ℕ → List AG) : ∀ (n ℓ : ℕ),
    (∀ i, ℓ ≤ i → i < ℓ + n → (rows ≠ [] → 1 ≤ i) ∧ ∀ a ∈ ABS i, SubAt rows i a.rep) →
    ∀ (gs gs' g1 : GSpace K) (r1 : List (Tok K)), CopyGS f ds gs gs' →
    GSpace.loadLoop ds (List.range' ℓ n) gs ((List.range' ℓ n).flatMap (fun i => tokSp (ABS i))) = (g1, .ok r1) →
    ∃ g1', GSpace.loadOldLoop ds n ℓ gs' ⟨(List.range' ℓ n).flatMap (fun i => lexSp P rows i (ABS i)), false⟩ =
      (g1', .ok ⟨[], false⟩) ∧ CopyGS f ds g1 g1' ∧ g1'.threshold = gs'.threshold := by
  intro n
  induction n with
  | zero =>
    intro ℓ _ gs gs' g1 r1 h e
    simp only [List.range'_zero, GSpace.loadLoop, Prod.mk.injEq] at e
    rw [← e.1]
    exact ⟨gs', rfl, h, rfl⟩
  | succ n ih =>
    intro ℓ hok gs gs' g1 r1 h e
    rw [List.range'_succ, List.flatMap_cons] at e ⊢
    unfold GSpace.loadLoop at e
    obtain ⟨hl, hr⟩ := hok ℓ le_rfl (by omega)
    cases e0 : LocalSpace.load ds ℓ (tokSp (ABS ℓ) ++ (List.range' (ℓ + 1) n).flatMap (fun i => tokSp (ABS i))) with
    | error x => rw [e0] at e; simp at e
    | ok st =>
      obtain ⟨s1, r2⟩ := st
      rw [e0] at e
      obtain ⟨rfl, s1', e1, h1⟩ := loadSpaceOld_ok H hP hl _ ((List.range' (ℓ + 1) n).flatMap (fun i => lexSp P rows i (ABS i)))
        (ABS ℓ) hr s1 r2 e0
      have hn : s1.groups.length = (ABS ℓ).length := by
        have := load_groups_length _ _ _ _ _ e0
        exact this
      simp only at e
      split at e
      · simp at e
      · rename_i hlt
        have hlen : gs.spaces.length = gs'.spaces.length := h.spaces.length_eq
        unfold GSpace.loadOldLoop
        rw [e1]
        simp only
        rw [if_neg (by omega)]
        simp only [Int.toNat_natCast]
        have := ih (ℓ + 1) (fun i h1 h2 => hok i (by omega) (by omega))
          { gs with spaces := gs.spaces.set ℓ (some s1), total := gs.total + s1.groups.length }
          { gs' with spaces := gs'.spaces.set ℓ (some s1'), total := gs'.total + (ABS ℓ).length } g1 r1
          ⟨h.name, h.pairwise, h.warped, by simp only [h.total, hn], h.whole, forall₂_set h.spaces ℓ (.some h1)⟩ e
        push_cast at this
        exact this

end

/-! ### All lengths -/

/-- What is written for a grouping. -/
def lexAll (P : Printer K) (ds : Dataset K) (rows : List (List (Dbl K))) (gs : GSpace K) (m : Metric) (t : Dbl K) (ABS : ℕ → List AG) :
    List (Lex K) :=
  [.int groupFileVersion, P.low t, .int ds.itemCount, .int ds.maxCol, .int gs.minLength, .int gs.spaces.length, .word (metricName m)] ++
    gs.lengths.flatMap (fun ℓ => lexSp P rows ℓ (ABS ℓ))

section

variable {ds : Dataset K} {rows : List (List (Dbl K))} {m : Metric} {t : Dbl K} {whole : Bool} {gs : GSpace K}
  {SP : ℕ → LocalSpace K} {ABS : ℕ → List AG} {P : Printer K} {f : Dbl K → Dbl K}

theorem Usable.saveTextBody (U : Usable ds rows m t whole gs SP ABS) (hmax : 0 ≤ ds.maxCol) (hw : gs.whole = whole) (sizeOnly : Bool)
    (X : ℕ → List (Lex K)) (hX : ∀ ℓ, InRange ds.maxCol whole ℓ → (SP ℓ).saveOld P ds sizeOnly = .ok (X ℓ)) :
    gs.saveOld P ds sizeOnly =
      .ok ([.int gs.minLength, .int gs.spaces.length, .word (metricName m)] ++ gs.lengths.flatMap X) := by
  unfold GSpace.saveOld
  rw [mapM_ok (g := X)]
  · simp only [bind, Except.bind, U.name, List.flatMap_def]
  · intro ℓ hℓ
    have hd := (U.mem_lengths hmax hw ℓ).1 hℓ
    have : gs.spaceAt ℓ = .ok (some (SP ℓ)) := by
      unfold GSpace.spaceAt
      rw [if_neg (by omega), Int.toNat_natCast, U.spaces.on ℓ hd]
    rw [this]
    exact hX ℓ hd

theorem Usable.saveOld (U : Usable ds rows m t whole gs SP ABS) (hmax : 0 ≤ ds.maxCol) (hw : gs.whole = whole)
    (H : Holds ds rows) (P : Printer K) (old : Option (List (Lex K))) :
    (GSet.mk ds (some gs)).saveOld P false old true = (some (lexAll P ds rows gs m t ABS), .ok ()) := by
  unfold GSet.saveOld
  simp only [Bool.true_eq_false, if_false, U.threshold]
  rw [U.saveTextBody (P := P) hmax hw false (fun ℓ => lexSp P rows ℓ (ABS ℓ)) (fun ℓ hℓ => by
    obtain ⟨n, hn, R⟩ := U.spaces.rep ℓ hℓ
    exact R.saveOld hn H P)]
  rfl

/-- Loading the text, compared with loading the archive. -/
theorem Usable.loadOld (U : Usable ds rows m t whole gs SP ABS) (hmax : 0 ≤ ds.maxCol) (hw : gs.whole = whole)
    (H : Holds ds rows) (hpos : rows ≠ [] → ∀ ℓ, InRange ds.maxCol whole ℓ → 1 ≤ ℓ) (dst : GSet K) (Hd : Holds dst.ds rows)
    (hmaxd : dst.ds.maxCol = ds.maxCol) (hP : ReadsBack P rows f) (hlow : numberOf (P.low t) ≠ none) (gs' : GSpace K)
    (hload : dst.load (tokAll ds gs m t ABS) = ({ dst with groups := some gs' }, .ok ())) :
    ∃ gs'', dst.loadOld (some (lexAll P ds rows gs m t ABS)) = ({ dst with groups := some gs'' }, .ok gs''.total) ∧
      CopyGS f dst.ds gs' gs'' ∧ gs''.threshold = none := by
  have hmin : 0 ≤ gs.minLength := by
    have := U.spaces.size
    unfold GSpace.minLength
    split <;> omega
  have hmem := U.mem_lengths hmax hw
  have hcnt : (ds.itemCount : Int) = dst.ds.itemCount := by rw [H.count, Hd.count]
  have hlen := lengths_range gs hmin
  have hsize : toSize gs.minLength = gs.minLength.toNat := by
    unfold toSize
    rw [if_neg (by omega)]
  rw [hsize] at hlen
  have hts : ∀ ts, dst.load (.int ds.itemCount :: .int ds.maxCol :: .size (toSize gs.minLength) :: .size gs.spaces.length ::
      .str (metricName m) :: .dbl t :: ts) =
      ({ dst with groups := some (GSpace.loadLoop dst.ds gs.lengths (prepared dst.ds m t false) ts).1 },
        (GSpace.loadLoop dst.ds gs.lengths (prepared dst.ds m t false) ts).2.map (fun _ => ())) := by
    intro ts
    simp only [GSet.load, rdInt]
    rw [if_neg (by simpa using hcnt), if_neg (by simp [hmaxd])]
    simp only [GSpace.load, rdSize, rdStr, rdDbl, loadDistance_ok]
    rw [if_neg (by omega), lengths_range _ hmin]
    simp only [GSpace.fresh, List.take_nil, List.length_nil, Nat.sub_zero, List.nil_append, prepared]
  unfold tokAll at hload
  simp only [List.cons_append, List.nil_append] at hload
  rw [hts] at hload
  simp only [Prod.mk.injEq, GSet.mk.injEq, Option.some.injEq, true_and] at hload
  obtain ⟨h1, h2⟩ := hload
  obtain ⟨r1, hr1⟩ : ∃ r1, (GSpace.loadLoop dst.ds gs.lengths (prepared dst.ds m t false)
      (gs.lengths.flatMap (fun ℓ => tokSp (ABS ℓ)))).2 = .ok r1 := by
    cases hx : (GSpace.loadLoop dst.ds gs.lengths (prepared dst.ds m t false)
      (gs.lengths.flatMap (fun ℓ => tokSp (ABS ℓ)))).2 with
    | error e => rw [hx] at h2; cases h2
    | ok r => exact ⟨r, rfl⟩
  have hloop : GSpace.loadLoop dst.ds gs.lengths (prepared dst.ds m t false) (gs.lengths.flatMap (fun ℓ => tokSp (ABS ℓ))) =
      (gs', .ok r1) := Prod.ext h1 hr1
  rw [← hlen] at hloop
  let g0 : GSpace K := { prepared dst.ds m t false with threshold := none }
  obtain ⟨gs'', e, hc, ht⟩ := loadOldLoop_ok (P := P) (f := f) Hd hP ABS (gs.spaces.length - gs.minLength.toNat) gs.minLength.toNat (by
    intro i hi hi'
    have : i ∈ gs.lengths := by
      rw [← hlen, List.mem_range'_1]
      exact ⟨hi, hi'⟩
    have hd := (hmem i).1 this
    obtain ⟨n, hn, R⟩ := U.spaces.rep i hd
    exact ⟨fun h => hpos h i hd, R.reps⟩) (prepared dst.ds m t false) g0 gs' r1
    ⟨rfl, rfl, rfl, rfl, rfl, by
      simp only [g0, prepared]
      generalize (dst.ds.maxCol + 1).toNat = k
      induction k with
      | zero => exact .nil
      | succ k ih => rw [List.replicate_succ]; exact .cons .none ih⟩ hloop
  refine ⟨gs'', ?_, hc, ht⟩
  rw [hlen] at e
  obtain ⟨tv, htv⟩ := Option.ne_none_iff_exists'.1 hlow
  unfold GSet.loadOld lexAll
  simp only [List.cons_append, List.nil_append, In.int_ok, In.num_ok _ _ _ _ htv, useVar]
  rw [if_neg (by simp), if_neg (by simpa using hcnt)]
  simp only [GSpace.loadOld, In.int_ok, In.word, Bool.false_eq_true, if_false, loadDistance_ok, useVar]
  rw [if_neg (by omega)]
  simp only [GSpace.fresh]
  have hb : ((gs.spaces.length : Int) - gs.minLength).toNat = gs.spaces.length - gs.minLength.toNat := by omega
  have ha : ((gs.minLength.toNat : ℕ) : Int) = gs.minLength := Int.toNat_of_nonneg hmin
  rw [ha] at e
  rw [hb]
  have hg0 : g0 = { distanceName := metricName m, spaces := List.replicate (dst.ds.maxCol + 1).toNat none,
                    pairwise := some (.pairwise m), warped := some (warpedOf m), threshold := none, total := 0, whole := false } := rfl
  rw [← hg0, e]
  rfl

end

end Genex
