import Verif.Model.Serialize
import Verif.Lemmas.SearchDist
import Verif.Spec.Ready
import Verif.Props.Group

/-!
# Lemmas on saving and loading groups
-/

set_option linter.unusedSectionVars false

namespace Genex

open Spec Dbl Props

variable {K : Type} [Field K] [LinearOrder K] [IsStrictOrderedRing K] [HasSqrt K]

/-- What is written for a member, a group, the groups of one length. -/
def tokC (c : ℕ × ℕ) : List (Tok K) := [.int c.1, .int c.2]

def tokG (a : AG) : List (Tok K) := .int a.rep.1 :: .int a.rep.2 :: .int a.mem.length :: a.mem.flatMap tokC

def tokSp (abs : List AG) : List (Tok K) := .size abs.length :: abs.flatMap tokG

/-- A group after loading: its members are chained the other way round. -/
def AG.rev (a : AG) : AG := ⟨a.rep, a.mem.reverse⟩

theorem flatMap_rev (abs : List AG) : ((abs.map AG.rev).flatMap AG.mem).Perm (abs.flatMap AG.mem) := by
  induction abs with
  | nil => simp
  | cons a as ih =>
    simp only [List.map_cons, List.flatMap_cons, AG.rev]
    exact (List.reverse_perm _).append ih

section

variable {ds : Dataset K} {rows : List (List (Dbl K))}

theorem Wr.all_ok : ∀ (ws : List (Wr K)), (∀ w ∈ ws, w.2 = .ok ()) → Wr.all ws = (ws.flatMap Prod.fst, .ok ()) := by
  intro ws
  induction ws with
  | nil => intro _; rfl
  | cons w ws ih =>
    intro h
    unfold Wr.all
    rw [h w (by simp), ih (fun x hx => h x (by simp [hx]))]
    simp

theorem Rep.saveGroup {ℓ n : ℕ} {sp : LocalSpace K} {abs : List AG} (R : Rep ds rows ℓ n sp abs)
    (hn : (n : Int) = ds.maxCol - ℓ + 1) (H : Holds ds rows) {j : ℕ} {g : Group K} {a : AG} (hg : sp.groups[j]? = some g)
    (ha : abs[j]? = some a) : sp.saveGroup g = (tokG a, .ok ()) := by
  have G := R.grp j g a hg ha
  have hwalk : ∀ (l : List (ℕ × ℕ)) (acc : List (Tok K)),
      l.foldlM (m := Res) (fun (l : List (Tok K)) (c : ℕ × ℕ) =>
        (.ok (l ++ [.int (c.1 : Int), .int (c.2 : Int)]) : Res (List (Tok K)))) acc
        = .ok (acc ++ l.flatMap tokC) := by
    intro l
    induction l with
    | nil => intro acc; simp [pure, Except.pure]
    | cons c cs ih =>
      intro acc
      rw [List.foldlM_cons]
      simp only [bind, Except.bind]
      rw [ih]
      simp [tokC]
  unfold LocalSpace.saveGroup
  rw [R.walk hn H hg ha, hwalk]
  simp only [G.centroid, G.count, Centroid.index, Centroid.start, viewAt, viewOf, tokG, List.nil_append, List.cons_append]

theorem Rep.save {ℓ n : ℕ} {sp : LocalSpace K} {abs : List AG} (R : Rep ds rows ℓ n sp abs)
    (hn : (n : Int) = ds.maxCol - ℓ + 1) (H : Holds ds rows) : sp.save = (tokSp abs, .ok ()) := by
  have hg : sp.groups.map sp.saveGroup = abs.map (fun a => (tokG a, .ok ())) := by
    apply List.ext_getElem?
    intro j
    rw [List.getElem?_map, List.getElem?_map]
    cases hj : sp.groups[j]? with
    | none =>
      have : abs[j]? = none := by
        rw [List.getElem?_eq_none_iff] at hj ⊢
        rw [← R.num]; exact hj
      rw [this]; rfl
    | some g =>
      have hlt : j < abs.length := by rw [← R.num]; exact (List.getElem?_eq_some_iff.1 hj).1
      have ha := List.getElem?_eq_getElem hlt
      rw [ha]
      simp only [Option.map_some]
      rw [R.saveGroup hn H hj ha]
  unfold LocalSpace.save
  rw [hg, Wr.all_ok]
  · simp only [List.flatMap_cons, tokSp, R.num, List.singleton_append, List.flatMap_map]
  · intro w hw
    rcases List.mem_cons.1 hw with rfl | hw
    · rfl
    · obtain ⟨a, -, rfl⟩ := List.mem_map.1 hw
      rfl

/-- A prefix of `a ++ b` ends in `a` or in `b`. -/
theorem prefix_split {α : Type} {p a b : List α} (h : p <+: a ++ b) (hne : p ≠ a ++ b) :
    (p <+: a ∧ p ≠ a) ∨ ∃ p', p = a ++ p' ∧ p' <+: b ∧ p' ≠ b := by
  induction a generalizing p with
  | nil => exact Or.inr ⟨p, rfl, h, hne⟩
  | cons x xs ih =>
    cases p with
    | nil => exact Or.inl ⟨List.nil_prefix, by simp⟩
    | cons y ys =>
      rw [List.cons_append, List.cons_prefix_cons] at h
      obtain ⟨rfl, h⟩ := h
      rcases ih h (by simpa using hne) with ⟨h1, h2⟩ | ⟨p', rfl, h1, h2⟩
      · exact Or.inl ⟨by rw [List.cons_prefix_cons]; exact ⟨rfl, h1⟩, by simpa using h2⟩
      · exact Or.inr ⟨p', rfl, h1, h2⟩

theorem set_last (pre : List AG) (x y : AG) : (pre ++ [x]).set pre.length y = pre ++ [y] := by
  rw [List.set_append_right _ _ le_rfl]
  simp

/-- Reading the members of the last group. -/
theorem loadMembers_ok (H : Holds ds rows) {ℓ n : ℕ} (hn : (n : Int) = ds.maxCol - ℓ + 1) (r : ℕ × ℕ) (pre : List AG) :
    ∀ (l done : List (ℕ × ℕ)) (sp : LocalSpace K), Rep ds rows ℓ n sp (pre ++ [⟨r, done⟩]) →
      (∀ c ∈ l, SubAt rows ℓ c) → (l ++ (pre ++ [(⟨r, done⟩ : AG)]).flatMap AG.mem).Nodup →
      (∃ sp', Rep ds rows ℓ n sp' (pre ++ [⟨r, l.reverse ++ done⟩]) ∧
        ∀ rest, LocalSpace.loadMembers pre.length l.length (sp, l.flatMap tokC ++ rest) = .ok (sp', rest)) ∧
      ∀ p, p <+: l.flatMap tokC → p ≠ l.flatMap tokC →
        LocalSpace.loadMembers pre.length l.length (sp, p) = .error archiveError := by
  intro l
  induction l with
  | nil =>
    intro done sp R _ _
    refine ⟨⟨sp, by simpa using R, fun rest => rfl⟩, ?_⟩
    intro p h hne
    simp only [List.flatMap_nil, List.prefix_nil] at h
    exact absurd h hne
  | cons c cs ih =>
    intro done sp R hs hnd
    have hnd' := hnd
    rw [List.cons_append, List.nodup_cons] at hnd
    obtain ⟨hc, hnd⟩ := hnd
    obtain ⟨sp1, e1, R1⟩ := R.addMember hn (j := pre.length) (a := ⟨r, done⟩) (by simp) (hs c (by simp))
      (fun h => hc (List.mem_append_right _ h)) H
    rw [set_last] at R1
    simp only at R1
    have hperm : (cs ++ (pre ++ [(⟨r, c :: done⟩ : AG)]).flatMap AG.mem).Nodup := by
      refine (List.Perm.nodup_iff ?_).2 hnd'
      simp only [List.flatMap_append, List.flatMap_cons, List.flatMap_nil, List.append_nil]
      rw [List.cons_append]
      refine List.Perm.trans ?_ List.perm_middle
      refine List.Perm.append_left _ ?_
      exact List.perm_middle
    obtain ⟨⟨sp2, R2, e2⟩, hcut⟩ := ih (c :: done) sp1 R1 (fun x hx => hs x (by simp [hx])) hperm
    refine ⟨⟨sp2, by simpa using R2, ?_⟩, ?_⟩
    · intro rest
      simp only [List.length_cons, List.flatMap_cons, tokC, List.cons_append, List.nil_append, LocalSpace.loadMembers,
        rdInt, bind, Except.bind, e1]
      exact e2 rest
    · intro p hp hne
      cases p with
      | nil => rfl
      | cons x p =>
        rw [List.flatMap_cons, tokC, List.cons_append, List.cons_prefix_cons] at hp
        obtain ⟨rfl, hp⟩ := hp
        cases p with
        | nil => rfl
        | cons y p =>
          rw [List.cons_append, List.nil_append, List.cons_prefix_cons] at hp
          obtain ⟨rfl, hp⟩ := hp
          simp only [List.length_cons, LocalSpace.loadMembers, rdInt, bind, Except.bind, e1]
          exact hcut p hp (by
            rintro rfl
            exact hne (by simp [tokC]))

/-- Reading one group. -/
theorem loadGroup_ok (H : Holds ds rows) {ℓ n : ℕ} (hn : (n : Int) = ds.maxCol - ℓ + 1) (hl : rows ≠ [] → 1 ≤ ℓ)
    (pre : List AG) (a : AG) (sp : LocalSpace K) (R : Rep ds rows ℓ n sp pre) (hr : SubAt rows ℓ a.rep)
    (hs : ∀ c ∈ a.mem, SubAt rows ℓ c) (hnd : (a.mem ++ pre.flatMap AG.mem).Nodup) :
    (∃ sp', Rep ds rows ℓ n sp' (pre ++ [a.rev]) ∧
      ∀ rest, LocalSpace.loadGroup ds (sp, tokG a ++ rest) = .ok (sp', rest)) ∧
    ∀ p, p <+: tokG a → p ≠ tokG a → LocalSpace.loadGroup ds (sp, p) = .error archiveError := by
  obtain ⟨sp1, e1, R1⟩ := R.pushGroup (hl hr.ne) hr H
  obtain ⟨⟨sp2, R2, e2⟩, hcut⟩ := loadMembers_ok H hn a.rep pre a.mem [] sp1 R1 hs (by simpa using hnd)
  rw [List.append_nil] at R2
  refine ⟨⟨sp2, R2, ?_⟩, ?_⟩
  · intro rest
    simp only [LocalSpace.loadGroup, tokG, List.cons_append, rdInt, bind, Except.bind, e1, R.num, Int.toNat_natCast]
    exact e2 rest
  · intro p hp hne
    cases p with
    | nil => rfl
    | cons x p =>
      rw [tokG, List.cons_prefix_cons] at hp
      obtain ⟨rfl, hp⟩ := hp
      cases p with
      | nil => rfl
      | cons y p =>
        rw [List.cons_prefix_cons] at hp
        obtain ⟨rfl, hp⟩ := hp
        cases p with
        | nil => simp only [LocalSpace.loadGroup, rdInt, bind, Except.bind, e1]
        | cons z p =>
          rw [List.cons_prefix_cons] at hp
          obtain ⟨rfl, hp⟩ := hp
          simp only [LocalSpace.loadGroup, rdInt, bind, Except.bind, e1, R.num, Int.toNat_natCast]
          exact hcut p hp (by
            rintro rfl
            exact hne rfl)

theorem loadGroups_ok (H : Holds ds rows) {ℓ n : ℕ} (hn : (n : Int) = ds.maxCol - ℓ + 1) (hl : rows ≠ [] → 1 ≤ ℓ) :
    ∀ (as pre : List AG) (sp : LocalSpace K), Rep ds rows ℓ n sp pre → (∀ a ∈ as, SubAt rows ℓ a.rep) →
      (∀ a ∈ as, ∀ c ∈ a.mem, SubAt rows ℓ c) → (as.flatMap AG.mem ++ pre.flatMap AG.mem).Nodup →
      (∃ sp', Rep ds rows ℓ n sp' (pre ++ as.map AG.rev) ∧
        ∀ rest, LocalSpace.loadGroups ds as.length (sp, as.flatMap tokG ++ rest) = .ok (sp', rest)) ∧
      ∀ p, p <+: as.flatMap tokG → p ≠ as.flatMap tokG →
        LocalSpace.loadGroups ds as.length (sp, p) = .error archiveError := by
  intro as
  induction as with
  | nil =>
    intro pre sp R _ _ _
    refine ⟨⟨sp, by simpa using R, fun rest => rfl⟩, ?_⟩
    intro p h hne
    simp only [List.flatMap_nil, List.prefix_nil] at h
    exact absurd h hne
  | cons a as ih =>
    intro pre sp R hr hs hnd
    rw [List.flatMap_cons, List.append_assoc] at hnd
    have hnd1 : (a.mem ++ pre.flatMap AG.mem).Nodup := by
      refine hnd.sublist ?_
      exact List.Sublist.append_left (List.sublist_append_right _ _) _
    obtain ⟨⟨sp1, R1, e1⟩, hcut1⟩ := loadGroup_ok H hn hl pre a sp R (hr a (by simp)) (hs a (by simp)) hnd1
    have hnd2 : (as.flatMap AG.mem ++ (pre ++ [a.rev]).flatMap AG.mem).Nodup := by
      refine (List.Perm.nodup_iff ?_).2 hnd
      simp only [List.flatMap_append, List.flatMap_cons, List.flatMap_nil, List.append_nil, AG.rev]
      refine ((List.reverse_perm a.mem).append_left _ |>.append_left _).trans ?_
      rw [← List.append_assoc]
      refine List.perm_append_comm.trans ?_
      exact List.Perm.refl _
    obtain ⟨⟨sp2, R2, e2⟩, hcut2⟩ := ih (pre ++ [a.rev]) sp1 R1 (fun x hx => hr x (by simp [hx]))
      (fun x hx => hs x (by simp [hx])) hnd2
    refine ⟨⟨sp2, by simpa using R2, ?_⟩, ?_⟩
    · intro rest
      simp only [List.length_cons, List.flatMap_cons, List.append_assoc, LocalSpace.loadGroups, bind, Except.bind, e1]
      exact e2 rest
    · intro p hp hne
      rw [List.flatMap_cons] at hp hne
      rcases prefix_split hp hne with ⟨h1, h2⟩ | ⟨p', rfl, h1, h2⟩
      · simp only [List.length_cons, LocalSpace.loadGroups, bind, Except.bind, hcut1 p h1 h2]
      · simp only [List.length_cons, LocalSpace.loadGroups, bind, Except.bind, e1]
        exact hcut2 p' h1 h2

/-- Reading the groups of one length into a dataset with the same series. -/
theorem loadSpace_ok (H : Holds ds rows) {ℓ n : ℕ} (hn : (n : Int) = ds.maxCol - ℓ + 1) (hl : rows ≠ [] → 1 ≤ ℓ)
    (abs : List AG) (hr : ∀ a ∈ abs, SubAt rows ℓ a.rep) (hs : ∀ a ∈ abs, ∀ c ∈ a.mem, SubAt rows ℓ c)
    (hnd : (abs.flatMap AG.mem).Nodup) :
    (∃ sp', Rep ds rows ℓ n sp' (abs.map AG.rev) ∧
      ∀ rest, LocalSpace.load ds ℓ (tokSp abs ++ rest) = .ok (sp', rest)) ∧
    ∀ p, p <+: tokSp abs → p ≠ tokSp abs → LocalSpace.load ds ℓ p = .error archiveError := by
  obtain ⟨sp0, e0, R0⟩ := Rep.new (ℓ := ℓ) H hn
  obtain ⟨⟨sp1, R1, e1⟩, hcut⟩ := loadGroups_ok H hn hl abs [] sp0 R0 hr hs (by simpa using hnd)
  rw [List.nil_append] at R1
  refine ⟨⟨sp1, R1, ?_⟩, ?_⟩
  · intro rest
    simp only [LocalSpace.load, e0, tokSp, List.cons_append, rdSize, bind, Except.bind]
    exact e1 rest
  · intro p hp hne
    cases p with
    | nil => simp only [LocalSpace.load, e0, rdSize, bind, Except.bind]
    | cons x p =>
      rw [tokSp, List.cons_prefix_cons] at hp
      obtain ⟨rfl, hp⟩ := hp
      simp only [LocalSpace.load, e0, rdSize, bind, Except.bind]
      exact hcut p hp (by
        rintro rfl
        exact hne rfl)

/-! ### All lengths -/

/-- The loop over the lengths. -/
theorem loadLoop_ok (T : ℕ → List (Tok K)) (SP : ℕ → LocalSpace K) (is : List ℕ)
    (hok : ∀ i ∈ is, ∀ rest, LocalSpace.load ds i (T i ++ rest) = .ok (SP i, rest))
    (hcut : ∀ i ∈ is, ∀ p, p <+: T i → p ≠ T i → LocalSpace.load ds i p = .error archiveError) :
    ∀ (gs : GSpace K), (∀ i ∈ is, i < gs.spaces.length) →
      (∀ rest, GSpace.loadLoop ds is gs (is.flatMap T ++ rest) =
        ({ gs with spaces := is.foldl (fun s i => s.set i (some (SP i))) gs.spaces,
                   total := gs.total + ((is.map (fun i => (SP i).groups.length)).sum : ℕ) }, .ok rest)) ∧
      ∀ p, p <+: is.flatMap T → p ≠ is.flatMap T → (GSpace.loadLoop ds is gs p).2 = .error archiveError := by
  induction is with
  | nil =>
    intro gs _
    refine ⟨fun rest => by simp [GSpace.loadLoop], ?_⟩
    intro p h hne
    simp only [List.flatMap_nil, List.prefix_nil] at h
    exact absurd h hne
  | cons i is ih =>
    intro gs hlt
    have hi := hlt i (by simp)
    obtain ⟨h1, h2⟩ := ih (fun j hj => hok j (by simp [hj])) (fun j hj => hcut j (by simp [hj]))
      { gs with spaces := gs.spaces.set i (some (SP i)), total := gs.total + (SP i).groups.length }
      (fun j hj => by simp only [List.length_set]; exact hlt j (by simp [hj]))
    constructor
    · intro rest
      unfold GSpace.loadLoop
      rw [List.flatMap_cons, List.append_assoc, hok i (by simp)]
      simp only [if_neg (Nat.not_le.2 hi)]
      rw [h1]
      simp only [List.foldl_cons, List.map_cons, List.sum_cons, Nat.cast_add, add_assoc]
    · intro p hp hne
      rw [List.flatMap_cons] at hp hne
      unfold GSpace.loadLoop
      rcases prefix_split hp hne with ⟨g1, g2⟩ | ⟨p', rfl, g1, g2⟩
      · rw [hcut i (by simp) p g1 g2]
      · rw [hok i (by simp)]
        simp only [if_neg (Nat.not_le.2 hi)]
        exact h2 p' g1 g2

theorem filter_range (n a : ℕ) : (List.range n).filter (fun i : ℕ => decide ((a : Int) ≤ (i : Int))) = List.range' a (n - a) := by
  induction n with
  | zero => simp
  | succ n ih =>
    rw [List.range_succ, List.filter_append, ih]
    by_cases h : a ≤ n
    · rw [show n + 1 - a = (n - a) + 1 by omega, List.range'_concat]
      simp only [List.filter_cons, List.filter_nil, Nat.one_mul]
      rw [if_pos (by simpa using h), show a + (n - a) = n by omega]
    · rw [show n + 1 - a = 0 by omega, show n - a = 0 by omega]
      simp
      omega

/-- The lengths, from the two numbers in the file. -/
theorem lengths_range (gs : GSpace K) (h : 0 ≤ gs.minLength) :
    List.range' (toSize gs.minLength) (gs.spaces.length - toSize gs.minLength) = gs.lengths := by
  unfold GSpace.lengths toSize
  rw [if_neg (by omega), if_neg (by omega), ← filter_range]
  congr 1
  funext i
  rw [Int.toNat_of_nonneg h]

end

/-- What searching needs of a grouping: it holds after grouping and after loading. -/
structure Usable (ds : Dataset K) (rows : List (List (Dbl K))) (m : Metric) (t : Dbl K) (whole : Bool) (gs : GSpace K)
    (SP : ℕ → LocalSpace K) (ABS : ℕ → List AG) : Prop where
  name : gs.distanceName = metricName m
  pairwise : gs.pairwise = some (.pairwise m)
  warped : gs.warped = some (warpedOf m)
  threshold : gs.threshold = some t
  spaces : Spaces ds rows (InRange ds.maxCol whole) gs SP ABS
  all : ∀ ℓ, InRange ds.maxCol whole ℓ → ∀ c, c ∈ (ABS ℓ).flatMap AG.mem ↔ SubAt rows ℓ c
  repMem : ∀ ℓ, InRange ds.maxCol whole ℓ → ∀ a ∈ ABS ℓ, a.rep ∈ a.mem
  total : gs.total = ((gs.spaces.map (fun s => match s with | some sp => sp.groups.length | none => 0)).sum : ℕ)

theorem GroupedAll.usable [Arith K] {ds : Dataset K} {rows : List (List (Dbl K))} [BandOps] {ratio : ℚ} {m : Metric} {t : Dbl K} {whole : Bool}
    {gs : GSpace K} (G : GroupedAll ds rows ratio m t whole gs) : ∃ SP ABS, Usable ds rows m t whole gs SP ABS ∧
      ∀ ℓ, InRange ds.maxCol whole ℓ → Grouped ds rows ratio (.pairwise m) t ℓ (SP ℓ) (ABS ℓ) := by
  obtain ⟨SP, ABS, S, hG⟩ := G.spaces
  exact ⟨SP, ABS, ⟨G.name, G.pairwise, G.warped, G.threshold, S, fun ℓ h => (hG ℓ h).all,
    fun ℓ h a ha => List.mem_of_getLast? ((hG ℓ h).repIn a ha).1, G.total⟩, hG⟩

/-- What is written for a grouping. -/
def tokAll (ds : Dataset K) (gs : GSpace K) (m : Metric) (t : Dbl K) (ABS : ℕ → List AG) : List (Tok K) :=
  [.int ds.itemCount, .int ds.maxCol, .size (toSize gs.minLength), .size gs.spaces.length, .str (metricName m), .dbl t] ++
    gs.lengths.flatMap (fun ℓ => tokSp (ABS ℓ))

section

variable {ds : Dataset K} {rows : List (List (Dbl K))} {m : Metric} {t : Dbl K} {whole : Bool} {gs : GSpace K}
  {SP : ℕ → LocalSpace K} {ABS : ℕ → List AG}

theorem Usable.mem_lengths (U : Usable ds rows m t whole gs SP ABS) (hmax : 0 ≤ ds.maxCol) (hw : gs.whole = whole) (ℓ : ℕ) :
    ℓ ∈ gs.lengths ↔ InRange ds.maxCol whole ℓ := by
  rw [← hw]
  exact Genex.mem_lengths hmax U.spaces.size ℓ

theorem Usable.save (U : Usable ds rows m t whole gs SP ABS) (hmax : 0 ≤ ds.maxCol) (hw : gs.whole = whole)
    (H : Holds ds rows) : (GSet.mk ds (some gs)).save = (tokAll ds gs m t ABS, .ok ()) := by
  have hsp : ∀ ℓ ∈ gs.lengths, gs.saveAt ℓ = (tokSp (ABS ℓ), .ok ()) := by
    intro ℓ hℓ
    have hd := (U.mem_lengths hmax hw ℓ).1 hℓ
    obtain ⟨n, hn, R⟩ := U.spaces.rep ℓ hd
    unfold GSpace.saveAt
    have : gs.spaceAt ℓ = .ok (some (SP ℓ)) := by
      unfold GSpace.spaceAt
      rw [if_neg (by omega), Int.toNat_natCast, U.spaces.on ℓ hd]
    rw [this]
    exact R.save hn H
  have hgs : gs.save = ([.size (toSize gs.minLength), .size gs.spaces.length, .str (metricName m), .dbl t] ++
      gs.lengths.flatMap (fun ℓ => tokSp (ABS ℓ)), .ok ()) := by
    unfold GSpace.save
    rw [U.threshold]
    simp only
    rw [Wr.all_ok]
    · rw [List.flatMap_cons, U.name, List.flatMap_map]
      congr 2
      apply List.flatMap_congr
      intro ℓ hℓ
      rw [hsp ℓ hℓ]
    · intro w hw'
      rcases List.mem_cons.1 hw' with rfl | hw'
      · rfl
      · obtain ⟨ℓ, hℓ, rfl⟩ := List.mem_map.1 hw'
        rw [hsp ℓ hℓ]
  unfold GSet.save
  simp only
  rw [hgs, Wr.all_ok]
  · simp [tokAll]
  · intro w hw'
    simp only [List.mem_cons, List.not_mem_nil, or_false] at hw'
    rcases hw' with rfl | rfl <;> rfl

/-- Loading what was saved, into a dataset with the same series. -/
theorem Usable.load (U : Usable ds rows m t whole gs SP ABS) (hmax : 0 ≤ ds.maxCol) (hw : gs.whole = whole)
    (H : Holds ds rows) (hpos : rows ≠ [] → ∀ ℓ, InRange ds.maxCol whole ℓ → 1 ≤ ℓ) (dst : GSet K) (Hd : Holds dst.ds rows)
    (hmaxd : dst.ds.maxCol = ds.maxCol) :
    (∃ gs' SP', Usable dst.ds rows m t whole gs' SP' (fun ℓ => (ABS ℓ).map AG.rev) ∧ gs'.whole = false ∧
      gs'.spaces.length = gs.spaces.length ∧ gs'.total = gs.total ∧
      dst.load (tokAll ds gs m t ABS) = ({ dst with groups := some gs' }, .ok ())) ∧
    ∀ p, p <+: tokAll ds gs m t ABS → p ≠ tokAll ds gs m t ABS → (dst.load p).2 = .error archiveError := by
  have hrange : ∀ ℓ, InRange ds.maxCol whole ℓ → (∃ sp' : LocalSpace K, (∃ n : ℕ, (n : Int) = dst.ds.maxCol - ℓ + 1 ∧
        Rep dst.ds rows ℓ n sp' ((ABS ℓ).map AG.rev)) ∧
        ∀ rest, LocalSpace.load dst.ds ℓ (tokSp (ABS ℓ) ++ rest) = .ok (sp', rest)) ∧
      ∀ p, p <+: tokSp (ABS ℓ) → p ≠ tokSp (ABS ℓ) → LocalSpace.load dst.ds ℓ p = .error archiveError := by
    intro ℓ hℓ
    obtain ⟨n, hn, R⟩ := U.spaces.rep ℓ hℓ
    obtain ⟨⟨sp', R', e⟩, hcut⟩ := loadSpace_ok Hd (ℓ := ℓ) (n := n) (by omega) (fun h => hpos h ℓ hℓ) (ABS ℓ)
      R.reps R.mems R.nodup
    exact ⟨⟨sp', ⟨n, by omega, R'⟩, e⟩, hcut⟩
  have h1 := fun ℓ hℓ => (hrange ℓ hℓ).1
  have h2 := fun ℓ hℓ => (hrange ℓ hℓ).2
  choose! SP' hrep hok using h1
  have hmem := U.mem_lengths hmax hw
  have hmin : 0 ≤ gs.minLength := by
    have := U.spaces.size
    unfold GSpace.minLength
    split <;> omega
  set g1 : GSpace K := prepared dst.ds m t false with hg1
  have hlen1 : g1.spaces.length = gs.spaces.length := by
    have := U.spaces.size
    rw [hg1]
    simp only [prepared, List.length_replicate]
    omega
  obtain ⟨hload, hcut⟩ := loadLoop_ok (ds := dst.ds) (fun ℓ => tokSp (ABS ℓ)) SP' gs.lengths
    (fun ℓ hℓ => hok ℓ ((hmem ℓ).1 hℓ)) (fun ℓ hℓ => h2 ℓ ((hmem ℓ).1 hℓ)) g1 (by
      intro ℓ hℓ
      have := ((hmem ℓ).1 hℓ).1
      have := U.spaces.size
      omega)
  have hgload : ∀ ts, GSpace.load dst.ds GSpace.fresh
      (.size (toSize gs.minLength) :: .size gs.spaces.length :: .str (metricName m) :: .dbl t :: ts) =
      GSpace.loadLoop dst.ds gs.lengths g1 ts := by
    intro ts
    simp only [GSpace.load, rdSize, rdStr, rdDbl, loadDistance_ok]
    rw [if_neg (by omega), lengths_range _ hmin]
    simp only [GSpace.fresh, List.take_nil, List.length_nil, Nat.sub_zero, List.nil_append, hg1, prepared]
  have hcnt : (ds.itemCount : Int) = dst.ds.itemCount := by rw [H.count, Hd.count]
  have hhead : ∀ ts, dst.load (.int ds.itemCount :: .int ds.maxCol :: ts) =
      ({ dst with groups := some (GSpace.load dst.ds GSpace.fresh ts).1 },
        (GSpace.load dst.ds GSpace.fresh ts).2.map (fun _ => ())) := by
    intro ts
    simp only [GSet.load, rdInt]
    rw [if_neg (by simpa using hcnt), if_neg (by simp [hmaxd])]
  have hfin := hload []
  rw [List.append_nil] at hfin
  constructor
  · let is := gs.lengths
    let gs' : GSpace K := { g1 with spaces := is.foldl (fun s i => s.set i (some (SP' i))) g1.spaces,
                                    total := g1.total + ((is.map (fun i => (SP' i).groups.length)).sum : ℕ) }
    have hlen' : gs'.spaces.length = g1.spaces.length := by
      simp only [gs']
      generalize is = is
      generalize g1.spaces = l
      induction is generalizing l with
      | nil => rfl
      | cons i is ih => rw [List.foldl_cons, ih, List.length_set]
    have hlt : ∀ i ∈ is, i < g1.spaces.length := by
      intro i hi
      have := ((hmem i).1 hi).1
      have := U.spaces.size
      omega
    have hget := fun j => foldl_set_get (fun i => some (SP' i)) is g1.spaces j hlt
    have hnum : ∀ ℓ, InRange ds.maxCol whole ℓ → (SP' ℓ).groups.length = (SP ℓ).groups.length := by
      intro ℓ hℓ
      obtain ⟨n, -, R⟩ := U.spaces.rep ℓ hℓ
      obtain ⟨n', -, R'⟩ := hrep ℓ hℓ
      rw [R.num, R'.num, List.length_map]
    have htot : gs'.total = ((gs'.spaces.map (fun s => match s with | some sp => sp.groups.length | none => 0)).sum : ℕ) := by
      simp only [gs']
      rw [sum_of_subset (fun s : Option (LocalSpace K) => match s with | some sp => sp.groups.length | none => 0) none rfl
        (fun i => some (SP' i)) is g1.spaces (lengths_nodup gs) (by
          intro i hi
          have := hlt i hi
          rw [hg1] at this ⊢
          simp only [prepared, List.length_replicate] at this ⊢
          rw [List.getElem?_replicate, if_pos this])]
      rw [hg1]
      simp [prepared]
    refine ⟨gs', SP', ⟨rfl, rfl, rfl, rfl, ⟨?_, ?_, ?_, ?_, ?_⟩, ?_, ?_, htot⟩, rfl, by rw [hlen', hlen1], ?_, ?_⟩
    · have := U.spaces.size; omega
    · intro ℓ h; exact h.1
    · intro ℓ h
      rw [hmaxd] at h
      have := hget ℓ
      rw [if_pos ((hmem ℓ).2 h)] at this
      exact this
    · intro ℓ h
      rw [hmaxd] at h
      exact hrep ℓ h
    · intro ℓ hle h
      rw [hmaxd] at h
      have := hget ℓ
      rw [if_neg (fun h' => h ((hmem ℓ).1 h'))] at this
      rw [show gs'.spaces[ℓ]? = _ from this]
      have hs := U.spaces.size
      rw [hg1]
      simp only [prepared]
      rw [List.getElem?_replicate, if_pos (by omega)]
    · intro ℓ h c
      rw [hmaxd] at h
      rw [← U.all ℓ h c]
      exact (flatMap_rev (ABS ℓ)).mem_iff
    · intro ℓ h a ha
      rw [hmaxd] at h
      obtain ⟨b, hb, rfl⟩ := List.mem_map.1 ha
      simp only [AG.rev, List.mem_reverse]
      exact U.repMem ℓ h b hb
    · rw [htot, U.total]
      congr 1
      have : gs'.spaces.map (fun s => match s with | some sp => sp.groups.length | none => 0) =
          gs.spaces.map (fun s => match s with | some sp => sp.groups.length | none => 0) := by
        apply List.ext_getElem?
        intro j
        rw [List.getElem?_map, List.getElem?_map]
        by_cases hj : (j : Int) ≤ ds.maxCol
        · by_cases hd : InRange ds.maxCol whole j
          · have e := hget j
            rw [if_pos ((hmem j).2 hd)] at e
            rw [show gs'.spaces[j]? = _ from e, U.spaces.on j hd]
            simp only [Option.map_some, hnum j hd]
          · have e := hget j
            rw [if_neg (fun h' => hd ((hmem j).1 h'))] at e
            rw [show gs'.spaces[j]? = _ from e, U.spaces.off j hj hd, hg1]
            simp only [prepared]
            rw [List.getElem?_replicate, if_pos (by have := U.spaces.size; omega)]
        · rw [List.getElem?_eq_none (by have := U.spaces.size; omega), List.getElem?_eq_none (by have := U.spaces.size; omega)]
      rw [this]
    · unfold tokAll
      rw [List.cons_append, List.cons_append, hhead]
      simp only [List.cons_append, List.nil_append, hgload]
      rw [hfin]
      rfl
  · intro p hp hne
    unfold tokAll at hp hne
    cases p with
    | nil => rfl
    | cons x0 p =>
      rw [List.cons_append, List.cons_prefix_cons] at hp
      obtain ⟨rfl, hp⟩ := hp
      cases p with
      | nil => rfl
      | cons x1 p =>
        rw [List.cons_append, List.cons_prefix_cons] at hp
        obtain ⟨rfl, hp⟩ := hp
        rw [hhead]
        simp only
        have : (GSpace.load dst.ds GSpace.fresh p).2 = .error archiveError := by
          cases p with
          | nil => rfl
          | cons x2 p =>
            rw [List.cons_append, List.cons_prefix_cons] at hp
            obtain ⟨rfl, hp⟩ := hp
            cases p with
            | nil => rfl
            | cons x3 p =>
              rw [List.cons_append, List.cons_prefix_cons] at hp
              obtain ⟨rfl, hp⟩ := hp
              cases p with
              | nil => rfl
              | cons x4 p =>
                rw [List.cons_append, List.cons_prefix_cons] at hp
                obtain ⟨rfl, hp⟩ := hp
                cases p with
                | nil => rfl
                | cons x5 p =>
                  rw [List.cons_append, List.cons_prefix_cons] at hp
                  obtain ⟨rfl, hp⟩ := hp
                  rw [hgload]
                  exact hcut p hp (by
                    rintro rfl
                    exact hne rfl)
        rw [this]
        rfl

end

/-- What holds of objects that are ready for searching. -/
theorem Spec.Ready.usable [Arith K] [PairwiseEvals K] {rows : List (List (Dbl K))} {name : String} {t : Dbl K} {whole : Bool} {z : GSet K}
    (hz : Ready rows name t whole z) :
    Holds z.ds rows ∧ 0 ≤ z.ds.maxCol ∧ (rows ≠ [] → ∀ ℓ, InRange z.ds.maxCol whole ℓ → 1 ≤ ℓ) ∧
    ∃ m gs SP ABS, name = metricName m ∧ z.groups = some gs ∧ Usable z.ds rows m t whole gs SP ABS := by
  induction hz with
  | grouped s H hmax ratio log numThreads out ho N hN =>
    obtain ⟨m, gs, rfl, rfl, rfl, G, hw⟩ := groupAll_success H hmax ho hN
    obtain ⟨SP, ABS, U, -⟩ := G.usable
    exact ⟨H, hmax, fun h ℓ hℓ => range_pos hw h hℓ, m, gs, SP, ABS, rfl, rfl, U⟩
  | loaded z hz hw dst Hd hmaxd ih =>
    obtain ⟨H, hmax, hpos, m, gs, SP, ABS, rfl, hgs, U⟩ := ih
    obtain ⟨⟨gs', SP', U', -, -, -, e⟩, -⟩ := U.load hmax (hw gs hgs) H hpos dst Hd hmaxd
    have hs := U.save hmax (hw gs hgs) H
    have hz' : z = ⟨z.ds, some gs⟩ := by rw [← hgs]
    rw [hz', hs, e]
    rw [← hmaxd] at hmax hpos
    exact ⟨Hd, hmax, hpos, m, gs', SP', _, rfl, rfl, U'⟩

end Genex
