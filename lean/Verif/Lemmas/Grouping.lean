import Verif.Lemmas.Group
import Verif.Lemmas.Exact
import Verif.Spec.Group

/-! Grouping the subsequences of one length. -/

set_option linter.unusedSectionVars false

namespace Genex

open Spec Dbl Props

variable {K : Type} [Field K] [LinearOrder K] [HasSqrt K] [Arith K]

/-! ### The nearest group -/

/-- If all distances can be computed the search ends; an index it names is one of a group. -/
theorem bestLoop_ok {dist : Group K → Dbl K → Res (Dbl K)} : ∀ (gs : List (Group K)) (i : ℕ) (b0 : Dbl K × Option ℕ),
    (∀ g ∈ gs, ∀ d, ∃ x, dist g d = .ok x) →
    ∃ b, bestLoop dist gs i b0 = .ok b ∧ (b = b0 ∨ ∃ j, j < gs.length ∧ b.2 = some (i + j)) := by
  intro gs
  induction gs with
  | nil => intro i b0 _; exact ⟨b0, rfl, Or.inl rfl⟩
  | cons g gs ih =>
    intro i b0 h
    obtain ⟨x, hx⟩ := h g (by simp) b0.1
    obtain ⟨b, e, hb⟩ := ih (i + 1) (if x < b0.1 then (x, some i) else b0) (fun g' hg' => h g' (by simp [hg']))
    refine ⟨b, ?_, ?_⟩
    · unfold bestLoop
      rw [hx]
      exact e
    · rcases hb with hb | ⟨j, hj, hb⟩
      · split at hb
        · exact Or.inr ⟨0, by simp, by rw [hb]; rfl⟩
        · exact Or.inl hb
      · exact Or.inr ⟨j + 1, by simp; omega, by rw [hb]; congr 1; omega⟩

/-- With distances that honour their bound, up to `G`, the search finds a group that is nearest up to `G`, below the initial bound. -/
theorem bestLoop_near {dist : Group K → Dbl K → Res (Dbl K)} {F G : Group K → Dbl K} :
    ∀ (gs : List (Group K)) (i : ℕ) (b0 : Dbl K × Option ℕ), b0.1 ≠ .nan →
    (∀ g ∈ gs, NearEval (dist g) (F g) (G g) ∧ F g ≤ G g) →
    ∃ b, bestLoop dist gs i b0 = .ok b ∧
      ((b = b0 ∧ ∀ g ∈ gs, b0.1 ≤ G g) ∨
       (∃ j g, gs[j]? = some g ∧ b = (F g, some (i + j)) ∧ F g < b0.1 ∧ ∀ g' ∈ gs, F g ≤ G g')) := by
  intro gs
  induction gs with
  | nil => intro i b0 _ _; exact ⟨b0, rfl, Or.inl ⟨rfl, by simp⟩⟩
  | cons g gs ih =>
    intro i b0 hb0 h
    obtain ⟨hE, hN⟩ := h g (by simp)
    have hFn : F g ≠ .nan := ne_nan_of_le_left hN
    have hrest := fun g' (hg' : g' ∈ gs) => h g' (by simp [hg'])
    have key : (∃ x, dist g b0.1 = .ok x ∧ ¬ x < b0.1 ∧ b0.1 ≤ G g) ∨ (dist g b0.1 = .ok (F g) ∧ F g < b0.1) := by
      rcases hE b0.1 with e | ⟨hlt, e⟩
      · by_cases hlt : F g < b0.1
        · exact Or.inr ⟨e, hlt⟩
        · exact Or.inl ⟨_, e, hlt, le_trans ((Dbl.not_lt hFn hb0).1 hlt) hN⟩
      · exact Or.inl ⟨_, e, by simp, le_of_lt hlt⟩
    rcases key with ⟨x, hx, hlt, hle⟩ | ⟨hx, hlt⟩
    · obtain ⟨b, e, hb⟩ := ih (i + 1) b0 hb0 hrest
      refine ⟨b, by unfold bestLoop; rw [hx]; simp only [bind, Except.bind, if_neg hlt]; exact e, ?_⟩
      rcases hb with ⟨rfl, hb⟩ | ⟨j, g', hg', rfl, h1, h2⟩
      · refine Or.inl ⟨rfl, ?_⟩
        intro g' hg'
        rcases List.mem_cons.1 hg' with rfl | hg'
        · exact hle
        · exact hb g' hg'
      · refine Or.inr ⟨j + 1, g', by simpa using hg', by rw [show i + 1 + j = i + (j + 1) by omega], h1, ?_⟩
        intro g'' hg''
        rcases List.mem_cons.1 hg'' with rfl | hg''
        · exact le_trans (le_of_lt h1) hle
        · exact h2 g'' hg''
    · obtain ⟨b, e, hb⟩ := ih (i + 1) (F g, some i) hFn hrest
      refine ⟨b, by unfold bestLoop; rw [hx]; simp only [bind, Except.bind, if_pos hlt]; exact e, Or.inr ?_⟩
      rcases hb with ⟨rfl, hb⟩ | ⟨j, g', hg', rfl, h1, h2⟩
      · refine ⟨0, g, rfl, rfl, hlt, ?_⟩
        intro g' hg'
        rcases List.mem_cons.1 hg' with rfl | hg'
        · exact hN
        · exact hb g' hg'
      · refine ⟨j + 1, g', by simpa using hg', by rw [show i + 1 + j = i + (j + 1) by omega], lt_trans h1 hlt, ?_⟩
        intro g'' hg''
        rcases List.mem_cons.1 hg'' with rfl | hg''
        · exact le_trans (le_of_lt h1) hN
        · exact h2 g'' hg''

/-- With distances that honour their bound the search finds the first nearest group below the initial bound. -/
theorem bestLoop_exact {dist : Group K → Dbl K → Res (Dbl K)} {F : Group K → Dbl K} (gs : List (Group K)) (i : ℕ)
    (b0 : Dbl K × Option ℕ) (hb0 : b0.1 ≠ .nan) (h : ∀ g ∈ gs, ExactEval (dist g) (F g) ∧ F g ≠ .nan) :
    ∃ b, bestLoop dist gs i b0 = .ok b ∧
      ((b = b0 ∧ ∀ g ∈ gs, b0.1 ≤ F g) ∨
       (∃ j g, gs[j]? = some g ∧ b = (F g, some (i + j)) ∧ F g < b0.1 ∧ ∀ g' ∈ gs, F g ≤ F g')) :=
  bestLoop_near gs i b0 hb0 (fun g hg => ⟨(h g hg).1, Dbl.le_refl (h g hg).2⟩)

/-! ### One subsequence -/

/-- `x` is visited before `y`. -/
def Before (x y : ℕ × ℕ) : Prop := x.2 < y.2 ∨ (x.2 = y.2 ∧ x.1 < y.1)

theorem Before.asymm {x y : ℕ × ℕ} (h : Before x y) : ¬ Before y x := by
  unfold Before at *; omega

/-- What holds of the groups after the subsequences `done`, when `F r c` is the distance of `c` from `r` and distances are given up
below `G r c`. -/
structure GInv (F G : ℕ × ℕ → ℕ × ℕ → Dbl K) (half : Dbl K) (abs : List AG) : Prop where
  radius : ∀ a ∈ abs, ∀ c ∈ a.mem, c = a.rep ∨ F a.rep c ≤ half
  sep : abs.Pairwise (fun a b => half < G a.rep b.rep)
  near : ∀ a ∈ abs, ∀ c ∈ a.mem, c ≠ a.rep → ∀ b ∈ abs, Before b.rep c → F a.rep c ≤ G b.rep c

variable {ds : Dataset K} {rows : List (List (Dbl K))}

/-- The outcome of inserting `c`: a group of its own, or the front of an existing group. -/
inductive Ins (c : ℕ × ℕ) (abs : List AG) : List AG → Prop
  | own : Ins c abs (abs ++ [⟨c, [c]⟩])
  | join (j : ℕ) (a : AG) (h : abs[j]? = some a) : Ins c abs (abs.set j { a with mem := c :: a.mem })

theorem Ins.perm {c : ℕ × ℕ} {abs abs' : List AG} (h : Ins c abs abs') :
    (abs'.flatMap AG.mem).Perm (c :: abs.flatMap AG.mem) := by
  cases h with
  | own =>
    rw [List.flatMap_append]
    simp
  | join j a h => exact Rep.addMember.flatMap_set_perm h

/-- Rep is in the group, as its oldest member; the members come newest first. -/
def RepIn (abs : List AG) : Prop := ∀ a ∈ abs, a.mem.getLast? = some a.rep ∧ a.mem.Pairwise (fun x y => Before y x)

theorem RepIn.earlier {abs : List AG} (h : RepIn abs) {a : AG} (ha : a ∈ abs) {c : ℕ × ℕ} (hc : c ∈ a.mem) (hne : c ≠ a.rep) :
    Before a.rep c := by
  obtain ⟨h1, h2⟩ := h a ha
  obtain ⟨l, hl⟩ := List.getLast?_eq_some_iff.1 h1
  rw [hl] at h2 hc
  rcases List.mem_append.1 hc with h | h
  · exact (List.pairwise_append.1 h2).2.2 c h a.rep (by simp)
  · exact absurd (List.mem_singleton.1 h) hne

theorem Ins.repIn {c : ℕ × ℕ} {abs abs' : List AG} (h : Ins c abs abs') (hi : RepIn abs)
    (hb : ∀ x ∈ abs.flatMap AG.mem, Before x c) : RepIn abs' := by
  cases h with
  | own =>
    intro a ha
    rcases List.mem_append.1 ha with h | h
    · exact hi a h
    · rw [List.mem_singleton] at h; subst h; exact ⟨rfl, by simp⟩
  | join j a h =>
    intro a' ha'
    rcases List.mem_or_eq_of_mem_set ha' with h' | h'
    · exact hi a' h'
    · subst h'
      obtain ⟨h1, h2⟩ := hi a (List.mem_of_getElem? h)
      refine ⟨?_, List.pairwise_cons.2 ⟨fun x hx => hb x (List.mem_flatMap.2 ⟨a, List.mem_of_getElem? h, hx⟩), h2⟩⟩
      simp only
      cases hm : a.mem with
      | nil => rw [hm] at h1; simp at h1
      | cons x xs => rw [hm] at h1; rw [List.getLast?_cons_cons]; exact h1

/-- The distances the loop may use: defined for series of one length. -/
def Evals (K : Type) [Field K] [LinearOrder K] [HasSqrt K] [Arith K] (ratio : ℚ) (ref : DistRef) : Prop :=
  ∀ x y : List (Dbl K), x.length = y.length → ∀ d, ∃ v, Arith.eval ratio ref x y d = .ok v

/-- `F` is the distance, and it honours its bound up to `G`. -/
def GNear (rows : List (List (Dbl K))) (ℓ : ℕ) (ratio : ℚ) (ref : DistRef) (F G : ℕ × ℕ → ℕ × ℕ → Dbl K) : Prop :=
  ∀ r c', SubAt rows ℓ r → SubAt rows ℓ c' →
    NearEval (Arith.eval ratio ref (ptsAt rows ℓ r) (ptsAt rows ℓ c')) (F r c') (G r c') ∧ F r c' ≤ G r c'

/-- The search for the nearest group cannot end without a group being found or the limit being exceeded. -/
def SafeT (rows : List (List (Dbl K))) (ℓ : ℕ) (ratio : ℚ) (ref : DistRef) (t : Dbl K) : Prop :=
  t / fin 2 < .inf ∨ ∃ F, GNear rows ℓ ratio ref F F ∧ ∀ r c, SubAt rows ℓ r → SubAt rows ℓ c → F r c < .inf

theorem groupInsert_ok (H : Holds ds rows) {ℓ n : ℕ} (hl : 1 ≤ ℓ) (hn : (n : Int) = ds.maxCol - ℓ + 1) (ratio : ℚ)
    (ref : DistRef) (t : Dbl K) {sp : LocalSpace K} {abs : List AG}
    (R : Rep ds rows ℓ n sp abs) {c : ℕ × ℕ} (hc : SubAt rows ℓ c) (hf : c ∉ abs.flatMap AG.mem)
    (ht : SafeT rows ℓ ratio ref t ∨ ∃ sp', LocalSpace.insert ds ratio ref t sp ((c.1 : Int), (c.2 : Int)) = .ok sp')
    (hev : ∀ x y : List (Dbl K), x.length = y.length → ∀ d, ∃ v, Arith.eval ratio ref x y d = .ok v) :
    ∃ sp' abs', LocalSpace.insert ds ratio ref t sp ((c.1 : Int), (c.2 : Int)) = .ok sp' ∧ Rep ds rows ℓ n sp' abs' ∧
      Ins c abs abs' ∧
      ∀ F G : ℕ × ℕ → ℕ × ℕ → Dbl K, GNear rows ℓ ratio ref F G →
        (∀ a ∈ abs, Before a.rep c) → (∀ a ∈ abs, ∀ c' ∈ a.mem, Before c' c) → t / fin 2 ≠ .nan →
        GInv F G (t / fin 2) abs → GInv F G (t / fin 2) abs' := by
  have hgrp : ∀ g ∈ sp.groups, ∃ (j : ℕ) (a : AG), sp.groups[j]? = some g ∧ abs[j]? = some a := by
    intro g hg
    obtain ⟨j, hj⟩ := List.mem_iff_getElem?.1 hg
    have : j < abs.length := by rw [← R.num]; exact (List.getElem?_eq_some_iff.1 hj).1
    exact ⟨j, _, hj, List.getElem?_eq_getElem this⟩
  have hdist : ∀ (j : ℕ) g a, sp.groups[j]? = some g → abs[j]? = some a →
      Group.distance ds ratio ref (ptsAt rows ℓ c) g = Arith.eval ratio ref (ptsAt rows ℓ a.rep) (ptsAt rows ℓ c) := by
    intro j g a hg ha
    funext d
    unfold Group.distance
    rw [R.centroidPts H hg ha]
    rfl
  have htot : ∀ g ∈ sp.groups, ∀ d, ∃ x, Group.distance ds ratio ref (ptsAt rows ℓ c) g d = .ok x := by
    intro g hg d
    obtain ⟨j, a, hg, ha⟩ := hgrp g hg
    rw [hdist j g a hg ha]
    exact hev _ _ (by rw [ptsAt_length hc, ptsAt_length (R.reps a (List.mem_of_getElem? ha))]) d
  obtain ⟨b, hb, hb2⟩ := bestLoop_ok (dist := Group.distance ds ratio ref (ptsAt rows ℓ c)) sp.groups 0 (.inf, none) htot
  have hbF : ∀ F G : ℕ × ℕ → ℕ × ℕ → Dbl K, GNear rows ℓ ratio ref F G →
      (b = (.inf, none) ∧ ∀ a ∈ abs, .inf ≤ G a.rep c) ∨
       (∃ (j : ℕ) (a : AG), abs[j]? = some a ∧ b = (F a.rep c, some j) ∧ ∀ a' ∈ abs, F a.rep c ≤ G a'.rep c) := by
    intro F G hF
    let at_ : (ℕ × ℕ → ℕ × ℕ → Dbl K) → Group K → Dbl K := fun F g => match g.centroid with
      | .view v => F (v.index.toNat, v.start.toNat) c
      | .own _ => .nan
    have hF' : ∀ F (j : ℕ) g a, sp.groups[j]? = some g → abs[j]? = some a → at_ F g = F a.rep c := by
      intro F j g a hg ha
      simp only [at_, (R.grp j g a hg ha).centroid, viewAt, viewOf, Int.toNat_natCast]
    obtain ⟨b', hb', h⟩ := bestLoop_near (dist := Group.distance ds ratio ref (ptsAt rows ℓ c)) (F := at_ F) (G := at_ G) sp.groups 0
      (.inf, none) (by simp) (by
        intro g hg
        obtain ⟨j, a, hg, ha⟩ := hgrp g hg
        rw [hdist j g a hg ha, hF' F j g a hg ha, hF' G j g a hg ha]
        exact hF _ _ (R.reps a (List.mem_of_getElem? ha)) hc)
    rw [hb, Except.ok.injEq] at hb'
    subst hb'
    have hag : ∀ a ∈ abs, ∃ (j : ℕ) (g : Group K), sp.groups[j]? = some g ∧ abs[j]? = some a := by
      intro a ha
      obtain ⟨j, hj⟩ := List.mem_iff_getElem?.1 ha
      have : j < sp.groups.length := by rw [R.num]; exact (List.getElem?_eq_some_iff.1 hj).1
      exact ⟨j, _, List.getElem?_eq_getElem this, hj⟩
    rcases h with ⟨rfl, h⟩ | ⟨j, g, hg, rfl, -, h⟩
    · refine Or.inl ⟨rfl, ?_⟩
      intro a ha
      obtain ⟨j, g, hg, ha⟩ := hag a ha
      rw [← hF' G j g a hg ha]
      exact h g (List.mem_of_getElem? hg)
    · have : j < abs.length := by rw [← R.num]; exact (List.getElem?_eq_some_iff.1 hg).1
      have ha := List.getElem?_eq_getElem this
      refine Or.inr ⟨j, _, ha, by rw [hF' F j g _ hg ha, Nat.zero_add], ?_⟩
      intro a' ha'
      obtain ⟨j', g', hg', ha'⟩ := hag a' ha'
      rw [← hF' F j g _ hg ha, ← hF' G j' g' a' hg' ha']
      exact h g' (List.mem_of_getElem? hg')
  unfold LocalSpace.insert at ht ⊢
  simp only [R.len, hc.getTimeSeries H hl, bind, Except.bind, hc.points H, hb] at ht ⊢
  by_cases hnew : t / fin 2 < b.1 ∨ sp.groups.length = 0
  · rw [if_pos hnew]
    obtain ⟨sp1, e1, R1⟩ := R.pushGroup hl hc H
    have hlast : (abs ++ [(⟨c, []⟩ : AG)])[abs.length]? = some ⟨c, []⟩ := by simp
    obtain ⟨sp2, e2, R2⟩ := R1.addMember hn hlast hc (by simpa [List.flatMap_append] using hf) H
    rw [e1]
    simp only
    have hset : (abs ++ [(⟨c, []⟩ : AG)]).set abs.length ⟨c, [c]⟩ = abs ++ [⟨c, [c]⟩] := by
      rw [List.set_append_right _ _ le_rfl, Nat.sub_self]; rfl
    simp only [hset] at R2
    refine ⟨sp2, _, by rw [R.num]; exact e2, R2, .own, ?_⟩
    intro F G hF hbef hbefm htn I
    have hsep : ∀ a ∈ abs, t / fin 2 < G a.rep c := by
      intro a ha
      rcases hnew with hnew | h0
      · rcases hbF F G hF with ⟨rfl, h⟩ | ⟨j, a', ha', rfl, h⟩
        · exact lt_of_lt_of_le hnew (h a ha)
        · exact lt_of_lt_of_le hnew (h a ha)
      · rw [R.num, List.length_eq_zero_iff] at h0
        subst h0; simp at ha
    refine ⟨?_, ?_, ?_⟩
    · intro a ha c' hc'
      rcases List.mem_append.1 ha with ha | ha
      · exact I.radius a ha c' hc'
      · rw [List.mem_singleton] at ha; subst ha
        left; simpa using hc'
    · rw [List.pairwise_append]
      refine ⟨I.sep, by simp, ?_⟩
      intro a ha b hb
      rw [List.mem_singleton] at hb; subst hb
      exact hsep a ha
    · intro a ha c' hc' hne b hb hbf
      rcases List.mem_append.1 ha with ha | ha
      · rcases List.mem_append.1 hb with hb | hb
        · exact I.near a ha c' hc' hne b hb hbf
        · rw [List.mem_singleton] at hb; subst hb
          exact absurd hbf (hbefm a ha c' hc').asymm
      · rw [List.mem_singleton] at ha; subst ha
        simp only [List.mem_singleton] at hc'
        exact absurd hc' hne
  · rw [if_neg hnew] at ht ⊢
    push Not at hnew
    rcases hb2 with rfl | ⟨j, hj, hb2⟩
    · rcases ht with (ht | ⟨F, hF, hfin⟩) | ⟨sp', ht⟩
      · exact absurd ht hnew.1
      · have hpos : 0 < abs.length := by rw [← R.num]; omega
        have ha0 := List.getElem_mem hpos
        rcases hbF F F hF with ⟨-, h⟩ | ⟨j, a, -, hb', -⟩
        · exact absurd (hfin _ _ (R.reps _ ha0) hc) (by
            intro hlt
            exact lt_irrefl _ (lt_of_lt_of_le hlt (h _ ha0)))
        · simp at hb'
      · cases ht
    · rw [Nat.zero_add] at hb2
      have hja : j < abs.length := by rw [← R.num]; exact hj
      have ha := List.getElem?_eq_getElem hja
      obtain ⟨sp2, e2, R2⟩ := R.addMember hn ha hc hf H
      rw [hb2]
      refine ⟨sp2, _, e2, R2, .join j _ ha, ?_⟩
      intro F G hF hbef hbefm htn I
      have hmin : (∀ a' ∈ abs, F abs[j].rep c ≤ G a'.rep c) ∧ F abs[j].rep c = b.1 := by
        rcases hbF F G hF with ⟨rfl, h⟩ | ⟨j', a', ha', rfl, h⟩
        · cases hb2
        · simp only [Option.some.injEq] at hb2
          subst hb2
          rw [ha, Option.some.injEq] at ha'
          rw [ha']; exact ⟨h, rfl⟩
      have hnn : ∀ a ∈ abs, F a.rep c ≠ .nan := fun a ha => ne_nan_of_le_left (hF _ _ (R.reps a ha) hc).2
      have hle : F abs[j].rep c ≤ t / fin 2 := by
        rw [← Dbl.not_lt htn (hnn _ (List.getElem_mem _)), hmin.2]; exact hnew.1
      have hreps : ∀ b ∈ abs.set j { abs[j] with mem := c :: abs[j].mem }, ∃ b' ∈ abs, b'.rep = b.rep := by
        intro b hb
        rcases List.mem_or_eq_of_mem_set hb with h | rfl
        · exact ⟨b, h, rfl⟩
        · exact ⟨abs[j], List.getElem_mem _, rfl⟩
      refine ⟨?_, ?_, ?_⟩
      · intro a ha' c' hc'
        rcases List.mem_or_eq_of_mem_set ha' with h | rfl
        · exact I.radius a h c' hc'
        · rcases List.mem_cons.1 hc' with rfl | hc'
          · exact Or.inr hle
          · exact I.radius _ (List.getElem_mem _) c' hc'
      · have hmap : (abs.set j { abs[j] with mem := c :: abs[j].mem }).map AG.rep = abs.map AG.rep := by
          apply List.ext_getElem?
          intro i
          rw [List.getElem?_map, List.getElem?_map]
          by_cases hij : j = i
          · subst hij; rw [List.getElem?_set_self hja, ha]; rfl
          · rw [List.getElem?_set_ne hij]
        have key : ∀ l : List AG, l.Pairwise (fun a b : AG => t / fin 2 < G a.rep b.rep) ↔
            (l.map AG.rep).Pairwise (fun x y => t / fin 2 < G x y) := fun l => by rw [List.pairwise_map]
        rw [key, hmap, ← key]; exact I.sep
      · intro a ha' c' hc' hne b hb hbf
        obtain ⟨b', hb', hbr⟩ := hreps b hb
        rw [← hbr] at hbf ⊢
        rcases List.mem_or_eq_of_mem_set ha' with h | rfl
        · exact I.near a h c' hc' hne b' hb' hbf
        · rcases List.mem_cons.1 hc' with rfl | hc'
          · exact hmin.1 b' hb'
          · exact I.near _ (List.getElem_mem _) c' hc' hne b' hb' hbf

/-! ### All subsequences of one length -/

theorem coords_sorted (ds : Dataset K) (sp : LocalSpace K) : (sp.coords ds).Pairwise Before := by
  unfold LocalSpace.coords
  rw [List.pairwise_flatMap]
  constructor
  · intro s _
    rw [List.pairwise_map]
    exact List.Pairwise.imp (fun h => Or.inr ⟨rfl, h⟩) List.pairwise_lt_range
  · refine List.Pairwise.imp ?_ List.pairwise_lt_range
    intro s s' h x hx y hy
    obtain ⟨_, -, rfl⟩ := List.mem_map.1 hx
    obtain ⟨_, -, rfl⟩ := List.mem_map.1 hy
    exact Or.inl h

theorem mem_coords {ds : Dataset K} {sp : LocalSpace K} {c : ℕ × ℕ} :
    c ∈ sp.coords ds ↔ c.1 < ds.itemCount ∧ c.2 < sp.subCount.toNat := by
  unfold LocalSpace.coords
  simp only [List.mem_flatMap, List.mem_range, List.mem_map]
  constructor
  · rintro ⟨s, hs, i, hi, rfl⟩; exact ⟨hi, hs⟩
  · rintro ⟨h1, h2⟩; exact ⟨c.2, h2, c.1, h1, rfl⟩

theorem groupLoop_ok (H : Holds ds rows) {ℓ n : ℕ} (hl : rows ≠ [] → 1 ≤ ℓ) (hn : (n : Int) = ds.maxCol - ℓ + 1) (ratio : ℚ)
    (ref : DistRef) (t : Dbl K) (log : Bool) (hev : Evals K ratio ref) :
    ∀ (cs : List (ℕ × ℕ)) (sp : LocalSpace K) (abs : List AG), Rep ds rows ℓ n sp abs → RepIn abs →
      ((SafeT rows ℓ ratio ref t ∧ (log = true → 5 ≤ n * rows.length)) ∨
        (loopS (LocalSpace.groupStep ds ratio ref t log) cs sp).2 = .ok ()) →
      (∀ c ∈ cs, c.1 < rows.length) → cs.Pairwise Before → (∀ x ∈ abs.flatMap AG.mem, ∀ c ∈ cs, Before x c) →
      ∃ sp' abs', loopS (LocalSpace.groupStep ds ratio ref t log) cs sp = (sp', .ok ()) ∧ Rep ds rows ℓ n sp' abs' ∧
        RepIn abs' ∧ (∀ c, c ∈ abs'.flatMap AG.mem ↔ c ∈ abs.flatMap AG.mem ∨ (c ∈ cs ∧ SubAt rows ℓ c)) ∧
        ∀ F G, GNear rows ℓ ratio ref F G → t / fin 2 ≠ .nan → GInv F G (t / fin 2) abs → GInv F G (t / fin 2) abs' := by
  intro cs
  induction cs with
  | nil => intro sp abs R hI _ _ _ _; exact ⟨sp, abs, rfl, R, hI, by simp, fun F G _ _ h => h⟩
  | cons c cs ih =>
    intro sp abs R hI hgo hlt hpw hbef
    have hc1 := hlt c (by simp)
    have hr : rows[c.1]? = some rows[c.1] := List.getElem?_eq_getElem hc1
    rw [List.pairwise_cons] at hpw
    have hstep : LocalSpace.groupStep ds ratio ref t log sp c =
        if rows[c.1].length < c.2 + ℓ then .ok sp else sp.insert ds ratio ref t ((c.1 : Int), (c.2 : Int)) := by
      unfold LocalSpace.groupStep
      rw [if_neg]
      · rw [H.getItemLength hr]
        simp only [bind, Except.bind, R.len]
        by_cases h : rows[c.1].length < c.2 + ℓ
        · rw [if_pos h, if_pos (by exact_mod_cast h)]
        · rw [if_neg h, if_neg (by exact_mod_cast h)]
      · rintro ⟨h1, h2⟩
        rcases hgo with ⟨-, hlog⟩ | hgo
        · have := hlog h1
          rw [R.sub, H.count] at h2
          have h3 : (5 : Int) ≤ (n : Int) * (rows.length : Int) := by exact_mod_cast this
          omega
        · simp only [loopS, LocalSpace.groupStep, if_pos (And.intro h1 h2)] at hgo
          cases hgo
    by_cases hv : rows[c.1].length < c.2 + ℓ
    · rw [if_pos hv] at hstep
      obtain ⟨sp', abs', e, R', hI', hm, hF⟩ := ih sp abs R hI (hgo.imp_right (fun h => by
        unfold loopS at h; rw [hstep] at h; exact h)) (fun x hx => hlt x (by simp [hx])) hpw.2
        (fun x hx y hy => hbef x hx y (by simp [hy]))
      refine ⟨sp', abs', by unfold loopS; rw [hstep]; exact e, R', hI', ?_, hF⟩
      intro x
      rw [hm x]
      constructor
      · rintro (h | ⟨h, h'⟩)
        · exact Or.inl h
        · exact Or.inr ⟨by simp [h], h'⟩
      · rintro (h | ⟨h, h'⟩)
        · exact Or.inl h
        · rcases List.mem_cons.1 h with rfl | h
          · obtain ⟨r, hr', hle⟩ := h'
            rw [hr, Option.some.injEq] at hr'
            subst hr'; omega
          · exact Or.inr ⟨h, h'⟩
    · rw [if_neg hv] at hstep
      have hsub : SubAt rows ℓ c := ⟨_, hr, by omega⟩
      have hfresh : c ∉ abs.flatMap AG.mem := fun h => absurd (hbef c h c (by simp)) (by unfold Before; omega)
      obtain ⟨sp1, abs1, e1, R1, I1, hF1⟩ := groupInsert_ok H (hl (by rintro rfl; simp at hc1)) hn ratio ref t R hsub hfresh
        (hgo.imp (fun h => h.1) (fun h => by
          unfold loopS at h
          rw [hstep] at h
          cases hi : LocalSpace.insert ds ratio ref t sp ((c.1 : Int), (c.2 : Int)) with
          | error e => rw [hi] at h; cases h
          | ok sp' => exact ⟨sp', rfl⟩)) hev
      have hm1 : ∀ x, x ∈ abs1.flatMap AG.mem ↔ x = c ∨ x ∈ abs.flatMap AG.mem := by
        intro x; rw [I1.perm.mem_iff, List.mem_cons]
      obtain ⟨sp', abs', e, R', hI', hm, hF⟩ := ih sp1 abs1 R1 (I1.repIn hI (fun x hx => hbef x hx c (by simp)))
        (hgo.imp_right (fun h => by unfold loopS at h; rw [hstep, e1] at h; exact h)) (fun x hx => hlt x (by simp [hx])) hpw.2
        (by
          intro x hx y hy
          rcases (hm1 x).1 hx with rfl | hx
          · exact hpw.1 y hy
          · exact hbef x hx y (by simp [hy]))
      refine ⟨sp', abs', by unfold loopS; rw [hstep, e1]; exact e, R', hI', ?_, ?_⟩
      · intro x
        rw [hm x, hm1 x]
        constructor
        · rintro ((rfl | h) | ⟨h, h'⟩)
          · exact Or.inr ⟨by simp, hsub⟩
          · exact Or.inl h
          · exact Or.inr ⟨by simp [h], h'⟩
        · rintro (h | ⟨h, h'⟩)
          · exact Or.inl (Or.inr h)
          · rcases List.mem_cons.1 h with rfl | h
            · exact Or.inl (Or.inl rfl)
            · exact Or.inr ⟨h, h'⟩
      · intro F G hE htn hG
        have hmem : ∀ a ∈ abs, ∀ c' ∈ a.mem, Before c' c := fun a ha c' hc' =>
          hbef c' (List.mem_flatMap.2 ⟨a, ha, hc'⟩) c (by simp)
        refine hF F G hE htn (hF1 F G hE ?_ hmem htn hG)
        intro a ha
        exact hmem a ha _ (List.mem_of_getLast? (hI a ha).1)

/-- What one length looks like after grouping. -/
structure Grouped (ds : Dataset K) (rows : List (List (Dbl K))) (ratio : ℚ) (ref : DistRef) (t : Dbl K) (ℓ : ℕ)
    (sp : LocalSpace K) (abs : List AG) : Prop where
  rep : ∃ n : ℕ, (n : Int) = ds.maxCol - ℓ + 1 ∧ Rep ds rows ℓ n sp abs
  repIn : RepIn abs
  all : ∀ c, c ∈ abs.flatMap AG.mem ↔ SubAt rows ℓ c
  inv : ∀ F G, GNear rows ℓ ratio ref F G → t / fin 2 ≠ .nan → GInv F G (t / fin 2) abs

theorem generate_ok (H : Holds ds rows) {ℓ : ℕ} (hl : rows ≠ [] → 1 ≤ ℓ) (hle : (ℓ : Int) ≤ ds.maxCol + 1) (ratio : ℚ)
    (ref : DistRef) (t : Dbl K) (log : ℕ → Bool)
    (hgo : (SafeT rows ℓ ratio ref t ∧ (log ℓ = true → 5 ≤ (ds.maxCol - ℓ + 1) * rows.length)) ∨
      ∃ N, (GSpace.groupLength ds ratio log ref t ℓ).2 = .ok N) (hev : Evals K ratio ref) :
    ∃ sp abs, GSpace.groupLength ds ratio log ref t ℓ = (some sp, .ok sp.groups.length) ∧
      Grouped ds rows ratio ref t ℓ sp abs := by
  obtain ⟨n, hn⟩ : ∃ n : ℕ, (n : Int) = ds.maxCol - ℓ + 1 := ⟨(ds.maxCol - ℓ + 1).toNat, by omega⟩
  obtain ⟨sp0, e0, R0⟩ := Rep.new (ℓ := ℓ) H hn
  obtain ⟨sp, abs, e, R, hI, hm, hF⟩ := groupLoop_ok H hl hn ratio ref t (log ℓ) hev (sp0.coords ds) sp0 [] R0
    (by intro a ha; simp at ha)
    (hgo.imp (fun h => ⟨h.1, fun hl => by have := h.2 hl; rw [← hn] at this; exact_mod_cast this⟩) (by
      rintro ⟨N, h⟩
      unfold GSpace.groupLength at h
      rw [e0] at h
      simp only [LocalSpace.generateGroups] at h
      cases hl : (loopS (LocalSpace.groupStep ds ratio ref t (log ℓ)) (sp0.coords ds) sp0).2 with
      | error e => rw [hl] at h; cases h
      | ok u => rfl))
    (fun c hc => by rw [mem_coords, H.count] at hc; exact hc.1) (coords_sorted ds sp0) (by simp)
  refine ⟨sp, abs, ?_, ⟨n, hn, R⟩, hI, ?_, fun F G hE htn => hF F G hE htn ⟨by simp, by simp, by simp⟩⟩
  · unfold GSpace.groupLength
    rw [e0]
    simp only [LocalSpace.generateGroups, e]
    rfl
  · intro c
    rw [hm c]
    simp only [List.flatMap_nil, List.not_mem_nil, false_or]
    constructor
    · exact fun h => h.2
    · intro h
      refine ⟨?_, h⟩
      rw [mem_coords, H.count, R0.sub, Int.toNat_natCast]
      exact ⟨h.lt, h.start_lt H hn⟩

/-! ### All lengths -/

/-- The vector after storing `g i` at every `i` of the list. -/
theorem foldl_set_get {α : Type} (g : ℕ → α) : ∀ (is : List ℕ) (l : List α) (j : ℕ), (∀ i ∈ is, i < l.length) →
    (is.foldl (fun s i => s.set i (g i)) l)[j]? = if j ∈ is then some (g j) else l[j]? := by
  intro is
  induction is with
  | nil => intro l j _; simp
  | cons i is ih =>
    intro l j h
    rw [List.foldl_cons, ih (l.set i (g i)) j (fun x hx => by rw [List.length_set]; exact h x (by simp [hx]))]
    by_cases hj : j ∈ is
    · simp [hj]
    · by_cases hij : j = i
      · subst hij
        simp [hj, List.getElem?_set_self (h j (by simp))]
      · simp [hj, hij, List.getElem?_set_ne (Ne.symm hij)]

theorem groupLoop_eq (f : ℕ → Option (LocalSpace K) × Res ℕ) (N : ℕ → ℕ) : ∀ (is : List ℕ) (gs : GSpace K),
    (∀ i ∈ is, (f i).2 = .ok (N i)) →
    GSpace.groupLoop f is gs = ({ gs with spaces := is.foldl (fun s i => s.set i (f i).1) gs.spaces,
                                          total := gs.total + ((is.map N).sum : ℕ) }, .ok ()) := by
  intro is
  induction is with
  | nil => intro gs _; simp [GSpace.groupLoop]
  | cons i is ih =>
    intro gs h
    unfold GSpace.groupLoop
    simp only [h i (by simp)]
    rw [ih _ (fun x hx => h x (by simp [hx]))]
    simp only [List.foldl_cons, List.map_cons, List.sum_cons, Nat.cast_add, add_assoc]

/-- The warped distance that goes with a metric, genex/group/GlobalGroupSpace.cpp:50-55. -/
def warpedOf (m : Metric) : DistRef := if m = .euclidean then .cascade else .warped m

theorem loadDistance_ok (m : Metric) (gs : GSpace K) :
    gs.loadDistance (metricName m) =
      ({ gs with distanceName := metricName m, pairwise := some (.pairwise m), warped := some (warpedOf m) }, .ok ()) := by
  unfold GSpace.loadDistance
  simp only [lookup_pairwise]
  cases m <;> rfl

/-- A grouping of a dataset. -/
structure GroupedAll (ds : Dataset K) (rows : List (List (Dbl K))) (ratio : ℚ) (m : Metric) (t : Dbl K) (whole : Bool)
    (gs : GSpace K) : Prop where
  name : gs.distanceName = metricName m
  pairwise : gs.pairwise = some (.pairwise m)
  warped : gs.warped = some (warpedOf m)
  threshold : gs.threshold = some t
  isWhole : gs.whole = whole
  size : (gs.spaces.length : Int) = ds.maxCol + 1
  at_range : ∀ ℓ, InRange ds.maxCol whole ℓ →
    ∃ sp abs, gs.spaces[ℓ]? = some (some sp) ∧ Grouped ds rows ratio (.pairwise m) t ℓ sp abs
  off_range : ∀ ℓ : ℕ, (ℓ : Int) ≤ ds.maxCol → ¬ InRange ds.maxCol whole ℓ → gs.spaces[ℓ]? = some none
  total : gs.total = ((gs.spaces.map (fun s => match s with | some sp => sp.groups.length | none => 0)).sum : ℕ)

/-- The object before the loop of `group`. -/
def prepared (ds : Dataset K) (m : Metric) (t : Dbl K) (whole : Bool) : GSpace K :=
  { distanceName := metricName m, spaces := List.replicate (ds.maxCol + 1).toNat none, pairwise := some (.pairwise m),
    warped := some (warpedOf m), threshold := some t, total := 0, whole := whole }

theorem prepare_ok (hmax : 0 ≤ ds.maxCol) (m : Metric) (t : Dbl K) (whole : Bool) (gs : GSpace K) :
    gs.prepare ds (metricName m) t whole =
      (prepared ds m t whole, .ok (.pairwise m)) := by
  unfold GSpace.prepare
  simp only [loadDistance_ok]
  rw [if_neg (by omega)]
  rfl

theorem mem_lengths {gs : GSpace K} {maxCol : Int} (hmax : 0 ≤ maxCol) (h : (gs.spaces.length : Int) = maxCol + 1) (i : ℕ) :
    i ∈ gs.lengths ↔ InRange maxCol gs.whole i := by
  unfold GSpace.lengths GSpace.minLength InRange
  cases gs.whole
  · simp only [Bool.false_eq_true, if_false, if_neg (show ¬ ((2 : Int) < 0) by omega), List.mem_filter, List.mem_range,
      decide_eq_true_eq]
    omega
  · simp only [if_true, if_neg (show ¬ ((gs.spaces.length : Int) - 1 < 0) by omega), List.mem_filter, List.mem_range,
      decide_eq_true_eq]
    omega

theorem lengths_nodup (gs : GSpace K) : gs.lengths.Nodup := by
  unfold GSpace.lengths
  split
  · exact List.nodup_nil
  · exact List.nodup_range.filter _

theorem sum_of_subset {α : Type} (val : α → ℕ) (d : α) (hd : val d = 0) (g : ℕ → α) : ∀ (is : List ℕ) (l : List α),
    is.Nodup → (∀ i ∈ is, l[i]? = some d) →
    ((is.foldl (fun s i => s.set i (g i)) l).map val).sum = (l.map val).sum + (is.map (fun i => val (g i))).sum := by
  intro is
  induction is with
  | nil => intro l _ _; simp
  | cons i is ih =>
    intro l hn h
    rw [List.nodup_cons] at hn
    have hi := h i (by simp)
    rw [List.foldl_cons, ih _ hn.2 (by
      intro j hj
      rw [List.getElem?_set_ne (by rintro rfl; exact hn.1 hj)]
      exact h j (by simp [hj]))]
    have key : ∀ (x : α) (l : List α) (i : ℕ), l[i]? = some d → ((l.set i x).map val).sum = (l.map val).sum + val x := by
      intro x l
      induction l with
      | nil => intro i h; simp at h
      | cons y ys ih' =>
        intro i h
        cases i with
        | zero =>
          simp only [List.getElem?_cons_zero, Option.some.injEq] at h
          subst h
          simp only [List.set_cons_zero, List.map_cons, List.sum_cons, hd]; omega
        | succ i =>
          simp only [List.getElem?_cons_succ] at h
          simp only [List.set_cons_succ, List.map_cons, List.sum_cons, ih' i h]; omega
    rw [key _ l i hi]
    simp only [List.map_cons, List.sum_cons]
    omega

/-- Grouping succeeds, and every length in range is grouped. -/
theorem group_ok (H : Holds ds rows) (hmax : 0 ≤ ds.maxCol) (ratio : ℚ) (m : Metric) (t : Dbl K)
    (whole : Bool) (hw : whole = true → rows ≠ [] → 1 ≤ ds.maxCol) (log : ℕ → Bool)
    (hgo : ∀ ℓ, InRange ds.maxCol whole ℓ →
      (SafeT rows ℓ ratio (.pairwise m) t ∧ (log ℓ = true → 5 ≤ (ds.maxCol - ℓ + 1) * rows.length)) ∨
        ∃ N, (GSpace.groupLength ds ratio log (.pairwise m) t ℓ).2 = .ok N)
    (hev : Evals K ratio (.pairwise m)) (gs : GSpace K) :
    ∃ gs', GSpace.group ds ratio log (metricName m) t whole gs = (gs', .ok gs'.total) ∧
      GroupedAll ds rows ratio m t whole gs' := by
  unfold GSpace.group
  simp only [prepare_ok hmax]
  set g0 : GSpace K := prepared ds m t whole with hg0
  have hsz : (g0.spaces.length : Int) = ds.maxCol + 1 := by simp only [hg0, prepared, List.length_replicate]; omega
  have hmem : ∀ i, i ∈ g0.lengths ↔ InRange ds.maxCol whole i := fun i => mem_lengths hmax hsz i
  set f := GSpace.groupLength ds ratio log (.pairwise m) t with hf
  have hgen : ∀ i, InRange ds.maxCol whole i → ∃ sp abs, f i = (some sp, .ok sp.groups.length) ∧
      Grouped ds rows ratio (.pairwise m) t i sp abs := by
    intro i hi
    have h2 := hi
    unfold InRange at h2
    have h1 : rows ≠ [] → 1 ≤ i := by
      intro hne
      cases whole
      · simp at h2; omega
      · have := hw rfl hne; simp at h2; omega
    exact generate_ok H h1 (by omega) ratio _ t log (hgo i hi) hev
  let val : Option (LocalSpace K) → ℕ := fun s => match s with | some sp => sp.groups.length | none => 0
  have hN : ∀ i ∈ g0.lengths, (f i).2 = .ok (val (f i).1) := by
    intro i hi
    obtain ⟨sp, abs, e, -⟩ := hgen i ((hmem i).1 hi)
    rw [e]
  rw [groupLoop_eq f (fun i => val (f i).1) g0.lengths g0 hN]
  have hlt : ∀ i ∈ g0.lengths, i < g0.spaces.length := by
    intro i hi
    have := ((hmem i).1 hi).1
    omega
  have hget : ∀ i, i < g0.spaces.length → g0.spaces[i]? = some none := by
    intro i hi
    simp only [hg0, prepared, List.length_replicate] at hi
    simp only [hg0, prepared]
    rw [List.getElem?_replicate, if_pos hi]
  refine ⟨_, rfl, rfl, rfl, rfl, rfl, rfl, ?_, ?_, ?_, ?_⟩
  · simp only
    rw [← hsz]
    congr 1
    generalize g0.lengths = is
    generalize g0.spaces = l
    induction is generalizing l with
    | nil => rfl
    | cons i is ih => rw [List.foldl_cons, ih, List.length_set]
  · intro ℓ hℓ
    obtain ⟨sp, abs, e, hG⟩ := hgen ℓ hℓ
    refine ⟨sp, abs, ?_, hG⟩
    simp only
    rw [foldl_set_get (fun i => (f i).1) _ _ _ hlt, if_pos ((hmem ℓ).2 hℓ), e]
  · intro ℓ h1 h2
    simp only
    rw [foldl_set_get (fun i => (f i).1) _ _ _ hlt, if_neg (fun h => h2 ((hmem ℓ).1 h))]
    exact hget ℓ (by omega)
  · simp only
    have := sum_of_subset val none rfl (fun i => (f i).1) g0.lengths g0.spaces (lengths_nodup g0)
      (fun i hi => hget i (hlt i hi))
    have h0 : (g0.spaces.map val).sum = 0 := by
      simp only [hg0, prepared, List.map_replicate, List.sum_replicate]
      simp [val]
    change (0 : Int) + _ = _
    rw [zero_add]
    congr 1
    rw [h0, zero_add] at this
    exact this.symm

end Genex
