import Verif.Lemmas.Search

/-! Searching the groups: the groups whose members make up the `k` candidates. -/

set_option linter.unusedSectionVars false

namespace Genex

open Spec Dbl Props

variable {K : Type} [Field K] [LinearOrder K] [IsStrictOrderedRing K] [HasSqrt K]

theorem gidx_swo {l : List (GIdx K)} (h : ∀ x ∈ l, x.dist ≠ .nan) : SWO GIdx.lt l := by
  refine ⟨fun a _ => Dbl.lt_irrefl _, fun a _ b _ c _ => Dbl.lt_trans, ?_⟩
  intro a ha b hb c hc h1 h2 h3 h4
  have tri : ∀ u v : GIdx K, u ∈ l → v ∈ l → ¬ GIdx.lt u v → ¬ GIdx.lt v u → u.dist = v.dist := by
    intro u v hu hv h1 h2
    rcases Dbl.lt_trichotomy (h u hu) (h v hv) with h | h | h
    · exact absurd h h1
    · exact h
    · exact absurd h h2
  have e := (tri a b ha hb h1 h2).trans (tri b c hb hc h3 h4)
  unfold GIdx.lt
  rw [e]
  exact ⟨Dbl.lt_irrefl _, Dbl.lt_irrefl _⟩

/-- Members in a list of groups. -/
def memSum (l : List (GIdx K)) : Int := (l.map GIdx.members).sum

theorem memSum_perm {l l' : List (GIdx K)} (h : l.Perm l') : memSum l = memSum l' := (h.map _).sum_eq

theorem memSum_append (l l' : List (GIdx K)) : memSum (l ++ l') = memSum l + memSum l' := by
  simp [memSum]

theorem memSum_cons (x : GIdx K) (l : List (GIdx K)) : memSum (x :: l) = x.members + memSum l := by
  simp [memSum]

theorem memSum_nil : memSum ([] : List (GIdx K)) = 0 := rfl

/-- The state is full: a heap, not empty, that would have too few members without its top, and nothing left out is nearer. -/
structure KFull (k0 : ℕ) (all : List (GIdx K)) (st : Int × List (GIdx K)) : Prop where
  left : ∃ rest : List (GIdx K), (st.2 ++ rest).Perm all ∧ ∀ x ∈ st.2, ∀ r ∈ rest, x.dist ≤ r.dist
  budget : st.1 = (k0 : Int) - memSum st.2
  nonpos : st.1 ≤ 0
  heap : IsHeap GIdx.lt st.2
  top : ∃ t l, st.2 = t :: l ∧ 0 < st.1 + t.members

/-- State of `interLevelKSim` after the groups `all`, for a budget of `k0` members. -/
def KInv (k0 : ℕ) (all : List (GIdx K)) (st : Int × List (GIdx K)) : Prop :=
  (st.2 = all ∧ st.1 = (k0 : Int) - memSum all ∧ 0 < st.1) ∨ KFull k0 all st

theorem front_max {x : GIdx K} {l : List (GIdx K)} (h : IsHeap GIdx.lt (x :: l)) (hN : ∀ y ∈ x :: l, y.dist ≠ .nan) :
    ∀ y ∈ x :: l, y.dist ≤ x.dist := by
  intro y hy
  exact (Dbl.not_lt (hN x (by simp)) (hN y hy)).1 (h.front (gidx_swo hN) y hy)

/-- Removing the farthest groups while enough members remain. -/
theorem shrink_ok {B : Algos (GIdx K)} (hB : B.Lawful GIdx.lt) {k0 : ℕ} (hk : 0 < k0) {all : List (GIdx K)}
    (hN : ∀ y ∈ all, y.dist ≠ .nan) : ∀ (fuel : ℕ) (st : Int × List (GIdx K)), st.2.length ≤ fuel →
    (∃ rest : List (GIdx K), (st.2 ++ rest).Perm all ∧ ∀ x ∈ st.2, ∀ r ∈ rest, x.dist ≤ r.dist) →
    st.1 = (k0 : Int) - memSum st.2 → st.1 ≤ 0 → IsHeap GIdx.lt st.2 →
    ∃ st', shrink B fuel st = .ok st' ∧ KFull k0 all st' := by
  intro fuel
  induction fuel with
  | zero =>
    intro st hf hr hb hn hh
    have : st.2 = [] := List.length_eq_zero_iff.1 (by omega)
    rw [this, memSum_nil] at hb
    omega
  | succ fuel ih =>
    rintro ⟨k, best⟩ hf ⟨rest, hp, hle⟩ hb hn hh
    simp only at *
    cases best with
    | nil => rw [memSum_nil] at hb; omega
    | cons x l =>
      unfold shrink
      simp only
      have hNl : ∀ y ∈ x :: l, y.dist ≠ .nan := fun y hy => hN y (hp.mem_iff.1 (by simp at hy ⊢; tauto))
      split
      · rename_i hlt
        obtain ⟨l', e, hp', hh'⟩ := hB.pop x l (gidx_swo hNl) hh
        rw [e, List.dropLast_concat]
        refine ih (k + x.members, l') ?_ ⟨x :: rest, ?_, ?_⟩ ?_ hlt hh'
        · simp only [List.length_cons] at hf
          rw [hp'.length_eq]; omega
        · exact List.perm_middle.trans ((hp'.append_right rest).cons x |>.trans hp)
        · intro y hy r hr
          have hy' : y ∈ x :: l := by simp [hp'.mem_iff.1 hy]
          rcases List.mem_cons.1 hr with rfl | hr
          · exact front_max hh hNl y hy'
          · exact hle y hy' r hr
        · simp only
          rw [hb, memSum_perm hp', memSum_cons]; ring
      · rename_i hlt
        exact ⟨_, rfl, ⟨rest, hp, hle⟩, hb, hn, hh, x, l, rfl, by simp only; omega⟩

theorem kInv_step {B : Algos (GIdx K)} (hB : B.Lawful GIdx.lt) {k0 : ℕ} (hk : 0 < k0) {all : List (GIdx K)} {y : GIdx K}
    (hN : ∀ x ∈ all ++ [y], x.dist ≠ .nan) (hM : 0 ≤ y.members) {dist : Dbl K → Res (Dbl K)} (he : ExactEval dist y.dist)
    {st : Int × List (GIdx K)} (h : KInv k0 all st) :
    ∃ st', kSimStep B y.length dist y.index y.members st = .ok st' ∧ KInv k0 (all ++ [y]) st' := by
  obtain ⟨k, best⟩ := st
  rcases h with ⟨h1, h2, h3⟩ | F
  · simp only at h1 h2 h3
    subst h1
    unfold kSimStep
    simp only
    rw [if_neg (by omega), he.inf]
    simp only [bind, Except.bind]
    split
    · rename_i hle
      obtain ⟨hp, hh⟩ := hB.make (best ++ [y]) (gidx_swo hN)
      obtain ⟨st', e, F⟩ := shrink_ok hB hk hN (B.makeHeap (best ++ [y])).length
        (k - y.members, B.makeHeap (best ++ [y])) (Nat.le_refl _) ⟨[], by simpa using hp, by simp⟩
        (by simp only; rw [memSum_perm hp, memSum_append, h2, memSum_cons, memSum_nil]; ring) hle hh
      exact ⟨st', e, Or.inr F⟩
    · refine ⟨_, rfl, Or.inl ⟨rfl, ?_, by simp only; omega⟩⟩
      simp only
      rw [memSum_append, h2, memSum_cons, memSum_nil]; ring
  · obtain ⟨⟨rest, hp, hle⟩, hb, hn, hh, t, l, rfl, ht⟩ := F
    simp only at hp hle hb hn hh ht
    unfold kSimStep
    simp only
    rw [if_pos hn]
    have hNb : ∀ x ∈ t :: l, x.dist ≠ .nan := by
      intro x hx
      exact hN x (List.mem_append.2 (Or.inl (hp.mem_iff.1 (List.mem_append.2 (Or.inl hx)))))
    have hNy : y.dist ≠ .nan := hN y (by simp)
    have hmax := front_max hh hNb
    by_cases hlt : y.dist < t.dist
    · have e : dist t.dist = .ok y.dist := by
        rcases he t.dist with h | ⟨h, -⟩
        · exact h
        · exact absurd h (Dbl.lt_asymm hlt)
      rw [e]
      simp only [bind, Except.bind]
      rw [if_pos hlt]
      have hNp : ∀ x ∈ (t :: l) ++ [y], x.dist ≠ .nan := by
        intro x hx
        rcases List.mem_append.1 hx with h | h
        · exact hNb x h
        · rw [List.mem_singleton.1 h]; exact hNy
      obtain ⟨pp, ph⟩ := hB.push (t :: l) y (gidx_swo hNp) hh
      have q : (B.pushHeap (t :: l ++ [y]) ++ rest).Perm (all ++ [y]) := by
        refine (pp.append_right rest).trans ?_
        rw [List.append_assoc]
        refine (List.perm_append_comm.append_left (t :: l)).trans ?_
        rw [← List.append_assoc]
        exact hp.append_right _
      have q' : ∀ x ∈ B.pushHeap (t :: l ++ [y]), ∀ r ∈ rest, x.dist ≤ r.dist := by
        intro x hx r hr
        rcases List.mem_append.1 (pp.mem_iff.1 hx) with h | h
        · exact hle x h r hr
        · rw [List.mem_singleton.1 h]
          exact Dbl.le_of_lt (Dbl.lt_of_lt_of_le hlt (hle t (by simp) r hr))
      obtain ⟨st', e', F⟩ := shrink_ok hB hk hN (B.pushHeap (t :: l ++ [y])).length
        (k - y.members, B.pushHeap (t :: l ++ [y])) (Nat.le_refl _) ⟨rest, q, q'⟩
        (by simp only; rw [memSum_perm pp, memSum_append, hb, memSum_cons y, memSum_nil]; ring) (by simp only; omega) ph
      exact ⟨st', e', Or.inr F⟩
    · have hge : t.dist ≤ y.dist := (Dbl.not_lt hNy (hNb t (by simp))).1 hlt
      refine ⟨(k, t :: l), ?_, Or.inr ⟨⟨y :: rest, ?_, ?_⟩, hb, hn, hh, t, l, rfl, ht⟩⟩
      · rcases he t.dist with h | ⟨h, h'⟩
        · rw [h]
          simp only [bind, Except.bind]
          rw [if_neg hlt]
        · rw [h']
          simp only [bind, Except.bind]
          rw [if_neg (by simp)]
      · exact List.perm_middle.trans ((hp.cons y).trans (List.perm_append_singleton _ _).symm)
      · intro x hx r hr
        rcases List.mem_cons.1 hr with rfl | hr
        · exact Dbl.le_trans (hmax x hx) hge
        · exact hle x hx r hr

section

variable {ds : Dataset K} {rows : List (List (Dbl K))} [BandOps] {ratio : ℚ} {w : DistRef} {query : List (Dbl K)}
  {E D : ℕ → ℕ × ℕ → Dbl K} [Arith K]

/-- The groups of length `ℓ` as the search refers to them. -/
def groupsAt (ABS : ℕ → List AG) (E : ℕ → ℕ × ℕ → Dbl K) (ℓ : ℕ) : List (GIdx K) :=
  (ABS ℓ).zipIdx.map (fun p => ⟨ℓ, p.2, p.1.mem.length, E ℓ p.1.rep⟩)

theorem mem_groupsAt {ABS : ℕ → List AG} {ℓ : ℕ} {x : GIdx K} :
    x ∈ groupsAt ABS E ℓ ↔ ∃ (j : ℕ) (a : AG), (ABS ℓ)[j]? = some a ∧ x = ⟨ℓ, j, a.mem.length, E ℓ a.rep⟩ := by
  unfold groupsAt
  rw [List.mem_map]
  constructor
  · rintro ⟨⟨a, j⟩, h, rfl⟩
    exact ⟨j, a, List.mem_zipIdx_iff_getElem?.1 h, rfl⟩
  · rintro ⟨j, a, h, rfl⟩
    exact ⟨(a, j), List.mem_zipIdx_iff_getElem?.2 h, rfl⟩

theorem interLevel_list {B : Algos (GIdx K)} (hB : B.Lawful GIdx.lt) {k0 : ℕ} (hk : 0 < k0) (ℓ : ℕ)
    (dist : Group K → Dbl K → Res (Dbl K)) : ∀ (gl : List (Group K)) (al : List AG) (j : ℕ) (all : List (GIdx K))
    (st : Int × List (GIdx K)), gl.length = al.length →
    (∀ (i : ℕ) g (a : AG), gl[i]? = some g → al[i]? = some a → g.count = a.mem.length ∧
      ExactEval (dist g) (E ℓ a.rep) ∧ E ℓ a.rep ≠ .nan) →
    (∀ x ∈ all, x.dist ≠ .nan) → KInv k0 all st →
    ∃ st', (gl.zipIdx j).foldlM (fun (st : Int × List (GIdx K)) (g : Group K × ℕ) =>
        kSimStep B ℓ (dist g.1) g.2 g.1.count st) st = .ok st' ∧
      KInv k0 (all ++ (al.zipIdx j).map (fun p => (⟨ℓ, p.2, p.1.mem.length, E ℓ p.1.rep⟩ : GIdx K))) st' := by
  intro gl
  induction gl with
  | nil =>
    intro al j all st hl _ _ h
    have : al = [] := List.length_eq_zero_iff.1 (by simpa using hl.symm)
    subst this
    exact ⟨st, rfl, by simpa using h⟩
  | cons g gl ih =>
    intro al j all st hl hg hN h
    cases al with
    | nil => simp at hl
    | cons a al =>
      obtain ⟨h1, h2, h3⟩ := hg 0 g a rfl rfl
      have hN' : ∀ x ∈ all ++ [(⟨ℓ, j, a.mem.length, E ℓ a.rep⟩ : GIdx K)], x.dist ≠ .nan := by
        intro x hx
        rcases List.mem_append.1 hx with h | h
        · exact hN x h
        · rw [List.mem_singleton.1 h]; exact h3
      obtain ⟨st', e, h'⟩ := kInv_step hB hk (y := ⟨ℓ, j, a.mem.length, E ℓ a.rep⟩) hN' (by simp) h2 h
      obtain ⟨st'', e'', h''⟩ := ih al (j + 1) _ st' (by simpa using hl) (fun i => hg (i + 1)) hN' h'
      refine ⟨st'', ?_, ?_⟩
      · rw [List.zipIdx_cons, List.foldlM_cons]
        simp only [h1]
        rw [e]
        exact e''
      · rw [List.zipIdx_cons, List.map_cons]
        simpa using h''

theorem Rep.interLevelKSim {B : Algos (GIdx K)} (hB : B.Lawful GIdx.lt) {k0 : ℕ} (hk : 0 < k0) {ℓ n : ℕ}
    {sp : LocalSpace K} {ABS : ℕ → List AG} (R : Rep ds rows ℓ n sp (ABS ℓ)) (H : Holds ds rows)
    (hD : DistAt rows ratio w query E D ℓ) {all : List (GIdx K)} {st : Int × List (GIdx K)} (hN : ∀ x ∈ all, x.dist ≠ .nan)
    (h : KInv k0 all st) :
    ∃ st', sp.interLevelKSim B ds ratio w query st = .ok st' ∧ KInv k0 (all ++ groupsAt ABS E ℓ) st' := by
  unfold LocalSpace.interLevelKSim
  rw [R.len]
  refine interLevel_list hB hk ℓ (Group.distance ds ratio w query) sp.groups (ABS ℓ) 0 all st R.num ?_ hN h
  intro i g a hg ha
  have hd := hD _ (R.reps a (List.mem_of_getElem? ha))
  refine ⟨(R.grp i g a hg ha).count, ?_, hd.2.2.1.ne_nan⟩
  intro d
  unfold Group.distance
  rw [R.centroidPts H hg ha]
  exact hd.1 d

variable {dom : ℕ → Prop} [DecidablePred dom] {gs : GSpace K} {SP : ℕ → LocalSpace K} {ABS : ℕ → List AG}

/-- All groups of the lengths in `order`. -/
def allGroups (dom : ℕ → Prop) [DecidablePred dom] (ABS : ℕ → List AG) (E : ℕ → ℕ × ℕ → Dbl K) (order : List ℕ) :
    List (GIdx K) := (order.filter (fun ℓ => decide (dom ℓ))).flatMap (groupsAt ABS E)

theorem mem_allGroups {order : List ℕ} {x : GIdx K} : x ∈ allGroups dom ABS E order ↔
    ∃ ℓ ∈ order, dom ℓ ∧ ∃ (j : ℕ) (a : AG), (ABS ℓ)[j]? = some a ∧ x = ⟨ℓ, j, a.mem.length, E ℓ a.rep⟩ := by
  unfold allGroups
  simp only [List.mem_flatMap, List.mem_filter, decide_eq_true_eq, mem_groupsAt]
  constructor
  · rintro ⟨ℓ, ⟨h1, h2⟩, h⟩; exact ⟨ℓ, h1, h2, h⟩
  · rintro ⟨ℓ, h1, h2, h⟩; exact ⟨ℓ, ⟨h1, h2⟩, h⟩

theorem allGroups_ne_nan (S : Spaces ds rows dom gs SP ABS) {order : List ℕ}
    (hD : ∀ ℓ ∈ order, dom ℓ → DistAt rows ratio w query E D ℓ) : ∀ x ∈ allGroups dom ABS E order, x.dist ≠ .nan := by
  intro x hx
  obtain ⟨ℓ, hℓ, hd, j, a, ha, rfl⟩ := mem_allGroups.1 hx
  obtain ⟨n, -, R⟩ := S.rep ℓ hd
  exact (hD ℓ hℓ hd _ (R.reps a (List.mem_of_getElem? ha))).2.2.1.ne_nan

theorem kInv_loop {B : Algos (GIdx K)} (hB : B.Lawful GIdx.lt) {k0 : ℕ} (hk : 0 < k0) (S : Spaces ds rows dom gs SP ABS)
    (H : Holds ds rows) (order : List ℕ) (hl : ∀ ℓ ∈ order, (ℓ : Int) ≤ ds.maxCol)
    (hD : ∀ ℓ ∈ order, dom ℓ → DistAt rows ratio w query E D ℓ) :
    ∃ st, (order.map (Nat.cast : ℕ → Int)).foldlM (GSpace.kStep B ds ratio w query gs) ((k0 : Int), []) = .ok st ∧
      KInv k0 (allGroups dom ABS E order) st := by
  have key : ∀ (todo done : List ℕ) st, done ++ todo = order → KInv k0 (allGroups dom ABS E done) st →
      ∃ st', (todo.map (Nat.cast : ℕ → Int)).foldlM (GSpace.kStep B ds ratio w query gs) st = .ok st' ∧
        KInv k0 (allGroups dom ABS E order) st' := by
    intro todo
    induction todo with
    | nil => intro done st e h; rw [List.append_nil] at e; subst e; exact ⟨st, rfl, h⟩
    | cons v vs ih =>
      intro done st e h
      have : ∃ st', GSpace.kStep B ds ratio w query gs st v = .ok st' ∧ KInv k0 (allGroups dom ABS E (done ++ [v])) st' := by
        unfold GSpace.kStep
        by_cases hd : dom v
        · rw [S.at_dom hd]
          obtain ⟨n, -, R⟩ := S.rep v hd
          have e1 : allGroups dom ABS E (done ++ [v]) = allGroups dom ABS E done ++ groupsAt ABS E v := by
            unfold allGroups
            rw [List.filter_append, List.flatMap_append]
            simp [hd]
          rw [e1]
          refine R.interLevelKSim hB hk H (hD v (by rw [← e]; simp) hd) ?_ h
          exact allGroups_ne_nan S (fun ℓ hℓ hd => hD ℓ (by rw [← e]; simp [hℓ]) hd)
        · rw [S.at_off (hl v (by rw [← e]; simp)) hd]
          refine ⟨st, rfl, ?_⟩
          have e1 : allGroups dom ABS E (done ++ [v]) = allGroups dom ABS E done := by
            unfold allGroups
            rw [List.filter_append, List.flatMap_append]
            simp [hd]
          rw [e1]; exact h
      obtain ⟨st', e', h'⟩ := this
      rw [List.map_cons, List.foldlM_cons, e']
      exact ih (done ++ [v]) st' (by rw [← e]; simp) h'
  exact key order [] _ rfl (Or.inl ⟨rfl, by simp [allGroups, memSum], by simpa using hk⟩)

/-! ### From groups to members -/

/-- The distance of a subsequence given by its view. -/
def viewDist (D : ℕ → ℕ × ℕ → Dbl K) (v : View) : Dbl K := D (v.stop - v.start).toNat (v.index.toNat, v.start.toNat)

theorem viewDist_viewAt (ℓ : ℕ) (c : ℕ × ℕ) : viewDist D (viewAt ds ℓ c) = D ℓ c := by
  unfold viewDist viewAt viewOf
  simp

/-- A subsequence with its distance. -/
def candAt (ds : Dataset K) (D : ℕ → ℕ × ℕ → Dbl K) (ℓ : ℕ) (c : ℕ × ℕ) : Cand K := ⟨viewAt ds ℓ c, D ℓ c⟩

/-- `Group::intraGroupKSim` finds the best members. -/
theorem Rep.intraGroupKSim {A : Algos (Cand K)} (hA : SortsApart A) {ℓ n : ℕ} {sp : LocalSpace K} {abs : List AG}
    (R : Rep ds rows ℓ n sp abs) (hl : 1 ≤ ℓ)
    (hn : (n : Int) = ds.maxCol - ℓ + 1) (H : Holds ds rows) {j : ℕ} {g : Group K} {a : AG} (hg : sp.groups[j]? = some g)
    (ha : abs[j]? = some a) (hD : DistAt rows ratio w query E D ℓ) {k : ℕ} (hk : 0 < k)
    (hS : Separated (a.mem.map (candAt ds D ℓ))) :
    ∃ res rest, sp.intraGroupKSim A ds ratio w query k g = .ok res ∧ (res ++ rest).Perm (a.mem.map (candAt ds D ℓ)) ∧
      res.length = min k a.mem.length ∧ ∀ x ∈ res, ∀ r ∈ rest, x.dist ≤ r.dist := by
  have hsub := R.mems a (List.mem_of_getElem? ha)
  have hmap : (a.mem.map (viewAt ds ℓ)).map (fun v => (⟨v, viewDist D v⟩ : Cand K)) = a.mem.map (candAt ds D ℓ) := by
    rw [List.map_map]
    apply List.map_congr_left
    intro c _
    simp only [Function.comp_apply, viewDist_viewAt, candAt]
  unfold LocalSpace.intraGroupKSim
  rw [R.walk hn H hg ha]
  obtain ⟨st, e, hinv⟩ := topK_loop hA (F := viewDist D) hk (fun (st : Int × List (Cand K)) v =>
      topKStep A (fun bound => do let pts ← ds.points v; Arith.eval ratio w query pts bound) v st) (a.mem.map (viewAt ds ℓ)) (by
      intro v hv
      obtain ⟨c, hc, rfl⟩ := List.mem_map.1 hv
      refine ⟨_, ?_, fun st => rfl⟩
      intro d
      rw [viewDist_viewAt, (hsub c hc).points H]
      exact (hD c (hsub c hc)).2.1 d) (by rw [hmap]; exact hS)
  rw [List.foldlM_map] at e
  rw [foldlM_congr (g := fun (st : Int × List (Cand K)) (c : ℕ × ℕ) =>
    topKStep A (fun bound => do let pts ← ds.points (viewAt ds ℓ c); Arith.eval ratio w query pts bound) (viewAt ds ℓ c) st)]
  · rw [e]
    obtain ⟨rest, hp, hlen, hle⟩ := hinv.result
    rw [hmap] at hp
    rw [List.length_map] at hlen
    exact ⟨st.2, rest, rfl, hp, hlen, hle⟩
  · intro c hc st
    rw [R.member hl H (hsub c hc)]
    rfl

/-- The members of a group that the search refers to. -/
def candsOf (ds : Dataset K) (ABS : ℕ → List AG) (D : ℕ → ℕ × ℕ → Dbl K) (x : GIdx K) : List (Cand K) :=
  match (ABS x.length.toNat)[x.index]? with
  | some a => a.mem.map (candAt ds D x.length.toNat)
  | none => []

theorem candsOf_eq {ℓ j : ℕ} {a : AG} (h : (ABS ℓ)[j]? = some a) (n : Int) (d : Dbl K) :
    candsOf ds ABS D ⟨ℓ, j, n, d⟩ = a.mem.map (candAt ds D ℓ) := by
  unfold candsOf
  simp only [Int.toNat_natCast, h]

theorem groupAt_ok (S : Spaces ds rows dom gs SP ABS) {ℓ j : ℕ} {a : AG} (hd : dom ℓ) (ha : (ABS ℓ)[j]? = some a) (n : Int)
    (d : Dbl K) : ∃ g, (SP ℓ).groups[j]? = some g ∧ gs.groupAt ⟨ℓ, j, n, d⟩ = .ok (SP ℓ, g) := by
  obtain ⟨m, -, R⟩ := S.rep ℓ hd
  have : j < (SP ℓ).groups.length := by rw [R.num]; exact (List.getElem?_eq_some_iff.1 ha).1
  refine ⟨_, List.getElem?_eq_getElem this, ?_⟩
  unfold GSpace.groupAt
  simp only [S.at_dom hd, bind, Except.bind, LocalSpace.getGroup, Int.toNat_natCast]
  rw [if_neg (by omega), List.getElem?_eq_getElem this]

theorem candsOf_length (order : List ℕ) {x : GIdx K} (hx : x ∈ allGroups dom ABS E order) :
    ((candsOf ds ABS D x).length : Int) = x.members := by
  obtain ⟨ℓ, -, -, j, a, ha, rfl⟩ := mem_allGroups.1 hx
  rw [candsOf_eq ha, List.length_map]

/-- What the grouped search collects: everything, or the groups with the nearest representatives, the farthest of them
trimmed to its nearest members. -/
inductive Collected (ds : Dataset K) (ABS : ℕ → List AG) (D : ℕ → ℕ × ℕ → Dbl K) (k0 : ℕ) (all : List (GIdx K))
    (res : List (Cand K)) : Prop
  | everything (h : memSum all < k0) (hp : res.Perm (all.flatMap (candsOf ds ABS D)))
  | trimmed (t : GIdx K) (l rest : List (GIdx K)) (tin tout : List (Cand K)) (hp : (t :: l ++ rest).Perm all)
      (hle : ∀ x ∈ t :: l, ∀ r ∈ rest, x.dist ≤ r.dist) (hmax : ∀ x ∈ t :: l, x.dist ≤ t.dist)
      (ht : (tin ++ tout).Perm (candsOf ds ABS D t)) (htl : tin ≠ []) (htle : ∀ x ∈ tin, ∀ r ∈ tout, x.dist ≤ r.dist)
      (hlen : ((tin.length : Int)) + memSum l = k0)
      (hres : res.Perm (tin ++ l.flatMap (candsOf ds ABS D)))

theorem kSearch_ok {A : Algos (Cand K)} (hA : SortsApart A) {B : Algos (GIdx K)} (hB : B.Lawful GIdx.lt) {k0 : ℕ}
    (hk : 0 < k0) (S : Spaces ds rows dom gs SP ABS) (H : Holds ds rows) (hw : gs.warped = some w) (hth : gs.threshold.isSome) (order : List ℕ)
    (ho : generateTraverseOrder ratio query.length ((gs.spaces.length : Int) - 1) = .ok (order.map Nat.cast))
    (hl : ∀ ℓ ∈ order, 1 ≤ ℓ ∧ (ℓ : Int) ≤ ds.maxCol) (hD : ∀ ℓ ∈ order, dom ℓ → DistAt rows ratio w query E D ℓ)
    (hS : Separated ((allGroups dom ABS E order).flatMap (candsOf ds ABS D))) :
    ∃ res, gs.getKBestMatches A B ds ratio query k0 = .ok res ∧ Collected ds ABS D k0 (allGroups dom ABS E order) res := by
  obtain ⟨st, e, hinv⟩ := kInv_loop (ratio := ratio) (w := w) (query := query) hB hk S H order (fun ℓ h => (hl ℓ h).2) hD
  -- the final evaluation
  have hfin : ∀ vs : List View, (∀ v ∈ vs, ∃ ℓ ∈ order, dom ℓ ∧ ∃ c, SubAt rows ℓ c ∧ v = viewAt ds ℓ c) →
      vs.mapM (fun v => do
        let pts ← ds.points v
        let d ← Arith.eval ratio w query pts .inf
        (.ok ⟨v, d⟩ : Res (Cand K))) = .ok (vs.map (fun v => ⟨v, viewDist D v⟩)) := by
    intro vs hvs
    apply mapM_ok
    intro v hv
    obtain ⟨ℓ, hℓ, hd, c, hc, rfl⟩ := hvs v hv
    rw [hc.points H]
    simp only [bind, Except.bind]
    rw [((hD ℓ hℓ hd c hc).2.1).at_inf, viewDist_viewAt]
  have hsubAt : ∀ ℓ, dom ℓ → ∀ (j : ℕ) (a : AG), (ABS ℓ)[j]? = some a → ∀ c ∈ a.mem, SubAt rows ℓ c := by
    intro ℓ hd j a ha c hc
    obtain ⟨n, -, R⟩ := S.rep ℓ hd
    exact R.mems a (List.mem_of_getElem? ha) c hc
  have hothers : ∀ l : List (GIdx K), (∀ x ∈ l, x ∈ allGroups dom ABS E order) →
      l.mapM (gs.takeAll ds) =
        .ok (l.map (fun x => (candsOf ds ABS D x).map Cand.view)) := by
    intro l hlm
    apply mapM_ok
    intro x hx
    obtain ⟨ℓ, hℓ, hd, j, a, ha, rfl⟩ := mem_allGroups.1 (hlm x hx)
    obtain ⟨g, hg, e⟩ := groupAt_ok S hd ha a.mem.length (E ℓ a.rep)
    obtain ⟨n, hn, R⟩ := S.rep ℓ hd
    unfold GSpace.takeAll
    rw [e]
    simp only [bind, Except.bind]
    rw [R.getMembers (hl ℓ hℓ).1 hn H hg ha, candsOf_eq ha, List.map_map]
    simp only [Option.isNone_eq_false_iff.2 hth, Bool.false_and, Bool.false_eq_true, if_false]
    rfl
  have hcv : ∀ x ∈ allGroups dom ABS E order, ∀ c ∈ candsOf ds ABS D x,
      (∃ ℓ ∈ order, dom ℓ ∧ ∃ c', SubAt rows ℓ c' ∧ c.view = viewAt ds ℓ c') ∧ (⟨c.view, viewDist D c.view⟩ : Cand K) = c := by
    intro x hx c hc
    obtain ⟨ℓ, hℓ, hd, j, a, ha, rfl⟩ := mem_allGroups.1 hx
    rw [candsOf_eq ha, List.mem_map] at hc
    obtain ⟨c', hc', rfl⟩ := hc
    refine ⟨⟨ℓ, hℓ, hd, c', hsubAt ℓ hd j a ha c' hc', rfl⟩, ?_⟩
    simp only [candAt, viewDist_viewAt]
  have hback : ∀ cs : List (Cand K), (∀ c ∈ cs, ∃ x ∈ allGroups dom ABS E order, c ∈ candsOf ds ABS D x) →
      (cs.map Cand.view).map (fun v => (⟨v, viewDist D v⟩ : Cand K)) = cs := by
    intro cs hcs
    rw [List.map_map]
    conv_rhs => rw [← List.map_id cs]
    apply List.map_congr_left
    intro c hc
    obtain ⟨x, hx, hcx⟩ := hcs c hc
    exact (hcv x hx c hcx).2
  unfold GSpace.getKBestMatches
  rw [hw]
  simp only [bind, Except.bind, ho, e]
  obtain ⟨k, best⟩ := st
  cases best with
  | nil =>
    simp only
    refine ⟨[], rfl, ?_⟩
    rcases hinv with ⟨h1, h2, h3⟩ | F
    · simp only at h1 h2 h3
      refine Collected.everything ?_ ?_
      · omega
      · rw [← h1]; simp
    · obtain ⟨t, l, h, -⟩ := F.top
      cases h
  | cons t l =>
    simp only
    have hmem : ∀ x ∈ t :: l, x ∈ allGroups dom ABS E order := by
      intro x hx
      rcases hinv with ⟨h1, -, -⟩ | F
      · simp only at h1; rw [← h1]; exact hx
      · obtain ⟨rest, hp, -⟩ := F.left
        exact hp.mem_iff.1 (List.mem_append.2 (Or.inl hx))
    have htop := hmem t (by simp)
    obtain ⟨ℓ, hℓ, hd, j, a, ha, ht⟩ := mem_allGroups.1 htop
    obtain ⟨n, hn, R⟩ := S.rep ℓ hd
    obtain ⟨g, hg, eg⟩ := groupAt_ok S hd ha a.mem.length (E ℓ a.rep)
    have hcand : candsOf ds ABS D t = a.mem.map (candAt ds D ℓ) := by rw [ht, candsOf_eq ha]
    have hmt : t.members = a.mem.length := by rw [ht]
    have hkpos : 0 < k + t.members := by
      rcases hinv with ⟨h1, h2, h3⟩ | F
      · simp only at h1 h2 h3
        omega
      · obtain ⟨t', l', h, h'⟩ := F.top
        simp only [List.cons.injEq] at h h'
        rw [h.1]; exact h'
    obtain ⟨kk, hkk⟩ := Int.eq_ofNat_of_zero_le (by omega : 0 ≤ k + t.members)
    obtain ⟨intra, drop, ei, hp, hlen, hle⟩ := R.intraGroupKSim hA (hl ℓ hℓ).1 hn H hg ha (hD ℓ hℓ hd) (k := kk) (by omega)
      (hS.mono (by
        intro c hc
        rw [List.mem_flatMap]
        exact ⟨t, htop, by rw [hcand]; exact hc⟩))
    have egt : gs.groupAt t = .ok (SP ℓ, g) := by rw [ht]; exact eg
    rw [egt]
    simp only
    rw [hkk, ei]
    simp only
    have hoth := hothers l (fun x hx => hmem x (by simp [hx]))
    rw [hoth]
    simp only
    have hviews : intra.map Cand.view ++ (l.map (fun x => (candsOf ds ABS D x).map Cand.view)).flatten =
        (intra ++ l.flatMap (candsOf ds ABS D)).map Cand.view := by
      rw [List.map_append, List.map_flatMap, List.flatMap_def]
    have hin : ∀ c ∈ intra ++ l.flatMap (candsOf ds ABS D), ∃ x ∈ allGroups dom ABS E order, c ∈ candsOf ds ABS D x := by
      intro c hc
      rcases List.mem_append.1 hc with h | h
      · exact ⟨t, htop, by rw [hcand]; exact hp.mem_iff.1 (List.mem_append.2 (Or.inl h))⟩
      · obtain ⟨x, hx, hcx⟩ := List.mem_flatMap.1 h
        exact ⟨x, hmem x (by simp [hx]), hcx⟩
    have hfin' := hfin ((intra ++ l.flatMap (candsOf ds ABS D)).map Cand.view) (by
      intro v hv
      obtain ⟨c, hc, rfl⟩ := List.mem_map.1 hv
      obtain ⟨x, hx, hcx⟩ := hin c hc
      exact (hcv x hx c hcx).1)
    simp only [bind, Except.bind] at hfin'
    rw [hviews, hfin', hback _ hin]
    refine ⟨_, rfl, ?_⟩
    rcases hinv with ⟨h1, h2, h3⟩ | F
    · simp only at h1 h2 h3
      have hdrop : drop = [] := by
        have := hp.length_eq
        rw [List.length_append, List.length_map] at this
        have : drop.length = 0 := by omega
        exact List.length_eq_zero_iff.1 this
      subst hdrop
      rw [List.append_nil] at hp
      refine Collected.everything (by omega) ?_
      rw [← h1, List.flatMap_cons, hcand]
      exact hp.append_right _
    · obtain ⟨rest, hpr, hler⟩ := F.left
      have hb := F.budget
      have hn0 := F.nonpos
      simp only at hpr hler hb hn0
      rw [memSum_cons] at hb
      refine Collected.trimmed t l rest intra drop hpr hler ?_ (by rw [hcand]; exact hp) ?_ hle ?_ (List.Perm.refl _)
      · exact front_max F.heap (fun y hy => allGroups_ne_nan S hD y (hmem y hy))
      · rintro rfl
        simp at hlen
        omega
      · rw [hlen]
        omega

end

end Genex
