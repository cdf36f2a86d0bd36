import Verif.Model.BruteForce
import Verif.Lemmas.StdAlgo
import Verif.Lemmas.Dbl

/-! The order of candidates, and the loop that keeps the `k` best. -/

set_option linter.unusedSectionVars false

namespace Genex

open Dbl

variable {K : Type} [Field K] [LinearOrder K] [IsStrictOrderedRing K]

theorem eps_pos : (0 : K) < eps := by unfold eps; positivity

/-- Finite distances among the candidates differ by at least `eps` or not at all, and no distance is NaN or `-inf`. -/
structure Separated (l : List (Cand K)) : Prop where
  num : ∀ c ∈ l, c.dist = .inf ∨ ∃ x, c.dist = fin x
  gap : ∀ c ∈ l, ∀ c' ∈ l, ∀ x y, c.dist = fin x → c'.dist = fin y → x ≠ y → eps ≤ |x - y|

theorem Separated.mono {l l' : List (Cand K)} (h : Separated l) (hs : ∀ a ∈ l', a ∈ l) : Separated l' :=
  ⟨fun c hc => h.num c (hs c hc), fun c hc c' hc' => h.gap c (hs c hc) c' (hs c' hc')⟩

theorem Separated.ne_nan {l : List (Cand K)} (h : Separated l) {c : Cand K} (hc : c ∈ l) : c.dist ≠ .nan := by
  rcases h.num c hc with e | ⟨x, e⟩ <;> simp [e]

/-- Lexicographic comparison of the position: index, start, length. -/
def posLt (u v : View) : Prop :=
  u.index < v.index ∨ (u.index = v.index ∧ (u.start < v.start ∨ (u.start = v.start ∧ u.length < v.length)))

theorem lt_fin_close {a b : Cand K} {x y : K} (ha : a.dist = fin x) (hb : b.dist = fin y) (h : |x - y| < eps) :
    Cand.lt a b ↔ posLt a.view b.view := by
  unfold Cand.lt posLt
  rw [ha, hb, fin_sub_fin, abs_fin, if_pos (by simpa using h)]
  split
  · rename_i h1
    split
    · rename_i h2
      omega
    · rename_i h2
      omega
  · rename_i h1
    omega

theorem lt_fin_far {a b : Cand K} {x y : K} (ha : a.dist = fin x) (hb : b.dist = fin y) (h : eps ≤ |x - y|) :
    Cand.lt a b ↔ x < y := by
  unfold Cand.lt
  rw [ha, hb, fin_sub_fin, abs_fin, if_neg (by simpa using h)]
  simp

theorem lt_inf_right {a b : Cand K} {x : K} (ha : a.dist = fin x) (hb : b.dist = .inf) : Cand.lt a b := by
  unfold Cand.lt
  rw [ha, hb]
  rw [if_neg (by intro h; exact absurd h (by cases h))]
  simp

theorem lt_inf_left {a b : Cand K} (ha : a.dist = .inf) (hb : b.dist = .inf ∨ ∃ x, b.dist = fin x) : ¬ Cand.lt a b := by
  unfold Cand.lt
  rw [ha]
  rcases hb with hb | ⟨x, hb⟩
  · rw [hb, if_neg (by intro h; exact absurd h (by cases h))]
    simp
  · rw [hb, if_neg (by intro h; exact absurd h (by cases h))]
    simp

/-- On separated candidates: by distance, then, for equal finite distances, by position. -/
theorem Separated.lt_iff {l : List (Cand K)} (h : Separated l) {a b : Cand K} (ha : a ∈ l) (hb : b ∈ l) :
    Cand.lt a b ↔ a.dist < b.dist ∨ (∃ x, a.dist = fin x ∧ b.dist = fin x ∧ posLt a.view b.view) := by
  rcases h.num a ha with ea | ⟨x, ea⟩
  · rw [ea]
    simp only [inf_lt, reduceCtorEq, false_and, exists_false, or_self, iff_false]
    exact lt_inf_left ea (h.num b hb)
  · rcases h.num b hb with eb | ⟨y, eb⟩
    · simp only [ea, eb, fin_lt_inf, true_or, iff_true]
      exact lt_inf_right ea eb
    · by_cases hxy : x = y
      · subst hxy
        rw [lt_fin_close ea eb (by rw [sub_self, abs_zero]; exact eps_pos), ea, eb]
        simp
      · rw [lt_fin_far ea eb (h.gap a ha b hb x y ea eb hxy), ea, eb]
        simp only [fin_lt_fin, Dbl.fin.injEq, exists_eq_left']
        constructor
        · exact Or.inl
        · rintro (h | ⟨h, -⟩)
          · exact h
          · exact absurd h.symm hxy

/-- Hence a strict weak order. -/
theorem Separated.swo {l : List (Cand K)} (h : Separated l) : SWO Cand.lt l := by
  refine ⟨?_, ?_, ?_⟩
  · intro a ha
    rw [h.lt_iff ha ha]
    rintro (h | ⟨x, -, -, h⟩)
    · exact Dbl.lt_irrefl _ h
    · unfold posLt at h; omega
  · intro a ha b hb c hc
    rw [h.lt_iff ha hb, h.lt_iff hb hc, h.lt_iff ha hc]
    rintro (h1 | ⟨x, h1, h2, h3⟩) (g1 | ⟨y, g1, g2, g3⟩)
    · exact Or.inl (Dbl.lt_trans h1 g1)
    · left; rw [g2, ← g1]; exact h1
    · left; rw [h1, ← h2]; exact g1
    · right
      refine ⟨x, h1, ?_, ?_⟩
      · rw [g2, ← g1, h2]
      · unfold posLt at *; omega
  · intro a ha b hb c hc
    rw [h.lt_iff ha hb, h.lt_iff hb ha, h.lt_iff hb hc, h.lt_iff hc hb, h.lt_iff ha hc, h.lt_iff hc ha]
    have tri : ∀ u v : Cand K, u ∈ l → v ∈ l → ¬ u.dist < v.dist → ¬ v.dist < u.dist → u.dist = v.dist := by
      intro u v hu hv h1 h2
      rcases Dbl.lt_trichotomy (h.ne_nan hu) (h.ne_nan hv) with h | h | h
      · exact absurd h h1
      · exact h
      · exact absurd h h2
    intro h1 h2 h3 h4
    simp only [not_or] at h1 h2 h3 h4
    have e1 := tri a b ha hb h1.1 h2.1
    have e2 := tri b c hb hc h3.1 h4.1
    have hp : ∀ x, a.dist = fin x → ¬ posLt a.view c.view ∧ ¬ posLt c.view a.view := by
      intro x hx
      have p1 : ¬ posLt a.view b.view := fun hp => h1.2 ⟨x, hx, e1 ▸ hx, hp⟩
      have p2 : ¬ posLt b.view a.view := fun hp => h2.2 ⟨x, e1 ▸ hx, hx, hp⟩
      have p3 : ¬ posLt b.view c.view := fun hp => h3.2 ⟨x, e1 ▸ hx, e2 ▸ e1 ▸ hx, hp⟩
      have p4 : ¬ posLt c.view b.view := fun hp => h4.2 ⟨x, e2 ▸ e1 ▸ hx, e1 ▸ hx, hp⟩
      unfold posLt at *; omega
    constructor
    · rintro (h | ⟨x, hx, -, h⟩)
      · rw [e1, e2] at h; exact Dbl.lt_irrefl _ h
      · exact (hp x hx).1 h
    · rintro (h | ⟨x, -, hx, h⟩)
      · rw [e1, e2] at h; exact Dbl.lt_irrefl _ h
      · exact (hp x hx).2 h

/-- On separated candidates, "not smaller" implies "distance not smaller". -/
theorem Separated.le_of_not_lt {l : List (Cand K)} (h : Separated l) {a b : Cand K} (ha : a ∈ l) (hb : b ∈ l)
    (hab : ¬ Cand.lt a b) : b.dist ≤ a.dist := by
  rw [h.lt_iff ha hb] at hab
  exact (Dbl.not_lt (h.ne_nan ha) (h.ne_nan hb)).1 (fun h => hab (Or.inl h))

/-! ### The loop -/

/-- The contract of a distance with dropout: the exact value, or infinity above the bound. -/
def ExactEval (eval : Dbl K → Res (Dbl K)) (F : Dbl K) : Prop :=
  ∀ d, eval d = .ok F ∨ (d < F ∧ eval d = .ok .inf)

/-- A distance with dropout whose test for giving up is inexact: the value `F`, or infinity when the bound is below `G`. -/
def NearEval (eval : Dbl K → Res (Dbl K)) (F G : Dbl K) : Prop :=
  ∀ d, eval d = .ok F ∨ (d < G ∧ eval d = .ok .inf)

theorem ExactEval.inf {eval : Dbl K → Res (Dbl K)} {F : Dbl K} (h : ExactEval eval F) : eval .inf = .ok F := by
  rcases h .inf with h | ⟨h, -⟩
  · exact h
  · simp at h

/-- The contract of the algorithms, on candidates that are well separated. -/
structure SortsApart (A : Algos (Cand K)) : Prop where
  make : ∀ l, Separated l → (A.makeHeap l).Perm l ∧ IsHeap Cand.lt (A.makeHeap l)
  push : ∀ l x, Separated (l ++ [x]) → IsHeap Cand.lt l →
    (A.pushHeap (l ++ [x])).Perm (l ++ [x]) ∧ IsHeap Cand.lt (A.pushHeap (l ++ [x]))
  pop : ∀ x l, Separated (x :: l) → IsHeap Cand.lt (x :: l) →
    ∃ l', A.popHeap (x :: l) = l' ++ [x] ∧ l'.Perm l ∧ IsHeap Cand.lt l'
  sort : ∀ l, Separated l → (A.sort l).Perm l ∧ (A.sort l).Pairwise (fun a b => ¬ Cand.lt b a)

theorem Algos.Lawful.apart {A : Algos (Cand K)} (hA : A.Lawful Cand.lt) : SortsApart A :=
  ⟨fun l h => hA.make l h.swo, fun l x h => hA.push l x h.swo, fun x l h => hA.pop x l h.swo, fun l h => hA.sort l h.swo⟩

/-- State of the loop after the items `done`, for a total budget `k0`. -/
def TopInv (F : View → Dbl K) (k0 : ℕ) (done : List View) (st : Int × List (Cand K)) : Prop :=
  ∃ rest : List (Cand K), (st.2 ++ rest).Perm (done.map (fun v => ⟨v, F v⟩)) ∧
    ((0 < st.1 ∧ rest = [] ∧ st.1 = (k0 : Int) - done.length) ∨
     (st.1 = 0 ∧ st.2.length = k0 ∧ IsHeap Cand.lt st.2 ∧ ∀ h ∈ st.2, ∀ r ∈ rest, h.dist ≤ r.dist))

theorem topInv_step {A : Algos (Cand K)} (hA : SortsApart A) {F : View → Dbl K} {k0 : ℕ} (hk : 0 < k0)
    {done : List View} {v : View} (hS : Separated ((done ++ [v]).map (fun v => (⟨v, F v⟩ : Cand K))))
    {eval : Dbl K → Res (Dbl K)} (he : ExactEval eval (F v)) {st : Int × List (Cand K)} (h : TopInv F k0 done st) :
    ∃ st', topKStep A eval v st = .ok st' ∧ TopInv F k0 (done ++ [v]) st' := by
  obtain ⟨rest, hp, h | ⟨h0, hlen, hheap, hle⟩⟩ := h
  · obtain ⟨hpos, rfl, hk'⟩ := h
    rw [List.append_nil] at hp
    unfold topKStep
    rw [if_pos hpos, he.inf]
    simp only [bind, Except.bind]
    have hp' : (st.2 ++ [(⟨v, F v⟩ : Cand K)]).Perm ((done ++ [v]).map (fun v => (⟨v, F v⟩ : Cand K))) := by
      rw [List.map_append]
      exact hp.append_right _
    refine ⟨_, rfl, [], ?_, ?_⟩
    · simp only [List.append_nil]
      split
      · exact (hA.make _ (hS.mono (fun a ha => hp'.mem_iff.1 ha))).1.trans hp'
      · exact hp'
    · simp only [List.length_append, List.length_singleton]
      by_cases h1 : st.1 - 1 = 0
      · right
        rw [if_pos h1]
        have hm := hA.make _ (hS.mono (fun a ha => hp'.mem_iff.1 ha))
        refine ⟨h1, ?_, hm.2, by simp⟩
        rw [hm.1.length_eq, hp'.length_eq]
        simp only [List.length_map, List.length_append, List.length_singleton]
        omega
      · left
        exact ⟨by omega, trivial, by push_cast; omega⟩
  · unfold topKStep
    rw [if_neg (by omega)]
    obtain ⟨k, best⟩ := st
    simp only at *
    subst h0
    cases best with
    | nil => simp at hlen; omega
    | cons top l =>
      simp only
      have hSall : Separated ((⟨v, F v⟩ : Cand K) :: (top :: l) ++ rest) := hS.mono (by
        intro a ha
        rw [List.map_append, List.mem_append]
        rw [List.cons_append, List.mem_cons] at ha
        rcases ha with rfl | ha
        · right; simp
        · left; exact hp.mem_iff.1 ha)
      have hSb : Separated (top :: l) := hSall.mono (by intro a ha; simp at ha ⊢; tauto)
      have hmax : ∀ c ∈ top :: l, c.dist ≤ top.dist := fun c hc =>
        hSb.le_of_not_lt (by simp) hc (hheap.front hSb.swo c hc)
      have hvn : F v ≠ .nan := hSall.ne_nan (c := ⟨v, F v⟩) (by simp)
      have htn : top.dist ≠ .nan := hSb.ne_nan (by simp)
      by_cases hlt : F v < top.dist
      · have e : eval top.dist = .ok (F v) := by
          rcases he top.dist with h | ⟨h, -⟩
          · exact h
          · exact absurd h (Dbl.lt_asymm hlt)
        rw [e]
        simp only [bind, Except.bind]
        rw [if_pos hlt]
        have hSp : Separated ((top :: l) ++ [⟨v, F v⟩]) := hSall.mono (by intro a ha; simp at ha ⊢; tauto)
        obtain ⟨pp, ph⟩ := hA.push (top :: l) ⟨v, F v⟩ hSp hheap
        obtain ⟨x, l1, e1⟩ : ∃ x l1, A.pushHeap (top :: l ++ [⟨v, F v⟩]) = x :: l1 := by
          cases hc : A.pushHeap (top :: l ++ [⟨v, F v⟩]) with
          | nil => rw [hc] at pp; have := pp.length_eq; simp at this
          | cons x l1 => exact ⟨x, l1, rfl⟩
        rw [e1] at pp ph ⊢
        have hSx : Separated (x :: l1) := hSp.mono (fun a ha => pp.mem_iff.1 ha)
        obtain ⟨l2, e2, p2, h2⟩ := hA.pop x l1 hSx ph
        rw [e2, List.dropLast_concat]
        refine ⟨_, rfl, x :: rest, ?_, Or.inr ⟨rfl, ?_, h2, ?_⟩⟩
        · rw [List.map_append]
          have q1 : (l2 ++ x :: rest).Perm (x :: l1 ++ rest) :=
            (List.perm_middle).trans ((List.Perm.cons x (p2.append_right rest)))
          have q2 : (x :: l1 ++ rest).Perm ((top :: l ++ [⟨v, F v⟩]) ++ rest) := pp.append_right rest
          have q3 : ((top :: l ++ [(⟨v, F v⟩ : Cand K)]) ++ rest).Perm ((top :: l ++ rest) ++ [⟨v, F v⟩]) := by
            rw [List.append_assoc, List.append_assoc]
            exact (List.perm_append_comm).append_left _
          exact q1.trans (q2.trans (q3.trans (hp.append_right _)))
        · have := pp.length_eq
          have := p2.length_eq
          simp only [List.length_cons, List.length_append, List.length_nil] at *
          omega
        · intro h hh r hr
          have hh1 : h ∈ x :: l1 := by simp [p2.mem_iff.1 hh]
          rcases List.mem_cons.1 hr with rfl | hr
          · exact hSx.le_of_not_lt (by simp) hh1 (ph.front hSx.swo h hh1)
          · have := pp.mem_iff.1 hh1
            rw [List.mem_append] at this
            rcases this with h' | h'
            · exact hle h h' r hr
            · have : h = ⟨v, F v⟩ := by simpa using h'
              rw [this]
              exact Dbl.le_of_lt (Dbl.lt_of_lt_of_le hlt (hle top (by simp) r hr))
      · have hge : top.dist ≤ F v := (Dbl.not_lt hvn htn).1 hlt
        refine ⟨((0 : Int), top :: l), ?_, ⟨v, F v⟩ :: rest, ?_, Or.inr ⟨rfl, hlen, hheap, ?_⟩⟩
        · rcases he top.dist with h | ⟨h, h'⟩
          · rw [h]
            simp only [bind, Except.bind]
            rw [if_neg hlt]
          · rw [h']
            simp only [bind, Except.bind]
            rw [if_neg (by simp)]
        · rw [List.map_append]
          exact (List.perm_middle).trans (List.Perm.trans (List.Perm.cons _ hp) (List.perm_append_singleton _ _).symm)
        · intro h hh r hr
          rcases List.mem_cons.1 hr with rfl | hr
          · exact Dbl.le_trans (hmax h hh) hge
          · exact hle h hh r hr

theorem topK_loop {A : Algos (Cand K)} (hA : SortsApart A) {F : View → Dbl K} {k0 : ℕ} (hk : 0 < k0)
    (f : Int × List (Cand K) → View → Res (Int × List (Cand K)))
    (items : List View) (hf : ∀ v ∈ items, ∃ eval, ExactEval eval (F v) ∧ ∀ st, f st v = topKStep A eval v st)
    (hS : Separated (items.map (fun v => (⟨v, F v⟩ : Cand K)))) :
    ∃ st, items.foldlM f ((k0 : Int), []) = .ok st ∧ TopInv F k0 items st := by
  have key : ∀ (todo done : List View) st, done ++ todo = items → TopInv F k0 done st →
      ∃ st', todo.foldlM f st = .ok st' ∧ TopInv F k0 items st' := by
    intro todo
    induction todo with
    | nil => intro done st e h; rw [List.append_nil] at e; subst e; exact ⟨st, rfl, h⟩
    | cons v vs ih =>
      intro done st e h
      obtain ⟨eval, he, hfe⟩ := hf v (by rw [← e]; simp)
      obtain ⟨st', e', h'⟩ := topInv_step hA hk (hS.mono (by
        intro a ha
        rw [← e]
        rw [List.mem_map] at ha ⊢
        obtain ⟨w, hw, rfl⟩ := ha
        exact ⟨w, by simp at hw ⊢; tauto, rfl⟩)) he h
      rw [List.foldlM_cons, hfe, e']
      exact ih (done ++ [v]) st' (by rw [← e]; simp) h'
  exact key items [] _ rfl ⟨[], by simp, Or.inl ⟨by simpa using hk, rfl, by simp⟩⟩

/-- The result of the loop: the `k0` best, or all. -/
theorem TopInv.result {F : View → Dbl K} {k0 : ℕ} {items : List View} {st : Int × List (Cand K)} (h : TopInv F k0 items st) :
    ∃ rest : List (Cand K), (st.2 ++ rest).Perm (items.map (fun v => ⟨v, F v⟩)) ∧
      st.2.length = min k0 items.length ∧ ∀ h ∈ st.2, ∀ r ∈ rest, h.dist ≤ r.dist := by
  obtain ⟨rest, hp, ⟨h1, rfl, h2⟩ | ⟨-, h1, -, h2⟩⟩ := h
  · refine ⟨[], hp, ?_, by simp⟩
    have := hp.length_eq
    simp only [List.append_nil, List.length_map] at this
    omega
  · refine ⟨rest, hp, ?_, h2⟩
    have := hp.length_eq
    simp only [List.length_append, List.length_map] at this
    omega

end Genex
