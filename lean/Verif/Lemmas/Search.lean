import Verif.Lemmas.Exact
import Verif.Lemmas.Grouping

/-! Searching the groups: the best match. -/

set_option linter.unusedSectionVars false

namespace Genex

open Spec Dbl Props

variable {K : Type} [Field K] [LinearOrder K] [IsStrictOrderedRing K] [HasSqrt K]

/-- `E ℓ c` is the distance of the subsequence `c` of length `ℓ` to the query, `D ℓ c` that of the query to the subsequence.
The searches use the first for representatives and the second for members.  With exact arithmetic they are the same. -/
def DistAt [Arith K] (rows : List (List (Dbl K))) [BandOps] (ratio : ℚ) (w : DistRef) (query : List (Dbl K))
    (E D : ℕ → ℕ × ℕ → Dbl K) (ℓ : ℕ) : Prop :=
  ∀ c, SubAt rows ℓ c → ExactEval (Arith.eval ratio w (ptsAt rows ℓ c) query) (E ℓ c) ∧
    ExactEval (Arith.eval ratio w query (ptsAt rows ℓ c)) (D ℓ c) ∧ IsDist (E ℓ c) ∧ IsDist (D ℓ c)

/-- The local spaces of the lengths in `dom` represent groups, the other places are null. -/
structure Spaces (ds : Dataset K) (rows : List (List (Dbl K))) (dom : ℕ → Prop) (gs : GSpace K) (SP : ℕ → LocalSpace K)
    (ABS : ℕ → List AG) : Prop where
  size : (gs.spaces.length : Int) = ds.maxCol + 1
  le : ∀ ℓ, dom ℓ → (ℓ : Int) ≤ ds.maxCol
  on : ∀ ℓ, dom ℓ → gs.spaces[ℓ]? = some (some (SP ℓ))
  rep : ∀ ℓ, dom ℓ → ∃ n : ℕ, (n : Int) = ds.maxCol - ℓ + 1 ∧ Rep ds rows ℓ n (SP ℓ) (ABS ℓ)
  off : ∀ ℓ : ℕ, (ℓ : Int) ≤ ds.maxCol → ¬ dom ℓ → gs.spaces[ℓ]? = some none

/-- The loop that keeps the nearest. -/
theorem minLoop {α β : Type} (f : α → β) (eval : α → Dbl K → Res (Dbl K)) (F : α → Dbl K) :
    ∀ (l : List α) (b0 : Dbl K × β), b0.1 ≠ .nan → (∀ x ∈ l, ExactEval (eval x) (F x) ∧ F x ≠ .nan) →
    ∃ b, l.foldlM (fun (st : Dbl K × β) x => do
        let d ← eval x st.1
        (.ok (if d < st.1 then (d, f x) else st) : Res (Dbl K × β))) b0 = .ok b ∧
      ((b = b0 ∧ ∀ x ∈ l, b0.1 ≤ F x) ∨ (∃ x ∈ l, b = (F x, f x) ∧ F x < b0.1 ∧ ∀ y ∈ l, F x ≤ F y)) := by
  intro l
  induction l with
  | nil => intro b0 _ _; exact ⟨b0, rfl, Or.inl ⟨rfl, by simp⟩⟩
  | cons x xs ih =>
    intro b0 hb0 h
    obtain ⟨hE, hN⟩ := h x (by simp)
    have key : ∃ v, eval x b0.1 = .ok v ∧ (if v < b0.1 then (v, f x) else b0) = (if F x < b0.1 then (F x, f x) else b0) := by
      rcases hE b0.1 with e | ⟨hlt, e⟩
      · exact ⟨_, e, rfl⟩
      · refine ⟨_, e, ?_⟩
        rw [if_neg (by simp), if_neg (lt_asymm hlt)]
    obtain ⟨v, hv, hif⟩ := key
    have hrest := fun y (hy : y ∈ xs) => h y (by simp [hy])
    rw [List.foldlM_cons, hv]
    simp only [bind, Except.bind, hif]
    by_cases hlt : F x < b0.1
    · rw [if_pos hlt]
      obtain ⟨b, e, hb⟩ := ih (F x, f x) hN hrest
      refine ⟨b, e, Or.inr ?_⟩
      rcases hb with ⟨rfl, hb⟩ | ⟨y, hy, rfl, h1, h2⟩
      · refine ⟨x, by simp, rfl, hlt, ?_⟩
        intro y hy
        rcases List.mem_cons.1 hy with rfl | hy
        · exact le_refl hN
        · exact hb y hy
      · refine ⟨y, by simp [hy], rfl, lt_trans h1 hlt, ?_⟩
        intro z hz
        rcases List.mem_cons.1 hz with rfl | hz
        · exact le_of_lt h1
        · exact h2 z hz
    · rw [if_neg hlt]
      obtain ⟨b, e, hb⟩ := ih b0 hb0 hrest
      refine ⟨b, e, ?_⟩
      have hle := (Dbl.not_lt hN hb0).1 hlt
      rcases hb with ⟨rfl, hb⟩ | ⟨y, hy, rfl, h1, h2⟩
      · refine Or.inl ⟨rfl, ?_⟩
        intro y hy
        rcases List.mem_cons.1 hy with rfl | hy
        · exact hle
        · exact hb y hy
      · refine Or.inr ⟨y, by simp [hy], rfl, h1, ?_⟩
        intro z hz
        rcases List.mem_cons.1 hz with rfl | hz
        · exact le_trans (le_of_lt h1) hle
        · exact h2 z hz

section

variable {ds : Dataset K} {rows : List (List (Dbl K))} [BandOps] {ratio : ℚ} {w : DistRef} {query : List (Dbl K)}
  {E D : ℕ → ℕ × ℕ → Dbl K} [Arith K]

/-- `Group::getBestMatch` finds a nearest member, if a member has a finite distance. -/
theorem Rep.getBestMatch {ℓ n : ℕ} {sp : LocalSpace K} {abs : List AG} (R : Rep ds rows ℓ n sp abs) (hl : 1 ≤ ℓ)
    (hn : (n : Int) = ds.maxCol - ℓ + 1) (H : Holds ds rows) {j : ℕ} {g : Group K} {a : AG} (hg : sp.groups[j]? = some g)
    (ha : abs[j]? = some a) (hD : DistAt rows ratio w query E D ℓ) (hf : ∃ c ∈ a.mem, D ℓ c < .inf) :
    ∃ c ∈ a.mem, sp.getBestMatch ds ratio w query g = .ok ⟨viewAt ds ℓ c, D ℓ c⟩ ∧ ∀ c' ∈ a.mem, D ℓ c ≤ D ℓ c' := by
  have hsub := R.mems a (List.mem_of_getElem? ha)
  unfold LocalSpace.getBestMatch
  rw [R.walk hn H hg ha]
  obtain ⟨b, e, hb⟩ := minLoop (fun c : ℕ × ℕ => ((c.1 : Int), (c.2 : Int)))
    (fun c d => Arith.eval ratio w query (ptsAt rows ℓ c) d) (D ℓ) a.mem ((.inf : Dbl K), ((0 : Int), (0 : Int))) (by simp)
    (fun c hc => ⟨(hD c (hsub c hc)).2.1, (hD c (hsub c hc)).2.2.2.ne_nan⟩)
  rw [foldlM_congr (g := fun (st : Dbl K × (Int × Int)) (c : ℕ × ℕ) => do
        let d ← Arith.eval ratio w query (ptsAt rows ℓ c) st.1
        (.ok (if d < st.1 then (d, ((c.1 : Int), (c.2 : Int))) else st) : Res (Dbl K × (Int × Int))))]
  · rw [e]
    simp only [bind, Except.bind]
    rcases hb with ⟨rfl, hb⟩ | ⟨c, hc, rfl, -, h2⟩
    · obtain ⟨c, hc, hlt⟩ := hf
      exact absurd (Dbl.lt_of_lt_of_le hlt (hb c hc)) (Dbl.lt_irrefl _)
    · rw [R.member hl H (hsub c hc)]
      exact ⟨c, hc, rfl, h2⟩
  · intro c hc st
    rw [R.member hl H (hsub c hc)]
    simp only [bind, Except.bind]
    rw [(hsub c hc).points H]

/-- `LocalLengthGroupSpace::getBestGroup` finds the first nearest representative below the bound. -/
theorem Rep.getBestGroup {ℓ n : ℕ} {sp : LocalSpace K} {abs : List AG} (R : Rep ds rows ℓ n sp abs)
    (H : Holds ds rows) (hD : DistAt rows ratio w query E D ℓ) (d0 : Dbl K) (h0 : d0 ≠ .nan) :
    ∃ b, sp.getBestGroup ds ratio w query d0 = .ok b ∧
      ((b = (d0, none) ∧ ∀ a ∈ abs, d0 ≤ E ℓ a.rep) ∨
       ∃ (j : ℕ) (a : AG), abs[j]? = some a ∧ b = (E ℓ a.rep, some j) ∧ E ℓ a.rep < d0 ∧ ∀ a' ∈ abs, E ℓ a.rep ≤ E ℓ a'.rep) := by
  let F : Group K → Dbl K := fun g => match abs[g.groupIndex]? with
    | some a => E ℓ a.rep
    | none => .nan
  have hF : ∀ (j : ℕ) g (a : AG), sp.groups[j]? = some g → abs[j]? = some a → F g = E ℓ a.rep := by
    intro j g a hg ha
    simp only [F, (R.grp j g a hg ha).index, ha]
  have hboth : ∀ (j : ℕ) g, sp.groups[j]? = some g → ∃ a, abs[j]? = some a := by
    intro j x hx
    have : j < abs.length := by rw [← R.num]; exact (List.getElem?_eq_some_iff.1 hx).1
    exact ⟨_, List.getElem?_eq_getElem this⟩
  have hboth' : ∀ (j : ℕ) (a : AG), abs[j]? = some a → ∃ g, sp.groups[j]? = some g := by
    intro j x hx
    have : j < sp.groups.length := by rw [R.num]; exact (List.getElem?_eq_some_iff.1 hx).1
    exact ⟨_, List.getElem?_eq_getElem this⟩
  obtain ⟨b, e, hb⟩ := bestLoop_exact (dist := Group.distance ds ratio w query) (F := F) sp.groups 0 (d0, none) h0 (by
    intro g hg
    obtain ⟨j, hj⟩ := List.mem_iff_getElem?.1 hg
    obtain ⟨a, ha⟩ := hboth j g hj
    have h := hD _ (R.reps a (List.mem_of_getElem? ha))
    rw [hF j g a hj ha]
    refine ⟨?_, h.2.2.1.ne_nan⟩
    intro d
    unfold Group.distance
    rw [R.centroidPts H hj ha]
    exact h.1 d)
  refine ⟨b, e, ?_⟩
  have hall : ∀ {x : Dbl K}, (∀ g ∈ sp.groups, x ≤ F g) → ∀ a ∈ abs, x ≤ E ℓ a.rep := by
    intro x h a ha
    obtain ⟨j, hj⟩ := List.mem_iff_getElem?.1 ha
    obtain ⟨g, hg⟩ := hboth' j a hj
    rw [← hF j g a hg hj]
    exact h g (List.mem_of_getElem? hg)
  rcases hb with ⟨rfl, h⟩ | ⟨j, g, hg, rfl, h1, h2⟩
  · exact Or.inl ⟨rfl, hall h⟩
  · obtain ⟨a, ha⟩ := hboth j g hg
    rw [hF j g a hg ha] at h1 h2
    exact Or.inr ⟨j, a, ha, by rw [hF j g a hg ha, Nat.zero_add], h1, hall h2⟩

variable {dom : ℕ → Prop} {gs : GSpace K} {SP : ℕ → LocalSpace K} {ABS : ℕ → List AG}

theorem Spaces.at_dom (S : Spaces ds rows dom gs SP ABS) {ℓ : ℕ} (h : dom ℓ) : gs.spaceAt ℓ = .ok (.some (SP ℓ)) := by
  unfold GSpace.spaceAt
  rw [if_neg (by omega), Int.toNat_natCast, S.on ℓ h]

theorem Spaces.at_off (S : Spaces ds rows dom gs SP ABS) {ℓ : ℕ} (hl : (ℓ : Int) ≤ ds.maxCol) (h : ¬ dom ℓ) :
    gs.spaceAt ℓ = .ok .none := by
  unfold GSpace.spaceAt
  rw [if_neg (by omega), Int.toNat_natCast, S.off ℓ hl h]

/-- State of the search for the nearest group after the lengths `done`. -/
def BestInv (dom : ℕ → Prop) (SP : ℕ → LocalSpace K) (ABS : ℕ → List AG) (E : ℕ → ℕ × ℕ → Dbl K) (done : List ℕ)
    (st : Dbl K × Option (LocalSpace K × ℕ)) : Prop :=
  (st = (.inf, .none) ∧ ∀ ℓ ∈ done, dom ℓ → ∀ a ∈ ABS ℓ, .inf ≤ E ℓ a.rep) ∨
  ∃ ℓ ∈ done, dom ℓ ∧ ∃ (j : ℕ) (a : AG), (ABS ℓ)[j]? = some a ∧ st = (E ℓ a.rep, some (SP ℓ, j)) ∧ E ℓ a.rep < .inf ∧
    ∀ ℓ' ∈ done, dom ℓ' → ∀ a' ∈ ABS ℓ', E ℓ a.rep ≤ E ℓ' a'.rep

theorem bestInv_step (S : Spaces ds rows dom gs SP ABS) (H : Holds ds rows) {ℓ : ℕ} (hl : (ℓ : Int) ≤ ds.maxCol)
    (hD : dom ℓ → DistAt rows ratio w query E D ℓ) (hN : ∀ ℓ, dom ℓ → ∀ a ∈ ABS ℓ, E ℓ a.rep ≠ .nan) {done : List ℕ}
    {st : Dbl K × Option (LocalSpace K × ℕ)}
    (h : BestInv dom SP ABS E done st) :
    ∃ st', GSpace.bestStep ds ratio w query gs st ℓ = .ok st' ∧ BestInv dom SP ABS E (done ++ [ℓ]) st' := by
  unfold GSpace.bestStep
  by_cases hd : dom ℓ
  · rw [S.at_dom hd]
    simp only [bind, Except.bind]
    obtain ⟨n, -, R⟩ := S.rep ℓ hd
    have hst : st.1 ≠ .nan := by
      rcases h with ⟨rfl, -⟩ | ⟨ℓ', hℓ', hd', j, a, ha, rfl, -, -⟩
      · simp
      · exact hN ℓ' hd' a (List.mem_of_getElem? ha)
    obtain ⟨b, e, hb⟩ := R.getBestGroup H (hD hd) st.1 hst
    rw [e]
    simp only
    refine ⟨_, rfl, ?_⟩
    rcases hb with ⟨rfl, hb⟩ | ⟨j, a, ha, rfl, h1, h2⟩
    · rw [if_neg (Dbl.lt_irrefl _)]
      rcases h with ⟨rfl, h⟩ | ⟨ℓ', hℓ', hd', j, a, ha, rfl, h1, h2⟩
      · refine Or.inl ⟨rfl, ?_⟩
        intro ℓ' hℓ' hd' a ha
        rcases List.mem_append.1 hℓ' with hm | hm
        · exact h ℓ' hm hd' a ha
        · obtain rfl := List.mem_singleton.1 hm
          exact hb a ha
      · refine Or.inr ⟨ℓ', by simp [hℓ'], hd', j, a, ha, rfl, h1, ?_⟩
        intro ℓ'' hℓ'' hd'' a' ha'
        rcases List.mem_append.1 hℓ'' with hm | hm
        · exact h2 ℓ'' hm hd'' a' ha'
        · obtain rfl := List.mem_singleton.1 hm
          exact hb a' ha'
    · simp only [if_pos h1, Option.map_some]
      refine Or.inr ⟨ℓ, by simp, hd, j, a, ha, rfl, ?_, ?_⟩
      · rcases h with ⟨rfl, -⟩ | ⟨ℓ', hℓ', hd', j', a', ha', rfl, h1', -⟩
        · exact h1
        · exact lt_trans h1 h1'
      · intro ℓ'' hℓ'' hd'' a' ha'
        rcases List.mem_append.1 hℓ'' with hm | hm
        · rcases h with ⟨rfl, h⟩ | ⟨ℓ', hℓ', hd', j', a'', ha'', rfl, -, h2'⟩
          · exact le_trans (le_of_lt h1) (h ℓ'' hm hd'' a' ha')
          · exact le_trans (le_of_lt h1) (h2' ℓ'' hm hd'' a' ha')
        · obtain rfl := List.mem_singleton.1 hm
          exact h2 a' ha'
  · rw [S.at_off hl hd]
    refine ⟨st, rfl, ?_⟩
    rcases h with ⟨rfl, h⟩ | ⟨ℓ', hℓ', hd', j, a, ha, rfl, h1, h2⟩
    · refine Or.inl ⟨rfl, ?_⟩
      intro ℓ' hℓ' hd' a ha
      rcases List.mem_append.1 hℓ' with hm | hm
      · exact h ℓ' hm hd' a ha
      · obtain rfl := List.mem_singleton.1 hm
        exact absurd hd' hd
    · refine Or.inr ⟨ℓ', by simp [hℓ'], hd', j, a, ha, rfl, h1, ?_⟩
      intro ℓ'' hℓ'' hd'' a' ha'
      rcases List.mem_append.1 hℓ'' with hm | hm
      · exact h2 ℓ'' hm hd'' a' ha'
      · obtain rfl := List.mem_singleton.1 hm
        exact absurd hd'' hd

theorem bestInv_loop (S : Spaces ds rows dom gs SP ABS) (H : Holds ds rows) (order : List ℕ)
    (hl : ∀ ℓ ∈ order, (ℓ : Int) ≤ ds.maxCol) (hD : ∀ ℓ, dom ℓ → DistAt rows ratio w query E D ℓ) :
    ∃ st, (order.map (Nat.cast : ℕ → Int)).foldlM (GSpace.bestStep ds ratio w query gs) (.inf, .none) = .ok st ∧
      BestInv dom SP ABS E order st := by
  have hN : ∀ ℓ, dom ℓ → ∀ a ∈ ABS ℓ, E ℓ a.rep ≠ .nan := by
    intro ℓ hd a ha
    obtain ⟨n, -, R⟩ := S.rep ℓ hd
    exact (hD ℓ hd _ (R.reps a ha)).2.2.1.ne_nan
  have key : ∀ (todo done : List ℕ) st, done ++ todo = order → BestInv dom SP ABS E done st →
      ∃ st', (todo.map (Nat.cast : ℕ → Int)).foldlM (GSpace.bestStep ds ratio w query gs) st = .ok st' ∧
        BestInv dom SP ABS E order st' := by
    intro todo
    induction todo with
    | nil => intro done st e h; rw [List.append_nil] at e; subst e; exact ⟨st, rfl, h⟩
    | cons v vs ih =>
      intro done st e h
      obtain ⟨st', e', h'⟩ := bestInv_step S H (hl v (by rw [← e]; simp)) (hD v) hN h
      rw [List.map_cons, List.foldlM_cons, e']
      exact ih (done ++ [v]) st' (by rw [← e]; simp) h'
  exact key order [] _ rfl (Or.inl ⟨rfl, by simp⟩)

end

end Genex
