import Verif.Model.Group
import Verif.Lemmas.BruteForce

/-! What a group space represents, and how the basic operations change it. -/

set_option linter.unusedSectionVars false

namespace Genex

open Spec Dbl

variable {K : Type} [Field K] [LinearOrder K] [HasSqrt K]

/-- A group in the abstract: coordinates of the representative and of the members, newest first. -/
structure AG where
  rep : ℕ × ℕ
  mem : List (ℕ × ℕ)

/-- `(index, start)` is the beginning of a subsequence of length `ℓ`. -/
def SubAt (rows : List (List (Dbl K))) (ℓ : ℕ) (c : ℕ × ℕ) : Prop := ∃ r, rows[c.1]? = some r ∧ c.2 + ℓ ≤ r.length

theorem SubAt.ne {rows : List (List (Dbl K))} {ℓ : ℕ} {c : ℕ × ℕ} (h : SubAt rows ℓ c) : rows ≠ [] := by
  obtain ⟨r, hr, -⟩ := h
  rintro rfl
  simp at hr

/-- Its points. -/
def ptsAt (rows : List (List (Dbl K))) (ℓ : ℕ) (c : ℕ × ℕ) : List (Dbl K) := slice (rows.getD c.1 []) c.2 (c.2 + ℓ)

/-- Its view. -/
def viewAt (ds : Dataset K) (ℓ : ℕ) (c : ℕ × ℕ) : View := viewOf ds.maxCol (c.1, c.2, c.2 + ℓ)

/-- Following `prev` from `p` spells the list. -/
def Chain (map : List Membership) (n gi : ℕ) : Int × Int → List (ℕ × ℕ) → Prop
  | p, [] => p = (-1, -1)
  | p, c :: cs => p = ((c.1 : Int), (c.2 : Int)) ∧ ∃ pr, map[c.1 * n + c.2]? = some ⟨pr, some gi⟩ ∧ Chain map n gi pr cs

structure GRep (ds : Dataset K) (ℓ n : ℕ) (map : List Membership) (j : ℕ) (g : Group K) (a : AG) : Prop where
  index : g.groupIndex = j
  centroid : g.centroid = .view (viewAt ds ℓ a.rep)
  count : g.count = a.mem.length
  chain : Chain map n j g.last a.mem

/-- The space `sp` of length `ℓ` represents the groups `abs`. -/
structure Rep (ds : Dataset K) (rows : List (List (Dbl K))) (ℓ n : ℕ) (sp : LocalSpace K) (abs : List AG) : Prop where
  len : sp.length = ℓ
  sub : sp.subCount = n
  size : sp.memberMap.length = rows.length * n
  num : sp.groups.length = abs.length
  grp : ∀ (j : ℕ) g a, sp.groups[j]? = some g → abs[j]? = some a → GRep ds ℓ n sp.memberMap j g a
  reps : ∀ a ∈ abs, SubAt rows ℓ a.rep
  mems : ∀ a ∈ abs, ∀ c ∈ a.mem, SubAt rows ℓ c
  nodup : (abs.flatMap AG.mem).Nodup

section

variable {ds : Dataset K} {rows : List (List (Dbl K))} (H : Holds ds rows)

include H in
theorem SubAt.getTimeSeries {ℓ : ℕ} {c : ℕ × ℕ} (h : SubAt rows ℓ c) (hl : 1 ≤ ℓ) :
    ds.getTimeSeries c.1 c.2 ((c.2 : Int) + ℓ) = .ok (viewAt ds ℓ c) := by
  obtain ⟨r, hr, hle⟩ := h
  have := H.getTimeSeries hr (s := c.2) (e := c.2 + ℓ) (by omega) hle
  push_cast at this
  rw [this]
  simp [viewAt, viewOf]

include H in
theorem SubAt.points {ℓ : ℕ} {c : ℕ × ℕ} (h : SubAt rows ℓ c) : ds.points (viewAt ds ℓ c) = .ok (ptsAt rows ℓ c) := by
  obtain ⟨r, hr, hle⟩ := h
  have : rows.getD c.1 [] = r := by rw [List.getD_eq_getElem?_getD, hr]; rfl
  unfold ptsAt viewAt viewOf
  rw [this]
  exact H.points hr hle

theorem SubAt.lt {ℓ : ℕ} {c : ℕ × ℕ} (h : SubAt rows ℓ c) : c.1 < rows.length := by
  obtain ⟨r, hr, -⟩ := h
  exact (List.getElem?_eq_some_iff.1 hr).1

include H in
theorem SubAt.start_lt {ℓ n : ℕ} {c : ℕ × ℕ} (h : SubAt rows ℓ c) (hn : (n : Int) = ds.maxCol - ℓ + 1) : c.2 < n := by
  obtain ⟨r, hr, hle⟩ := h
  have := H.fits _ _ hr
  omega

theorem ptsAt_length {ℓ : ℕ} {c : ℕ × ℕ} (h : SubAt rows ℓ c) : (ptsAt rows ℓ c).length = ℓ := by
  obtain ⟨r, hr, hle⟩ := h
  have : rows.getD c.1 [] = r := by rw [List.getD_eq_getElem?_getD, hr]; rfl
  unfold ptsAt
  rw [this, slice_length _ _ _ hle]
  omega

theorem gcell_inj {n : ℕ} {c c' : ℕ × ℕ} (h : c.2 < n) (h' : c'.2 < n) (e : c.1 * n + c.2 = c'.1 * n + c'.2) : c = c' := by
  have h1 : c.1 = c'.1 := by
    have a : (c.1 * n + c.2) / n = c.1 := by
      rw [Nat.mul_comm, Nat.mul_add_div (by omega), Nat.div_eq_of_lt h, Nat.add_zero]
    have b : (c'.1 * n + c'.2) / n = c'.1 := by
      rw [Nat.mul_comm, Nat.mul_add_div (by omega), Nat.div_eq_of_lt h', Nat.add_zero]
    rw [← a, ← b, e]
  rw [h1] at e
  exact Prod.ext h1 (by omega)

theorem cell_lt {n m : ℕ} {c : ℕ × ℕ} (h : c.1 < m) (h' : c.2 < n) : c.1 * n + c.2 < m * n := by
  have : (c.1 + 1) * n ≤ m * n := Nat.mul_le_mul_right _ h
  rw [Nat.add_mul] at this
  omega

theorem Chain.frame {map : List Membership} {n gi : ℕ} {x : ℕ} {m : Membership} : ∀ {cs : List (ℕ × ℕ)} {p : Int × Int},
    Chain map n gi p cs → (∀ c ∈ cs, c.1 * n + c.2 ≠ x) → Chain (map.set x m) n gi p cs := by
  intro cs
  induction cs with
  | nil => intro p h _; exact h
  | cons c cs ih =>
    intro p h hx
    obtain ⟨h1, pr, h2, h3⟩ := h
    refine ⟨h1, pr, ?_, ih h3 (fun c' hc' => hx c' (by simp [hc']))⟩
    rw [List.getElem?_set_ne (fun e => hx c (by simp) e.symm)]
    exact h2

/-- `addMember` puts `c` in front of the members of group `j`. -/
theorem Rep.addMember {ℓ n : ℕ} {sp : LocalSpace K} {abs : List AG} (R : Rep ds rows ℓ n sp abs)
    (hn : (n : Int) = ds.maxCol - ℓ + 1) {j : ℕ} {a : AG} (ha : abs[j]? = some a) {c : ℕ × ℕ} (hc : SubAt rows ℓ c)
    (hf : c ∉ abs.flatMap AG.mem) (H : Holds ds rows) :
    ∃ sp', sp.addMember j ((c.1 : Int), (c.2 : Int)) = .ok sp' ∧
      Rep ds rows ℓ n sp' (abs.set j { a with mem := c :: a.mem }) := by
  have hj : j < abs.length := (List.getElem?_eq_some_iff.1 ha).1
  obtain ⟨g, hg⟩ : ∃ g, sp.groups[j]? = some g := ⟨_, List.getElem?_eq_getElem (by rw [R.num]; exact hj)⟩
  have hcn := hc.start_lt H hn
  have hx : c.1 * n + c.2 < sp.memberMap.length := by rw [R.size]; exact cell_lt hc.lt hcn
  have hxi : ((c.1 : Int) * sp.subCount + c.2) = ((c.1 * n + c.2 : ℕ) : Int) := by rw [R.sub]; push_cast; ring
  have hcell : sp.cell ((c.1 : Int), (c.2 : Int)) = .ok sp.memberMap[c.1 * n + c.2] := by
    unfold LocalSpace.cell
    simp only [hxi, Int.toNat_natCast]
    rw [if_neg (by omega), List.getElem?_eq_getElem hx]
  unfold LocalSpace.addMember
  rw [hg, hcell]
  simp only [bind, Except.bind, hxi, Int.toNat_natCast]
  refine ⟨_, rfl, R.len, R.sub, by simp only [List.length_set]; exact R.size, by simp only [List.length_set]; exact R.num, ?_, ?_, ?_, ?_⟩
  · intro i g' a' hg' ha'
    simp only at hg' ⊢
    have G := R.grp j g a hg ha
    by_cases hij : j = i
    · subst hij
      rw [List.getElem?_set_self (by rw [R.num]; exact hj), Option.some.injEq] at hg'
      rw [List.getElem?_set_self hj, Option.some.injEq] at ha'
      subst hg' ha'
      refine ⟨G.index, G.centroid, ?_, rfl, g.last, ?_, ?_⟩
      · simp only [G.count, List.length_cons]; push_cast; ring
      · rw [List.getElem?_set_self hx, G.index]
      · refine G.chain.frame ?_
        intro c' hc' e
        have : c' = c := gcell_inj ((R.mems a (List.mem_of_getElem? ha) c' hc').start_lt H hn) hcn e
        subst this
        exact hf (List.mem_flatMap.2 ⟨a, List.mem_of_getElem? ha, hc'⟩)
    · rw [List.getElem?_set_ne hij] at hg' ha'
      have G' := R.grp i g' a' hg' ha'
      refine ⟨G'.index, G'.centroid, G'.count, G'.chain.frame ?_⟩
      intro c' hc' e
      have : c' = c := gcell_inj ((R.mems a' (List.mem_of_getElem? ha') c' hc').start_lt H hn) hcn e
      subst this
      exact hf (List.mem_flatMap.2 ⟨a', List.mem_of_getElem? ha', hc'⟩)
  · intro a' ha'
    rcases List.mem_or_eq_of_mem_set ha' with h | h
    · exact R.reps a' h
    · rw [h]; exact R.reps a (List.mem_of_getElem? ha)
  · intro a' ha' c' hc'
    rcases List.mem_or_eq_of_mem_set ha' with h | h
    · exact R.mems a' h c' hc'
    · rw [h] at hc'
      simp only [List.mem_cons] at hc'
      rcases hc' with rfl | hc'
      · exact hc
      · exact R.mems a (List.mem_of_getElem? ha) c' hc'
  · have hp : ((abs.set j { a with mem := c :: a.mem }).flatMap AG.mem).Perm (c :: abs.flatMap AG.mem) := flatMap_set_perm ha
    rw [hp.nodup_iff, List.nodup_cons]
    exact ⟨hf, R.nodup⟩
where
  flatMap_set_perm {abs : List AG} {j : ℕ} {a : AG} {c : ℕ × ℕ} (ha : abs[j]? = some a) :
      ((abs.set j { a with mem := c :: a.mem }).flatMap AG.mem).Perm (c :: abs.flatMap AG.mem) := by
    induction abs generalizing j with
    | nil => simp at ha
    | cons b bs ih =>
      cases j with
      | zero =>
        simp only [List.getElem?_cons_zero, Option.some.injEq] at ha
        subst ha
        simp
      | succ j =>
        simp only [List.getElem?_cons_succ] at ha
        simp only [List.set_cons_succ, List.flatMap_cons]
        exact ((ih ha).append_left _).trans List.perm_middle

/-- `push_back` of a new group with centroid `c`. -/
theorem Rep.pushGroup {ℓ n : ℕ} {sp : LocalSpace K} {abs : List AG} (R : Rep ds rows ℓ n sp abs) (hl : 1 ≤ ℓ)
    {c : ℕ × ℕ} (hc : SubAt rows ℓ c) (H : Holds ds rows) :
    ∃ sp', LocalSpace.pushGroup ds sp ((c.1 : Int), (c.2 : Int)) = .ok sp' ∧ Rep ds rows ℓ n sp' (abs ++ [⟨c, []⟩]) := by
  unfold LocalSpace.pushGroup
  simp only [R.len, hc.getTimeSeries H hl, bind, Except.bind]
  refine ⟨_, rfl, rfl, R.sub, R.size, by simp [R.num], ?_, ?_, ?_, ?_⟩
  · intro j g a hg ha
    simp only at hg
    by_cases hj : j < abs.length
    · rw [List.getElem?_append_left (by rw [R.num]; exact hj)] at hg
      rw [List.getElem?_append_left hj] at ha
      have G := R.grp j g a hg ha
      exact ⟨G.index, G.centroid, G.count, G.chain⟩
    · have hj' : j = abs.length := by
        have := (List.getElem?_eq_some_iff.1 ha).1
        simp only [List.length_append, List.length_cons, List.length_nil] at this
        omega
      subst hj'
      rw [List.getElem?_append_right (by rw [R.num]), R.num, Nat.sub_self] at hg
      rw [List.getElem?_append_right le_rfl, Nat.sub_self] at ha
      simp only [List.getElem?_cons_zero, Option.some.injEq] at hg ha
      subst hg ha
      exact ⟨rfl, rfl, rfl, rfl⟩
  · intro a ha
    rcases List.mem_append.1 ha with h | h
    · exact R.reps a h
    · rw [List.mem_singleton] at h; subst h; exact hc
  · intro a ha
    rcases List.mem_append.1 ha with h | h
    · exact R.mems a h
    · rw [List.mem_singleton] at h; subst h; simp
  · rw [List.flatMap_append]
    simpa using R.nodup

/-- The groups of a fresh space. -/
theorem Rep.new {ℓ n : ℕ} (H : Holds ds rows) (hn : (n : Int) = ds.maxCol - ℓ + 1) :
    ∃ sp, LocalSpace.new ds (ℓ : Int) = .ok sp ∧ Rep ds rows ℓ n sp [] := by
  unfold LocalSpace.new
  simp only [← hn, H.count]
  have : ((rows.length : Int) * (n : Int)) = ((rows.length * n : ℕ) : Int) := by push_cast; ring
  rw [this, if_neg (by omega), Int.toNat_natCast]
  refine ⟨_, rfl, rfl, rfl, by simp, rfl, ?_, by simp, by simp, by simp⟩
  intro j g a hg
  simp at hg

/-! ### Walking over the members -/

theorem Chain.loop {σ : Type} {n gi : ℕ} {sp : LocalSpace K} (hsub : sp.subCount = n) (body : σ → Int × Int → Res σ) :
    ∀ (cs : List (ℕ × ℕ)) (p : Int × Int) (fuel : ℕ) (s : σ), Chain sp.memberMap n gi p cs → cs.length ≤ fuel →
      sp.chainLoop body fuel p s = cs.foldlM (fun s c => body s ((c.1 : Int), (c.2 : Int))) s := by
  intro cs
  induction cs with
  | nil =>
    intro p fuel s h _
    unfold Chain at h
    subst h
    unfold LocalSpace.chainLoop
    rfl
  | cons c cs ih =>
    intro p fuel s h hf
    obtain ⟨rfl, pr, hm, hch⟩ := h
    obtain ⟨fuel, rfl⟩ : ∃ f, fuel = f + 1 := ⟨fuel - 1, by simp at hf; omega⟩
    have hcell : sp.cell ((c.1 : Int), (c.2 : Int)) = .ok ⟨pr, some gi⟩ := by
      unfold LocalSpace.cell
      have hxi : ((c.1 : Int) * sp.subCount + c.2) = ((c.1 * n + c.2 : ℕ) : Int) := by rw [hsub]; push_cast; ring
      simp only [hxi, Int.toNat_natCast]
      rw [if_neg (by omega), hm]
    unfold LocalSpace.chainLoop
    rw [if_neg (by simp only; omega), List.foldlM_cons]
    simp only [hcell]
    cases body s ((c.1 : Int), (c.2 : Int)) with
    | error e => rfl
    | ok s' => exact ih pr fuel s' hch (by simp at hf; omega)

/-- A walk visits the members, newest first. -/
theorem Rep.walk {σ : Type} {ℓ n : ℕ} {sp : LocalSpace K} {abs : List AG} (R : Rep ds rows ℓ n sp abs)
    (hn : (n : Int) = ds.maxCol - ℓ + 1) (H : Holds ds rows) {j : ℕ} {g : Group K} {a : AG} (hg : sp.groups[j]? = some g)
    (ha : abs[j]? = some a) (body : σ → Int × Int → Res σ) (s : σ) :
    sp.walk g body s = a.mem.foldlM (fun s c => body s ((c.1 : Int), (c.2 : Int))) s := by
  have G := R.grp j g a hg ha
  refine Chain.loop R.sub body a.mem g.last _ s G.chain ?_
  have hnd : a.mem.Nodup := by
    have := R.nodup
    rw [List.nodup_flatMap] at this
    exact this.1 a (List.mem_of_getElem? ha)
  have hmap : (a.mem.map (fun c => c.1 * n + c.2)).Nodup := by
    refine List.Nodup.map_on ?_ hnd
    intro x hx y hy e
    exact gcell_inj ((R.mems a (List.mem_of_getElem? ha) x hx).start_lt H hn)
      ((R.mems a (List.mem_of_getElem? ha) y hy).start_lt H hn) e
  have hsub : (a.mem.map (fun c => c.1 * n + c.2)) ⊆ List.range sp.memberMap.length := by
    intro x hx
    obtain ⟨c, hc, rfl⟩ := List.mem_map.1 hx
    have hv := R.mems a (List.mem_of_getElem? ha) c hc
    rw [List.mem_range, R.size]
    exact cell_lt hv.lt (hv.start_lt H hn)
  have := (List.Nodup.subperm hmap hsub).length_le
  rw [List.length_map, List.length_range] at this
  omega

theorem foldlM_append_map {α β : Type} (f : α → Res β) (g : α → β) : ∀ (l : List α) (acc : List β),
    (∀ x ∈ l, f x = .ok (g x)) →
    l.foldlM (fun (s : List β) x => do let v ← f x; .ok (s ++ [v])) acc = .ok (acc ++ l.map g) := by
  intro l
  induction l with
  | nil => intro acc _; simp [pure, Except.pure]
  | cons x xs ih =>
    intro acc h
    rw [List.foldlM_cons, h x (by simp)]
    have := ih (acc ++ [g x]) (fun y hy => h y (by simp [hy]))
    simp only [bind, Except.bind] at this ⊢
    rw [this]
    simp

theorem Rep.member {ℓ n : ℕ} {sp : LocalSpace K} {abs : List AG} (R : Rep ds rows ℓ n sp abs) (hl : 1 ≤ ℓ)
    (H : Holds ds rows) {c : ℕ × ℕ} (hc : SubAt rows ℓ c) :
    sp.member ds ((c.1 : Int), (c.2 : Int)) = .ok (viewAt ds ℓ c) := by
  unfold LocalSpace.member
  rw [R.len]
  exact hc.getTimeSeries H hl

theorem Rep.getMembers {ℓ n : ℕ} {sp : LocalSpace K} {abs : List AG} (R : Rep ds rows ℓ n sp abs) (hl : 1 ≤ ℓ)
    (hn : (n : Int) = ds.maxCol - ℓ + 1) (H : Holds ds rows) {j : ℕ} {g : Group K} {a : AG} (hg : sp.groups[j]? = some g)
    (ha : abs[j]? = some a) : sp.getMembers ds g = .ok (a.mem.map (viewAt ds ℓ)) := by
  unfold LocalSpace.getMembers
  rw [R.walk hn H hg ha]
  have := foldlM_append_map (fun c : ℕ × ℕ => sp.member ds ((c.1 : Int), (c.2 : Int))) (viewAt ds ℓ) a.mem []
    (fun c hc => R.member hl H (R.mems a (List.mem_of_getElem? ha) c hc))
  simpa using this

theorem Rep.centroidPts {ℓ n : ℕ} {sp : LocalSpace K} {abs : List AG} (R : Rep ds rows ℓ n sp abs)
    (H : Holds ds rows) {j : ℕ} {g : Group K} {a : AG} (hg : sp.groups[j]? = some g)
    (ha : abs[j]? = some a) : g.centroidPts ds = .ok (ptsAt rows ℓ a.rep) := by
  unfold Group.centroidPts
  rw [(R.grp j g a hg ha).centroid]
  exact (R.reps a (List.mem_of_getElem? ha)).points H

end

end Genex
