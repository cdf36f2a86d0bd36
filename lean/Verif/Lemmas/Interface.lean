import Verif.Lemmas.EndToEnd

set_option linter.unusedSectionVars false

namespace Genex.Registry

open Genex.Api

variable {K : Type} [Field K] [LinearOrder K] [HasSqrt K] [Arith K] [BandOps]

theorem withSet_ratio {s u : Api K} {name : String} {f : ℕ → GSet K → Api K × Reply K} {r : Reply K}
    (hf : ∀ id g, (f id g).1.ratio = s.ratio) (h : s.withSet name f = (u, r)) : u.ratio = s.ratio := by
  have h' : (s.withSet name f).1 = u := by rw [h]
  rw [← h']
  unfold withSet
  split
  · rfl
  split
  · rfl
  · exact hf _ _

theorem deleteAll_ratio {m : List (String × ℕ)} {s s' : Api K} (h : deleteAll m s = some s') : s'.ratio = s.ratio := by
  induction m generalizing s with
  | nil => cases h; rfl
  | cons e m ih =>
    simp only [deleteAll] at h
    obtain ⟨t, h1, h2⟩ := Option.bind_eq_some_iff.1 h
    unfold delete at h1
    obtain ⟨_, _, rfl⟩ := Option.map_eq_some_iff.1 h1
    exact (ih h2).trans rfl

theorem step_ratio {E : Env K} {s u : Api K} {c : AnyCall K} {r : Reply K} (h : Step E s c u r)
    (hc : ∀ z, c ≠ .call (.setRatio z)) : u.ratio = s.ratio := by
  cases c with
  | group name t d n w =>
    simp only [Step, GroupCall] at h
    split at h
    · rw [h.1]
    split at h
    · rw [h.1]
    · obtain ⟨_, _, _, h, _⟩ := h
      rw [h]; rfl
  | call c =>
    simp only [Step] at h
    have h' : (s.exec E c).1 = u := by rw [h]
    rw [← h']
    clear h h'
    cases c <;> simp only [exec] <;> try rfl
    case load =>
      split
      · rfl
      split <;> rfl
    case setRatio z => exact absurd rfl (hc z)
    case unloadAll =>
      split
      · rfl
      · rename_i h; exact (deleteAll_ratio h : _)
    case allInfo => split <;> rfl
    all_goals refine withSet_ratio (u := _) (r := _) ?_ rfl
    all_goals intro id g
    all_goals try rfl
    case unload =>
      split
      · rfl
      · rename_i h
        unfold delete at h
        obtain ⟨_, _, rfl⟩ := Option.map_eq_some_iff.1 h
        rfl
    case normalize => split <;> rfl
    case preparePAA =>
      split
      · split
        · rfl
        split <;> rfl
      split <;> rfl
    all_goals refine withSet_ratio (u := _) (r := _) ?_ rfl
    all_goals intro id g
    all_goals try rfl
    case kBestPAA =>
      split
      · rfl
      split
      · rfl
      split
      · rfl
      split
      · rfl
      split <;> rfl

theorem distance_exec {E : Env K} {s : Api K} {n1 n2 : String} {i1 a1 b1 i2 a2 b2 : Int} {x y : List K}
    (hx : Query E s n1 i1 a1 b1 x) (hy : Query E s n2 i2 a2 b2 y) (d : String) :
    s.exec E (.distance n1 i1 a1 b1 n2 i2 a2 b2 d) = (s, .ret (do
      let D ← getDistanceFromName d
      (Arith.eval s.ratio D (x.map .fin) (y.map .fin) .inf).map .dist)) := by
  obtain ⟨id, g, h1, h2, h3⟩ := query_points hx
  obtain ⟨id', g', h4, h5, h6⟩ := query_points hy
  simp only [exec]
  rw [withSet_some h1 h2, withSet_some h4 h5, h3, h6]
  rfl

theorem matching_exec {E : Env K} {s : Api K} {n1 n2 : String} {i1 a1 b1 i2 a2 b2 : Int} {x y : List K}
    (hx : Query E s n1 i1 a1 b1 x) (hy : Query E s n2 i2 a2 b2 y) (d : String) :
    s.exec E (.matching n1 i1 a1 b1 n2 i2 a2 b2 d) = (s, .ret (do
      let bad ← notDtw d
      if bad = true then .error (.genex "Can only compute matchings using _dtw distances")
      else do
        let D ← getDistanceFromName d
        (Arith.matching s.ratio D (x.map .fin) (y.map .fin)).map .matching)) := by
  obtain ⟨id, g, h1, h2, h3⟩ := query_points hx
  obtain ⟨id', g', h4, h5, h6⟩ := query_points hy
  simp only [exec]
  rw [withSet_some h1 h2, withSet_some h4 h5, h3, h6]
  rfl

end Genex.Registry
