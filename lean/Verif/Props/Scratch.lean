import Verif.Lemmas.Scratch

/-!
# C65: a distance depends on its arguments only and leaves nothing behind
-/

set_option linter.unusedSectionVars false

namespace Genex.Props

open Dbl

section

variable {K : Type} [Field K] [LinearOrder K] [HasSqrt K]

/-- C65: the value does not depend on what earlier calls left in `gNoMatching`, and is the value used in the other properties. -/
theorem C65_value [BandOps] (ratio : ℚ) (ref : DistRef) (a b : List (Dbl K)) (d : Dbl K) (g : List (ℕ × ℕ)) :
    (ref.call ratio a b d g).map Prod.fst = ref.eval ratio a b d := call_value ratio ref a b d g

/-- C65: the same for any number of calls. -/
theorem C65_values [BandOps] (ratio : ℚ) (cs : List (DistRef × List (Dbl K) × List (Dbl K) × Dbl K)) (g : List (ℕ × ℕ)) :
    (calls ratio cs g).map Prod.fst = cs.mapM (fun c => c.1.eval ratio c.2.1 c.2.2.1 c.2.2.2) := by
  induction cs generalizing g with
  | nil => rfl
  | cons c cs ih =>
    rw [List.mapM_cons, ← C65_value ratio c.1 c.2.1 c.2.2.1 c.2.2.2 g]
    simp only [calls, bind, Except.bind]
    cases c.1.call ratio c.2.1 c.2.2.1 c.2.2.2 g with
    | error e => rfl
    | ok r =>
      simp only [Except.map]
      rw [← ih r.2]
      cases calls ratio cs r.2 <;> rfl

/-- C65, part: `gNoMatching` is as before after a call of a pairwise distance, and after any call on two single points.  Missing:
dynamic time warping of longer series (`C65_grows_false`). -/
theorem C65_kept_partial [BandOps] (ratio : ℚ) (ref : DistRef) (a b : List (Dbl K)) (d v : Dbl K) (g g' : List (ℕ × ℕ))
    (h : ref.call ratio a b d g = .ok (v, g')) (hp : (∃ m, ref = .pairwise m) ∨ (a.length = 1 ∧ b.length = 1)) : g' = g := by
  cases ref with
  | pairwise m =>
    simp only [DistRef.call] at h
    cases hq : pairwiseDistance (m.dm K) a b d with
    | error e => rw [hq] at h; cases h
    | ok x => rw [hq] at h; cases h; rfl
  | warped m =>
    have hp : a.length = 1 ∧ b.length = 1 := hp.resolve_left (by rintro ⟨m, hm⟩; cases hm)
    simp only [DistRef.call] at h
    rw [warpedDistance_scratch, if_pos hp] at h
    cases hq : warpedDistance (m.dm K) ratio a b d [] with
    | error e => rw [hq] at h; cases h
    | ok x => rw [hq] at h; cases h; rfl
  | cascade =>
    have hp : a.length = 1 ∧ b.length = 1 := hp.resolve_left (by rintro ⟨m, hm⟩; cases hm)
    simp only [DistRef.call, cascadeDistance] at h
    split at h
    · cases h; rfl
    split at h
    · cases h
    split at h
    · cases h; rfl
    rw [warpedDistance_scratch, if_pos hp] at h
    cases hq : warpedDistance (euclidean K) ratio a b d [] with
    | error e => rw [hq] at h; cases h
    | ok x => rw [hq] at h; cases h; rfl

/-- C65 is false: every computation of a dynamic time warping distance, of series that are not both single points, puts at least as
many pairs into `gNoMatching` as the longer series has points, and takes none away. -/
theorem C65_grows_false [BandOps] (ratio : ℚ) (m : Metric) (a b : List (Dbl K)) (d v : Dbl K) (g g' : List (ℕ × ℕ))
    (h : (DistRef.warped m).call ratio a b d g = .ok (v, g')) (hn : ¬ (a.length = 1 ∧ b.length = 1)) :
    ∃ p, g' = p ++ g.reverse ∧ max a.length b.length ≤ p.length := by
  simp only [DistRef.call] at h
  rw [warpedDistance_scratch, if_neg hn] at h
  cases hq : warpedDistance (m.dm K) ratio a b d [] with
  | error e => rw [hq] at h; cases h
  | ok x =>
    rw [hq] at h
    cases h
    exact ⟨x.2, rfl, warpedDistance_path (v := x.1) (p := x.2) hq hn⟩

/-- C65 is false: the memory that `gNoMatching` takes has no bound over a series of equal calls. -/
theorem C65_unbounded_false [BandOps] (ratio : ℚ) (m : Metric) (a b : List (Dbl K)) (d v : Dbl K)
    (h : (DistRef.warped m).eval ratio a b d = .ok v) (hn : ¬ (a.length = 1 ∧ b.length = 1)) (n : ℕ) (g : List (ℕ × ℕ)) :
    ∃ vs g', calls ratio (List.replicate n (.warped m, a, b, d)) g = .ok (vs, g') ∧
      g.length + n * max a.length b.length ≤ g'.length := by
  induction n generalizing g with
  | zero => exact ⟨[], g, rfl, by simp⟩
  | succ n ih =>
    have h1 := C65_value (K := K) ratio (.warped m) a b d g
    rw [h] at h1
    cases hc : (DistRef.warped m).call ratio a b d g with
    | error e => rw [hc] at h1; cases h1
    | ok r =>
      obtain ⟨p, hp, hl⟩ := C65_grows_false ratio m a b d r.1 g r.2 hc hn
      obtain ⟨vs, g', hg, hlen⟩ := ih r.2
      refine ⟨r.1 :: vs, g', ?_, ?_⟩
      · rw [List.replicate_succ]
        simp only [calls, bind, Except.bind, hc]
        rw [hg]
      · rw [hp] at hlen
        simp only [List.length_append, List.length_reverse] at hlen
        rw [Nat.succ_mul]
        omega

end

example : (DistRef.warped .manhattan).call (1 / 2) [fin 1, fin 2] [fin 1, fin (3 : ℚ)] .inf gNoMatching =
    .ok (fin (1 / 4), [(0, 0), (1, 1), (0, 0)]) := by decide +kernel
example := C65_kept_partial (1 / 2) (.pairwise .manhattan) [fin 1, fin 2] [fin 1, fin (3 : ℚ)] .inf (fin (1 / 2)) gNoMatching
  gNoMatching (by decide +kernel) (.inl ⟨_, rfl⟩)
example := C65_unbounded_false (1 / 2) .manhattan [fin 1, fin 2] [fin 1, fin (3 : ℚ)] .inf (fin (1 / 4)) (by decide +kernel)
  (by decide) 1000000 gNoMatching

end Genex.Props
