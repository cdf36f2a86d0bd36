import Verif.Model.Scratch

/-!
# Lemmas about `gNoMatching`
-/

set_option linter.unusedSectionVars false

namespace Genex

variable {K : Type} [Field K] [LinearOrder K] [HasSqrt K]

/-- The trace-back appends, whatever was in the vector before. -/
theorem traceLoop_append (nc : ℕ → ℕ → Dbl K) (fuel : ℕ) (c : ℕ × ℕ) (g acc : List (ℕ × ℕ)) :
    traceLoop nc fuel c (g ++ acc) = (traceLoop nc fuel c acc).map (g ++ ·) := by
  induction fuel generalizing c acc with
  | zero =>
    unfold traceLoop
    split
    · simp [Except.map]
    · split <;> rfl
  | succ n ih =>
    unfold traceLoop
    split
    · simp [Except.map]
    split
    · rfl
    · simp only [List.append_assoc]
      rw [ih]

/-- It appends at least one pair for each step to the first row and column. -/
theorem traceLoop_length (nc : ℕ → ℕ → Dbl K) (fuel : ℕ) (c : ℕ × ℕ) (acc out : List (ℕ × ℕ))
    (h : traceLoop nc fuel c acc = .ok out) : acc.length + max c.1 c.2 + 1 ≤ out.length := by
  induction fuel generalizing c acc with
  | zero =>
    unfold traceLoop at h
    split at h
    · rename_i hc
      cases h
      simp [hc]
    · split at h <;> cases h
  | succ n ih =>
    unfold traceLoop at h
    split at h
    · rename_i hc
      cases h
      simp [hc]
    split at h
    · cases h
    · have h1 := ih _ _ h
      have h2 : max c.1 c.2 ≤ max (backStep nc c).1 (backStep nc c).2 + 1 := by
        unfold backStep
        simp only
        split
        · simp only; omega
        split
        · simp only; omega
        split
        · simp only; omega
        split
        · simp only; omega
        split
        · simp only; omega
        · simp only; omega
      simp only [List.length_append, List.length_singleton] at h1
      omega

/-- `warpedDistance` appends its path to the vector and reverses the whole. -/
theorem warpedDistance_scratch (M : DM K) [BandOps] (ratio : ℚ) (a b : List (Dbl K)) (d : Dbl K) (g : List (ℕ × ℕ)) :
    warpedDistance M ratio a b d g =
      if a.length = 1 ∧ b.length = 1 then (warpedDistance M ratio a b d []).map (fun r => (r.1, g))
      else (warpedDistance M ratio a b d []).map (fun r => (r.1, r.2 ++ g.reverse)) := by
  unfold warpedDistance
  simp only
  split
  · rfl
  split
  · rfl
  split
  · rfl
  split
  · rfl
  split
  · rfl
  split
  · rfl
  · have := fun nc fuel c => traceLoop_append (K := K) nc fuel c g []
    simp only [List.append_nil] at this
    rw [this]
    generalize traceLoop (K := K) _ _ _ [] = x
    cases x with
    | error e => rfl
    | ok p => simp [Except.map]

theorem warpedDistance_path {M : DM K} [BandOps] {ratio : ℚ} {a b : List (Dbl K)} {d v : Dbl K} {p : List (ℕ × ℕ)}
    (h : warpedDistance M ratio a b d [] = .ok (v, p)) (hn : ¬ (a.length = 1 ∧ b.length = 1)) :
    max a.length b.length ≤ p.length := by
  unfold warpedDistance at h
  simp only at h
  rw [if_neg hn] at h
  split at h
  · cases h
  rename_i h0
  split at h
  · cases h
  split at h
  · cases h
  split at h
  · cases h
  split at h
  · cases h
  · split at h
    · cases h
    · rename_i mat hm
      cases h
      have := traceLoop_length _ _ _ _ _ hm
      simp at this ⊢
      omega

theorem cascade_scratch [BandOps] (ratio : ℚ) (a b : List (Dbl K)) (d : Dbl K) (g : List (ℕ × ℕ)) :
    (cascadeDistance ratio a b d g).map Prod.fst = (cascadeDistance ratio a b d []).map Prod.fst := by
  unfold cascadeDistance
  split
  · rfl
  split
  · rfl
  split
  · rfl
  · rw [warpedDistance_scratch]
    split
    · cases warpedDistance (euclidean K) ratio a b d [] <;> rfl
    · cases warpedDistance (euclidean K) ratio a b d [] <;> rfl

theorem call_value [BandOps] (ratio : ℚ) (ref : DistRef) (a b : List (Dbl K)) (d : Dbl K) (g : List (ℕ × ℕ)) :
    (ref.call ratio a b d g).map Prod.fst = ref.eval ratio a b d := by
  cases ref with
  | pairwise m =>
    simp only [DistRef.call, DistRef.eval]
    cases pairwiseDistance (m.dm K) a b d <;> rfl
  | warped m =>
    simp only [DistRef.call, DistRef.eval, warpedValue]
    rw [warpedDistance_scratch]
    split
    · cases warpedDistance (m.dm K) ratio a b d [] <;> rfl
    · cases warpedDistance (m.dm K) ratio a b d [] <;> rfl
  | cascade =>
    simp only [DistRef.call, DistRef.eval, cascadeValue]
    exact cascade_scratch ratio a b d g

end Genex
