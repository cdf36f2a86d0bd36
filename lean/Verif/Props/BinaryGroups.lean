import Verif.Lemmas.BinaryGroups
import Verif.Lemmas.RoundedSearch
import Verif.Props.BinaryUnits
import Verif.Props.UnitGroups

/-!
# C120: groups and the search among them in units that the rounding respects
-/

set_option linter.unusedSectionVars false

namespace Genex.Props

open Dbl Spec

section

variable {K : Type} [Field K] [LinearOrder K] [IsStrictOrderedRing K] [HasSqrt K]

theorem stretch_evals [Arith K] [BandOps] {rd : K → K} (hA : Rounds rd) {s : K} (h : Respects rd s) (ratio : ℚ) {m : Metric}
    (hm : m ≠ .sorensen ∧ m ≠ .cosine) (hs : m = .euclidean → LawfulSqrt K) {ref : DistRef} (href : ref = .pairwise m ∨ ref = warpedOf m)
    (a b : List (Dbl K)) (d : Dbl K) :
    Arith.eval ratio ref (a.map (inUnit s)) (b.map (inUnit s)) (inUnit s d) = (Arith.eval ratio ref a b d).map (inUnit s) := by
  rw [hA, hA]
  have := C120_distance rd s h ratio ref (by
    intro m' h'
    rcases href with rfl | rfl
    · rcases h' with h' | h' <;> cases h'
      exact hm
    · cases m <;> rcases h' with h' | h' <;> cases h' <;> exact hm) (by
    intro h'
    refine hs ?_
    rcases href with rfl | rfl
    · rcases h' with h' | h' | h' <;> cases h'
      rfl
    · cases m <;> rcases h' with h' | h' | h' <;> cases h' <;> rfl) a b d
  rw [stretch_inUnit] at this
  exact this

/-- C120: with rounding, grouping the numbers in the other unit with the threshold in that unit gives the same groups, with any numbers of
threads, and the search among them finds the same part at the distance in that unit, or ends in the same way. -/
theorem C120_groups [Arith K] [BandOps] (rd : K → K) (hA : Rounds rd) (s : K) (h : Respects rd s) (z z' : GSet K) (hz : z'.ds = stretched s z.ds)
    (h0 : 0 ≤ z.ds.maxCol) (m : Metric) (hm : m ≠ .sorensen ∧ m ≠ .cosine) (hs : m = .euclidean → LawfulSqrt K) (ratio : ℚ) (τ : Dbl K)
    (whole : Bool) (log log' : ℕ → Bool) (n n' : Int) (out out' : GSet K × Res Int)
    (ho : GSet.GroupAll ratio log (metricName m) τ whole n z out)
    (ho' : GSet.GroupAll ratio log' (metricName m) (stretch s τ) whole n' z' out') (N N' : Int) (hN : out.2 = .ok N) (hN' : out'.2 = .ok N') :
    N' = N ∧ (∃ gs, out.1.groups = some gs ∧ out'.1.groups = some { gs with threshold := some (stretch s τ) }) ∧
    ∀ (ratio' : ℚ) (q : List (Dbl K)),
      out'.1.getBestMatch ratio' (q.map (stretch s)) = (out.1.getBestMatch ratio' q).map fun r => ⟨r.view, stretch s r.dist⟩ := by
  haveI := rounded_evals hA
  rw [stretch_inUnit] at ho' ⊢
  obtain ⟨hg, hw, hv⟩ := group_stretch (ds := z.ds) h.1 (fun a b d => stretch_evals hA h ratio hm hs (.inl rfl) a b d) h0 τ log' whole GSpace.fresh
  rcases groupAll_cases ho with ⟨e, he⟩ | ⟨_, he, -⟩ | ⟨-, -, h2, h3⟩
  · rw [hN] at he; cases he
  · rw [hN] at he; cases he
  rcases groupAll_cases ho' with ⟨e, he⟩ | ⟨_, he, -⟩ | ⟨-, -, h2', h3'⟩
  · rw [hN'] at he; cases he
  · rw [hN'] at he; cases he
  rw [hz, hg] at h2' h3'
  rw [hN] at h2
  rw [hN'] at h2'
  simp only at h2' h3'
  have hc := group_clocks h2.symm h2'.symm
  rw [hc] at h2' h3' hw hv
  rw [← h2] at h2'
  have e1 := h3 N hN
  have e2 := h3' N' hN'
  refine ⟨by cases h2'; rfl, ⟨_, by rw [e1], by rw [e2]⟩, fun ratio' q => ?_⟩
  rw [e1, e2]
  simp only [GSet.getBestMatch, hz]
  exact best_stretch h.1 (fun a b d => stretch_evals hA h ratio' hm hs (.inr rfl) a b d) q _ hw hv _

theorem stretch_same [Arith K] [BandOps] {rd : K → K} (hA : Rounds rd) {s : K} (h : Respects rd s) (ratio : ℚ) {m : Metric}
    (hm : m = .sorensen ∨ m = .cosine) (hs : m = .cosine → LawfulSqrt K) {ref : DistRef} (href : ref = .pairwise m ∨ ref = warpedOf m)
    (a b : List (Dbl K)) (d : Dbl K) :
    Arith.eval ratio ref (a.map (inUnit s)) (b.map (inUnit s)) (inUnit 1 d) = (Arith.eval ratio ref a b d).map (inUnit 1) := by
  have e : (inUnit (1 : K) : Dbl K → Dbl K) = id := by funext x; cases x <;> simp [inUnit]
  have ide : ∀ r : Res (Dbl K), r.map id = r := fun r => by cases r <;> rfl
  rw [hA, hA, e, ide, ← stretch_inUnit]
  have hw : warpedOf m = .warped m := by rcases hm with rfl | rfl <;> rfl
  rw [hw] at href
  rcases href with rfl | rfl
  · exact (C120_ratio rd s h ratio m hm hs a b d).1
  · exact (C120_ratio rd s h ratio m hm hs a b d).2

/-- C120: with the Sorensen and cosine distances the groups are the same for the same threshold, and the searches among them find the same. -/
theorem C120_groups_ratio [Arith K] [BandOps] (rd : K → K) (hA : Rounds rd) (s : K) (h : Respects rd s) (z z' : GSet K)
    (hz : z'.ds = stretched s z.ds) (h0 : 0 ≤ z.ds.maxCol) (m : Metric) (hm : m = .sorensen ∨ m = .cosine) (hs : m = .cosine → LawfulSqrt K)
    (ratio : ℚ) (τ : Dbl K) (whole : Bool) (log log' : ℕ → Bool) (n n' : Int) (out out' : GSet K × Res Int)
    (ho : GSet.GroupAll ratio log (metricName m) τ whole n z out)
    (ho' : GSet.GroupAll ratio log' (metricName m) τ whole n' z' out') (N N' : Int) (hN : out.2 = .ok N) (hN' : out'.2 = .ok N') :
    N' = N ∧ out'.1.groups = out.1.groups ∧
    ∀ (ratio' : ℚ) (q : List (Dbl K)), out'.1.getBestMatch ratio' (q.map (stretch s)) = out.1.getBestMatch ratio' q ∧
      ∀ A B k l, out'.1.getKBestMatches A B ratio' (q.map (stretch s)) k l = out.1.getKBestMatches A B ratio' q k l := by
  haveI := rounded_evals hA
  have e : (inUnit (1 : K) : Dbl K → Dbl K) = id := by funext x; cases x <;> simp [inUnit]
  obtain ⟨hg, hw, hv⟩ := group_stretch (s := s) (u := 1) (ds := z.ds) one_pos (fun a b d => stretch_same hA h ratio hm hs (.inl rfl) a b d) h0 τ log' whole
    GSpace.fresh
  have ide : ∀ r : Res (Dbl K), r.map id = r := fun r => by cases r <;> rfl
  simp only [e, id] at hg
  rcases groupAll_cases ho with ⟨e, he⟩ | ⟨_, he, -⟩ | ⟨-, -, h2, h3⟩
  · rw [hN] at he; cases he
  · rw [hN] at he; cases he
  rcases groupAll_cases ho' with ⟨e, he⟩ | ⟨_, he, -⟩ | ⟨-, -, h2', h3'⟩
  · rw [hN'] at he; cases he
  · rw [hN'] at he; cases he
  rw [hz, hg] at h2' h3'
  rw [hN] at h2
  rw [hN'] at h2'
  simp only at h2' h3'
  have hc := group_clocks h2.symm h2'.symm
  rw [hc] at h2' h3' hw hv
  rw [← h2] at h2'
  have e1 := h3 N hN
  have e2 := h3' N' hN'
  have ht : (GSpace.group z.ds ratio log (metricName m) τ whole GSpace.fresh).1.threshold = some τ := by
    unfold GSpace.group
    simp only [prepare_ok h0]
    have : ∀ (f : ℕ → Option (LocalSpace K) × Res ℕ) (is : List ℕ) (gs : GSpace K), (GSpace.groupLoop f is gs).1.threshold = gs.threshold := by
      intro f is
      induction is with
      | nil => intro gs; rfl
      | cons i is ih =>
        intro gs
        simp only [GSpace.groupLoop]
        cases (f i).2 with
        | error e => rfl
        | ok n => exact ih _
    rw [this]
    rfl
  have hgs : { (GSpace.group z.ds ratio log (metricName m) τ whole GSpace.fresh).1 with threshold := some τ } =
      (GSpace.group z.ds ratio log (metricName m) τ whole GSpace.fresh).1 := by rw [← ht]
  rw [hgs] at e2
  refine ⟨by cases h2'; rfl, by rw [e1, e2], fun ratio' q => ?_⟩
  rw [e1, e2, stretch_inUnit]
  simp only [GSet.getBestMatch, GSet.getKBestMatches, hz]
  refine ⟨?_, fun A B k l => by
    rw [kBest_same (s := s) (ds := z.ds) (fun a b d => by
      have := stretch_same hA h ratio' hm hs (.inr rfl) a b d
      rw [e, ide] at this
      exact this) A B q _ hw hv]⟩
  have := best_stretch (s := s) (u := 1) (ds := z.ds) one_pos (fun a b d => stretch_same hA h ratio' hm hs (.inr rfl) a b d) q _ hw hv (some τ)
  rw [hgs] at this
  rw [this]
  cases GSpace.getBestMatch z.ds ratio' (GSpace.group z.ds ratio log (metricName m) τ whole GSpace.fresh).1 q with
  | error e => rfl
  | ok r => simp only [Except.map, e, id]

/-- C120: and so does the exhaustive search. -/
theorem C120_brute_ratio [Arith K] [BandOps] (rd : K → K) (hA : Rounds rd) (s : K) (h : Respects rd s) (ds : Dataset K) (m : Metric)
    (hm : m = .sorensen ∨ m = .cosine) (hs : m = .cosine → LawfulSqrt K) (A : Algos (Cand K)) (ratio : ℚ) (q : List (Dbl K)) (k : Int) :
    bruteForce A ratio (stretched s ds) (q.map (stretch s)) k (metricName m) = bruteForce A ratio ds q k (metricName m) := by
  rw [stretch_inUnit]
  refine brute_same (ref := .warped m) (fun a b d => ?_) A q k _ (lookup_warped m)
  have := (C120_ratio rd s h ratio m hm hs a b d).2
  rw [hA, hA, ← stretch_inUnit]
  exact this

end

local instance (priority := 2000) exThreeDigits : Arith ℚ := roundedArith (roundTo 3)

/-- The dataset of the examples, times four. -/
def exFourfold : GSet ℚ := ⟨stretched 4 exSet.ds, none⟩

/-- Grouped with threshold 10 by one thread, with three digits. -/
def exRoughGrouped : GSet ℚ × Res Int :=
  exSet.groupAllLengths (GSpace.group exSet.ds (1 / 10) (fun _ => false) "manhattan" (fin 10) false) (fun _ => (GSpace.fresh, .ok 0)) 1

/-- Grouped with threshold 40. -/
def exFourfoldGrouped : GSet ℚ × Res Int :=
  exFourfold.groupAllLengths (GSpace.group exFourfold.ds (1 / 10) (fun _ => false) "manhattan" (fin (4 * 10)) false) (fun _ => (GSpace.fresh, .ok 0)) 1

example := C120_groups (roundTo (K := ℚ) 3) (fun _ _ _ _ _ => rfl) 4 (by have := C120_binary (K := ℚ) 3 2; norm_num at this; exact this) exSet exFourfold rfl
  exSet_max .manhattan (by simp) (by simp) (1 / 10) (fin 10) false (fun _ => false) (fun _ => false) 1 1 exRoughGrouped exFourfoldGrouped
  ⟨(GSpace.fresh, .ok 0), fun h => absurd h (by decide), rfl⟩ ⟨(GSpace.fresh, .ok 0), fun h => absurd h (by decide), rfl⟩ 3 3 (by decide +kernel)
  (by decide +kernel)

/-- 5/6 needs more than three digits. -/
example : exRoughGrouped.1.getBestMatch (1 / 2) [fin 3, fin 2] = .ok ⟨⟨0, 0, 0, 3⟩, fin (7 / 8)⟩ ∧
    exFourfoldGrouped.1.getBestMatch (1 / 2) [fin 12, fin 8] = .ok ⟨⟨0, 0, 0, 3⟩, fin (7 / 2)⟩ := by decide +kernel

/-- Grouped by the Sorensen distance with threshold 1/2. -/
def exRatioGrouped (z : GSet ℚ) : GSet ℚ × Res Int :=
  z.groupAllLengths (GSpace.group z.ds (1 / 10) (fun _ => false) "sorensen" (fin (1 / 2)) false) (fun _ => (GSpace.fresh, .ok 0)) 1

example := C120_groups_ratio (roundTo (K := ℚ) 3) (fun _ _ _ _ _ => rfl) 4 (by have := C120_binary (K := ℚ) 3 2; norm_num at this; exact this) exSet exFourfold rfl
  exSet_max .sorensen (by simp) (by simp) (1 / 10) (fin (1 / 2)) false (fun _ => false) (fun _ => false) 1 1 (exRatioGrouped exSet) (exRatioGrouped exFourfold)
  ⟨(GSpace.fresh, .ok 0), fun h => absurd h (by decide), rfl⟩ ⟨(GSpace.fresh, .ok 0), fun h => absurd h (by decide), rfl⟩ 4 4 (by decide +kernel)
  (by decide +kernel)

example : (exRatioGrouped exSet).1.getBestMatch (1 / 2) [fin 3, fin 2] = .ok ⟨⟨0, 0, 1, 3⟩, fin (1 / 8)⟩ ∧
    (exRatioGrouped exFourfold).1.getBestMatch (1 / 2) [fin 12, fin 8] = .ok ⟨⟨0, 0, 1, 3⟩, fin (1 / 8)⟩ := by decide +kernel

end Genex.Props
