import Verif.Lemmas.UnitGroups
import Verif.Props.Units
import Verif.Props.Search

/-!
# C119: groups and the search among them in other units
-/

set_option linter.unusedSectionVars false

namespace Genex.Props

open Dbl Spec

section

variable {K : Type} [Field K] [LinearOrder K] [IsStrictOrderedRing K] [HasSqrt K]

/-- C119: numbers in another unit, grouped with the threshold in that unit, give the same groups: as many, with the same representatives
and members.  `n` and `n'` are the numbers of threads; the clocks `log` and `log'` may differ as well. -/
theorem C119_groups (z z' : GSet K) (rows rows' : List (List K)) (H : Holds z.ds (rows.map (·.map fin)))
    (H' : Holds z'.ds (rows'.map (·.map fin))) (hmax : z'.ds.maxCol = z.ds.maxCol) (h0 : 0 ≤ z.ds.maxCol) (s c : K) (hs0 : s ≠ 0)
    (h : ConvertedAll s c rows rows') (m : Metric) (hm : m ≠ .sorensen ∧ m ≠ .cosine) (hs : m = .euclidean → LawfulSqrt K) [BandOps] (ratio : ℚ)
    (τ : K) (whole : Bool) (log log' : ℕ → Bool) (n n' : Int) (out out' : GSet K × Res Int)
    (ho : GSet.GroupAll ratio log (metricName m) (fin τ) whole n z out)
    (ho' : GSet.GroupAll ratio log' (metricName m) (fin (|s| * τ)) whole n' z' out') (N N' : Int) (hN : out.2 = .ok N) (hN' : out'.2 = .ok N') :
    N' = N ∧ ∃ gs, out.1.groups = some gs ∧ out'.1.groups = some { gs with threshold := some (fin (|s| * τ)) } := by
  have T := h.twin H H' hmax
  have hg := group_units (ratio := ratio) T h0 hs0 hm hs (fin τ) log' whole GSpace.fresh
  rcases groupAll_cases ho with ⟨e, he⟩ | ⟨_, he, -⟩ | ⟨-, -, h2, h3⟩
  · rw [hN] at he; cases he
  · rw [hN] at he; cases he
  rcases groupAll_cases ho' with ⟨e, he⟩ | ⟨_, he, -⟩ | ⟨-, -, h2', h3'⟩
  · rw [hN'] at he; cases he
  · rw [hN'] at he; cases he
  rw [show fin (|s| * τ) = inUnit |s| (fin τ) from rfl, hg] at h2' h3'
  rw [hN] at h2
  rw [hN'] at h2'
  simp only at h2' h3'
  have hc := group_clocks h2.symm h2'.symm
  rw [hc] at h2' h3'
  rw [← h2] at h2'
  refine ⟨by cases h2'; rfl, _, by rw [h3 N hN], by rw [h3' N' hN']; rfl⟩

/-- C119: and the search among the groups finds the same part, at the same distance in that unit. -/
theorem C119_place (z z' : GSet K) (rows rows' : List (List K)) (H : Holds z.ds (rows.map (·.map fin)))
    (H' : Holds z'.ds (rows'.map (·.map fin))) (hmax : z'.ds.maxCol = z.ds.maxCol) (s c : K) (hs0 : s ≠ 0)
    (h : ConvertedAll s c rows rows') (m : Metric) (hm : m ≠ .sorensen ∧ m ≠ .cosine) (hs : m = .euclidean → LawfulSqrt K) [BandOps] (ratio : ℚ)
    (τ : K) (whole : Bool) (log log' : ℕ → Bool) (n n' : Int) (out out' : GSet K × Res Int)
    (ho : GSet.GroupAll ratio log (metricName m) (fin τ) whole n z out)
    (ho' : GSet.GroupAll ratio log' (metricName m) (fin (|s| * τ)) whole n' z' out') (N N' : Int) (hN : out.2 = .ok N) (hN' : out'.2 = .ok N')
    (hrow : ∃ r ∈ rows, 2 ≤ r.length) (ratio' : ℚ) (hr : 0 ≤ ratio') (q q' : List K) (hq : Converted s c q q') (h2 : 2 ≤ q.length) :
    (∀ v d, out.1.getBestMatch ratio' (q.map fin) = .ok ⟨v, d⟩ →
      ∃ x, d = fin x ∧ out'.1.getBestMatch ratio' (q'.map fin) = .ok ⟨v, fin (|s| * x)⟩) ∧
    ∀ e, out.1.getBestMatch ratio' (q.map fin) = .error e → out'.1.getBestMatch ratio' (q'.map fin) = .error e := by
  have T := h.twin H H' hmax
  have h3 : 2 ≤ z.ds.maxCol := by
    obtain ⟨r, hr, hl⟩ := hrow
    obtain ⟨i, hi⟩ := List.mem_iff_getElem?.1 hr
    have := H.fits i (r.map fin) (by simp [hi])
    simp at this
    omega
  have h0 : 0 ≤ z.ds.maxCol := by omega
  obtain ⟨-, gs, hg, hg'⟩ := C119_groups z z' rows rows' H H' hmax h0 s c hs0 h m hm hs ratio τ whole log log' n n' out out' ho ho' N N' hN hN'
  obtain ⟨m', gs', hname, -, hout, G, -⟩ := groupAll_success H h0 ho hN
  obtain rfl := metricName_inj hname
  have hds : out.1.ds = z.ds := by rw [hout]
  have hgs : gs' = gs := by
    rw [hout] at hg
    exact Option.some.inj hg
  subst hgs
  obtain ⟨_, _, -, -, hout', -⟩ := groupAll_success H' (by omega) ho' hN'
  have hds' : out'.1.ds = z'.ds := by rw [hout']
  have key := best_units T H hs0 hm hs hr q h2 G h3 (some (fin (|s| * τ)))
  unfold Converted at hq
  rw [← hq] at key
  have hR : Ready (rows.map (·.map fin)) (metricName m) (fin τ) whole out.1 := .grouped z H h0 ratio log n out ho N hN
  constructor
  · intro v d hv
    obtain ⟨ℓ, i, p, y, x, -, -, -, -, -, hx⟩ := C34_best_match out.1 rows ratio' hr m hm hs (fin τ) whole hR q ⟨v, d⟩ hv
    simp only at hx
    subst hx
    refine ⟨x, rfl, ?_⟩
    simp only [GSet.getBestMatch, hg, hg', hds, hds'] at hv ⊢
    rw [key, hv]
    rfl
  · intro e he
    simp only [GSet.getBestMatch, hg, hg', hds, hds'] at he ⊢
    rw [key, he]
    rfl

end

/-- The dataset `exSet` in a unit of a tenth, counted from one below. -/
def exTenfold : GSet ℚ := ⟨(Dataset.loadData exParse (some "a 71 21 31\nb 41 121\n".toList) [] 0 0 [' '] true Dataset.fresh).1, none⟩

theorem exTenfold_holds : Holds exTenfold.ds ([[71, 21, 31], [41, 121]].map (·.map fin)) := by
  obtain ⟨ds, e, H, -⟩ := load_holds exParse "a 71 21 31\nb 41 121\n".toList [] 0 0 [' '] true
    [[fin 71, fin 21, fin 31], [fin 41, fin 121]] (by decide +kernel) (by decide +kernel)
  have : exTenfold.ds = ds := congrArg Prod.fst e
  rw [this]; exact H

/-- Grouped with threshold 100 by one thread. -/
def exTenfoldGrouped : GSet ℚ × Res Int :=
  exTenfold.groupAllLengths (GSpace.group exTenfold.ds (1 / 10) (fun _ => false) "manhattan" (fin (|10| * 10)) false) (fun _ => (GSpace.fresh, .ok 0)) 1

theorem exTenfoldGrouped_run : GSet.GroupAll (1 / 10) (fun _ => false) "manhattan" (fin (|10| * 10)) false 1 exTenfold exTenfoldGrouped :=
  ⟨(GSpace.fresh, .ok 0), fun h => absurd h (by decide), rfl⟩

example := C119_groups exSet exTenfold [[7, 2, 3], [4, 12]] [[71, 21, 31], [41, 121]] exSet_holds exTenfold_holds (by decide +kernel) exSet_max 10 1
  (by norm_num) (by simp [ConvertedAll, Converted]; norm_num) .manhattan (by simp) (by simp) (1 / 10) 10 false (fun _ => false) (fun _ => false) 1 1 exGrouped
  exTenfoldGrouped exGrouped_run exTenfoldGrouped_run 3 3 exGrouped_ok (by decide +kernel)

example := C119_place exSet exTenfold [[7, 2, 3], [4, 12]] [[71, 21, 31], [41, 121]] exSet_holds exTenfold_holds (by decide +kernel) 10 1
  (by norm_num) (by simp [ConvertedAll, Converted]; norm_num) .manhattan (by simp) (by simp) (1 / 10) 10 false (fun _ => false) (fun _ => false) 1 1 exGrouped
  exTenfoldGrouped exGrouped_run exTenfoldGrouped_run 3 3 exGrouped_ok (by decide +kernel) ⟨[7, 2, 3], by simp, by simp⟩ (1 / 2) (by norm_num)
  [3, 2] [31, 21] (by simp [Converted]; norm_num) (by simp)

example : exGrouped.1.getBestMatch (1 / 2) [fin 3, fin 2] = .ok ⟨⟨0, 0, 0, 3⟩, fin (5 / 6)⟩ ∧
    exTenfoldGrouped.1.getBestMatch (1 / 2) [fin 31, fin 21] = .ok ⟨⟨0, 0, 0, 3⟩, fin (10 * (5 / 6))⟩ := by decide +kernel

end Genex.Props
