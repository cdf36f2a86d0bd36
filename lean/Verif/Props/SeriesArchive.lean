import Verif.Lemmas.SeriesArchive
import Verif.Props.TimeSeriesObj

/-!
# C109: a single series in an archive
-/

namespace Genex.Props

open Genex Genex.Spec Genex.World

set_option linter.unusedSectionVars false

variable {K : Type} [Field K] [LinearOrder K]

/-! ## C109 -/

/-- C109, saving: the archive holds the values of the series, nothing else. -/
theorem C109_save (w : World K) (i : ℕ) (x : TsObj K) (hx : Object w i x) (xs : List (Dbl K)) (hv : Valued w x xs) :
    w.saveSeries i = .ok (xs.map Tok.dbl) := by
  unfold saveSeries
  simp only [obj_of hx, bind, Except.bind]
  rw [hv.1, Int.toNat_natCast, mapM_ok _ (fun k => Tok.dbl (xs.getD k .nan))]
  · congr 1
    refine List.ext_getElem (by simp) (fun k h1 h2 => ?_)
    simp only [List.length_map] at h2
    simp [List.getElem?_eq_getElem h2]
  · intro k hk
    rw [List.mem_range] at hk
    rw [valued_read hv (v := xs.getD k .nan) (by simp [List.getElem?_eq_getElem hk])]
    rfl

/-- C109: the values saved from a series, loaded into a series of the same length, are its values then; its other members, the other
objects and the arrays that it does not use are as before, and what follows in the archive is left.  Missing: envelopes kept by the
series loaded into, see `C109_kept_false`; series of other lengths, see `C109_shorter`, `C109_longer`. -/
theorem C109_partial (w : World K) (i j : ℕ) (x y : TsObj K) (hx : Object w i x) (hy : Object w j y) (xs ys : List (Dbl K))
    (hvx : Valued w x xs) (hvy : Valued w y ys) (hlen : y.length = x.length) (rest : List (Tok K)) :
    ∃ ts w', w.saveSeries i = .ok ts ∧ w.loadSeries j (ts ++ rest) = (w', .ok rest) ∧ Valued w' y xs ∧ w'.objs = w.objs ∧
      ∀ b cs, ¬ Uses y b → w.bufs[b]? = some (some cs) → w'.bufs[b]? = some (some cs) := by
  have hl : ys.length = xs.length := by have := hvx.1; have := hvy.1; omega
  obtain ⟨w', e, hv', ho, hk⟩ := loadLoop_spec 0 rest xs 0 ys w hvy (by omega)
  refine ⟨_, w', C109_save w i x hx xs hvx, ?_, ?_, ho, fun b cs hb h => hk b cs hb h⟩
  · unfold loadSeries
    simp only [obj_of hy]
    rw [hvy.1, Int.toNat_natCast, hl, List.range_eq_range']
    simpa [World.loadLoop] using e
  · simpa [List.drop_eq_nil_of_le hl.le] using hv'

/-- C109, a shorter series: it takes the first values, and no error is reported. -/
theorem C109_shorter (w : World K) (j : ℕ) (y : TsObj K) (hy : Object w j y) (xs ys : List (Dbl K)) (hvy : Valued w y ys)
    (hlen : ys.length ≤ xs.length) :
    ∃ w', w.loadSeries j (xs.map Tok.dbl) = (w', .ok ((xs.drop ys.length).map Tok.dbl)) ∧ Valued w' y (xs.take ys.length) := by
  obtain ⟨w', e, hv', -, -⟩ := loadLoop_spec 0 ((xs.drop ys.length).map Tok.dbl) (xs.take ys.length) 0 ys w hvy (by simp)
  have ht : (xs.take ys.length).length = ys.length := by simp [hlen]
  refine ⟨w', ?_, by simpa [ht, hlen] using hv'⟩
  unfold loadSeries
  simp only [obj_of hy]
  rw [hvy.1, Int.toNat_natCast, List.range_eq_range']
  rw [ht, ← List.map_append, List.take_append_drop] at e
  simpa [World.loadLoop] using e

/-- C109, a longer series: the archive ends before the series is full, and the values that were there have replaced the first ones. -/
theorem C109_longer (w : World K) (j : ℕ) (y : TsObj K) (hy : Object w j y) (xs ys : List (Dbl K)) (hvy : Valued w y ys)
    (hlen : xs.length < ys.length) :
    ∃ w', w.loadSeries j (xs.map Tok.dbl) = (w', .error (.std "archive_exception: input stream error")) ∧
      Valued w' y (xs ++ ys.drop xs.length) := by
  obtain ⟨w', e, hv', -, -⟩ := loadLoop_spec (ys.length - xs.length) [] xs 0 ys w hvy (by omega)
  refine ⟨w', ?_, by simpa using hv'⟩
  unfold loadSeries
  simp only [obj_of hy]
  rw [hvy.1, Int.toNat_natCast, List.range_eq_range', show ys.length = xs.length + (ys.length - xs.length) by omega]
  rw [List.append_nil] at e
  rw [e, show ys.length - xs.length = (ys.length - xs.length - 1) + 1 by omega, List.range'_succ]
  rfl

/-- C109 is false of envelopes: one that the series keeps is still returned for its band after other values have been loaded. -/
theorem C109_kept_false (w : World K) (j : ℕ) (y : TsObj K) (hy : Object w j y) (xs ys : List (Dbl K)) (hvy : Valued w y ys)
    (hlen : ys.length = xs.length) (b : Int) (lu : OutArr K × OutArr K) (h1 : y.cacheValid = true) (h2 : y.cacheBand = some b)
    (h3 : y.keogh = some lu) :
    ∃ w', w.loadSeries j (xs.map Tok.dbl) = (w', .ok []) ∧ Valued w' y xs ∧ w'.getKeogh j b = .ok (w', lu) := by
  obtain ⟨w', e, hv', ho, -⟩ := loadLoop_spec 0 [] xs 0 ys w hvy (by omega)
  refine ⟨w', ?_, by simpa [List.drop_eq_nil_of_le hlen.le] using hv', kept_getKeogh ((object_of_objs ho).2 hy) h1 h2 h3⟩
  unfold loadSeries
  simp only [obj_of hy]
  rw [hvy.1, Int.toNat_natCast, hlen, List.range_eq_range']
  simpa [World.loadLoop] using e

/-- Of the owning series `3 4`, `0 0`, `0`, `0 0 0` of `exOwners`. -/
theorem exOwners_zeros : Valued exOwners ⟨some ⟨1, 0⟩, true, 0, 0, 2, 2, false, none, none⟩ [0, 0] := by
  refine ⟨rfl, ⟨1, 0⟩, _, rfl, rfl, by simp, ?_⟩
  intro k x h
  match k, h with
  | 0, h => simpa using h
  | 1, h => simpa using h

theorem exOwners_short : Valued exOwners ⟨some ⟨2, 0⟩, true, 0, 0, 1, 1, false, none, none⟩ [0] := by
  refine ⟨rfl, ⟨2, 0⟩, _, rfl, rfl, by simp, ?_⟩
  intro k x h
  match k, h with
  | 0, h => simpa using h

theorem exOwners_long : Valued exOwners ⟨some ⟨3, 0⟩, true, 0, 0, 3, 3, false, none, none⟩ [0, 0, 0] := by
  refine ⟨rfl, ⟨3, 0⟩, _, rfl, rfl, by simp, ?_⟩
  intro k x h
  match k, h with
  | 0, h => simpa using h
  | 1, h => simpa using h
  | 2, h => simpa using h

/-- Into the same length, with more in the archive; into a part of a dataset; too short; too long. -/
example := C109_partial exOwners 0 1 _ _ rfl rfl _ _ exOwners_valued exOwners_zeros rfl [.int 7]
example := C109_partial exOwners 2 4 _ _ rfl rfl _ _ exOwners_short exOwners_view rfl []
example := C109_shorter exOwners 2 _ rfl [.fin 3, .fin 4] _ exOwners_short (by simp)
example := C109_longer exOwners 3 _ rfl [.fin 3, .fin 4] _ exOwners_long (by simp)

/-- The values of an object after loading from an archive. -/
def loadedInto (r : World ℚ × Res (List (Tok ℚ))) (j : ℕ) : Res (List (Dbl ℚ)) := do
  let o ← r.1.obj j
  r.1.points o

example : exOwners.saveSeries 4 = .ok [.dbl (.fin 4)] := by decide +kernel
example : loadedInto (exOwners.loadSeries 3 [.dbl (.fin 3), .dbl (.fin 4)]) 3 = .ok [.fin 3, .fin 4, .fin 0] := by decide +kernel

/-- C109 is false: the series `5 1`, loaded into a series that keeps the envelope of `1 2`, has that envelope. -/
theorem C109_false : (do
    let w ← history [.newOwned 2, .setAt 0 0 (.fin 1), .setAt 0 1 (.fin 2), .getKeogh 0 0]
    let r := w.loadSeries 0 [.dbl (.fin 5), .dbl (.fin 1)]
    let _ ← r.2
    let lu ← r.1.getKeogh 0 0
    let pts ← loadedInto r 0
    .ok (pts, [lu.2.1 0, lu.2.1 1], [lu.2.2 0, lu.2.2 1])) =
    .ok ([.fin 5, .fin 1], [some (.fin 1), some (.fin 2)], [some (.fin 1), some (.fin 2)]) := by
  decide +kernel

/-- A series that keeps an envelope. -/
example := C109_kept_false (⟨[some [some (.fin 1)]], [some ⟨some ⟨0, 0⟩, true, 0, 0, 1, 1, true, some (fun _ => some (.fin 1), fun _ => some (.fin 1)),
  some 0⟩]⟩ : World ℚ) 0 _ rfl [.fin 7] [.fin 1] ⟨rfl, ⟨0, 0⟩, _, rfl, rfl, by simp, by
    intro k x h
    match k, h with
    | 0, h => simpa using h⟩ rfl 0 _ rfl rfl rfl

end Genex.Props
