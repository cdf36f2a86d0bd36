import Verif.Model.Machine
import Verif.Spec.Machine
import Verif.Lemmas.GroupDist

/-! Within the sizes `int` can count, the checked functions are the unchecked ones. -/

set_option linter.unusedSectionVars false

namespace Genex

open Spec Dbl Props

theorem int32_ok {z : Int} (h : -2 ^ 31 ≤ z) (h' : z < 2 ^ 31) : int32 z = .ok z := if_pos ⟨h, h'⟩

theorem int32_bind {α : Type} {z : Int} (f : Int → Res α) (h : -2 ^ 31 ≤ z) (h' : z < 2 ^ 31) : (int32 z >>= f) = f z := by
  rw [int32_ok h h']; rfl

theorem cast_lt_int {x : ℕ} (h : x < 2 ^ 31) : (x : Int) < 2 ^ 31 := by omega

theorem int32_over {z : Int} (h : 2 ^ 31 ≤ z) : int32 z = .error (.ub "int overflow") :=
  if_neg (fun h' => absurd h'.2 (not_lt.2 h))

theorem mapM_congr {α β : Type} {f g : α → Res β} : ∀ {l : List α}, (∀ x ∈ l, f x = g x) → l.mapM f = l.mapM g
  | [], _ => rfl
  | x :: xs, h => by
    rw [List.mapM_cons, List.mapM_cons, h x (by simp), mapM_congr (fun y hy => h y (by simp [hy]))]

section

variable {K : Type} [Field K]

/-! ### Loading -/

theorem loadCellI_eq {raw startCol : ℕ} {hasName : Bool} {n row col : ℕ} (hs : startCol < 2 ^ 31) (hraw : raw < 2 ^ 31)
    (ha : n * raw < 2 ^ 31) (hr : row < n) (hc : col < raw) (hsc : startCol ≤ col)
    (hv : ¬ ((col : Int) = startCol ∧ hasName = true)) :
    Dataset.cellI raw startCol hasName row col =
      .ok (row * ((raw : Int) - startCol - b2i hasName) + (col - startCol - b2i hasName)) := by
  have hb : b2i hasName = 0 ∨ b2i hasName = 1 := by unfold b2i; cases hasName <;> simp
  have hcol : (startCol : Int) + b2i hasName ≤ col := by
    unfold b2i
    cases hasName
    · simp; omega
    · simp only [and_true] at hv; simp; omega
  obtain ⟨w, hw⟩ : ∃ w : ℕ, (w : Int) = (raw : Int) - startCol - b2i hasName := ⟨((raw : Int) - startCol - b2i hasName).toNat, by omega⟩
  obtain ⟨x, hx⟩ : ∃ x : ℕ, (x : Int) = (col : Int) - startCol - b2i hasName := ⟨((col : Int) - startCol - b2i hasName).toNat, by omega⟩
  have h1 : row * w + x < n * raw := by
    have h2 : (row + 1) * w ≤ n * raw := Nat.mul_le_mul hr (by omega)
    rw [Nat.add_mul] at h2
    omega
  have h3 : ((row * w + x : ℕ) : Int) < 2 ^ 31 := by
    exact cast_lt_int (h1.trans ha)
  push_cast at h3
  have h4 : (0 : Int) ≤ row * w := by positivity
  unfold Dataset.cellI
  rw [int32_ok (z := (raw : Int) - startCol) (by omega) (by omega)]
  simp only [bind, Except.bind]
  rw [int32_ok (by omega) (by omega)]
  simp only [← hw]
  rw [int32_ok (z := (row : Int) * w) (by omega) (by omega)]
  simp only
  rw [int32_ok (z := (col : Int) - startCol) (by omega) (by omega)]
  simp only
  rw [int32_ok (by omega) (by omega)]
  simp only [← hx]
  exact int32_ok (by omega) (by omega)

theorem loadToksI_eq (parse : Text → Parsed K) {raw startCol : ℕ} {hasName : Bool} {n row : ℕ} (hs : startCol < 2 ^ 31)
    (hraw : raw < 2 ^ 31) (ha : n * raw < 2 ^ 31) (hr : row < n) : ∀ (ts : List Text) (col : ℕ) (ds : Dataset K),
    col + ts.length ≤ raw →
    Dataset.loadToksI parse raw startCol hasName row ts col ds = Dataset.loadToks parse raw startCol hasName row ts col ds := by
  intro ts
  induction ts with
  | nil => intro col ds _; rfl
  | cons t ts ih =>
    intro col ds h
    simp only [List.length_cons] at h
    unfold Dataset.loadToksI Dataset.loadToks
    by_cases h1 : (startCol : Int) ≤ col
    · rw [if_pos h1, if_pos h1]
      by_cases h2 : (col : Int) = startCol ∧ hasName = true
      · rw [if_pos h2, if_pos h2]
        exact ih _ _ (by omega)
      · rw [if_neg h2, if_neg h2, loadCellI_eq hs hraw ha hr (by omega) (by omega) h2]
        simp only
        cases parse t with
        | invalid => rfl
        | range => rfl
        | val x =>
          simp only
          cases Dataset.write ds (row * ((raw : Int) - startCol - b2i hasName) + (col - startCol - b2i hasName)) x with
          | error e => rfl
          | ok ds' => exact ih _ _ (by omega)
    · rw [if_neg h1, if_neg h1]
      exact ih _ _ (by omega)

theorem loadRowsI_eq (parse : Text → Parsed K) (sep : List Char) {raw startCol : ℕ} {hasName : Bool} {n : ℕ} (hs : startCol < 2 ^ 31)
    (hraw : raw < 2 ^ 31) (ha : n * raw < 2 ^ 31) : ∀ (ls : List Text) (row : ℕ) (ds : Dataset K), row + ls.length ≤ n →
    (∀ l ∈ ls, (tokens sep l).length ≤ raw) →
    Dataset.loadRowsI parse sep raw startCol hasName ls row ds = Dataset.loadRows parse sep raw startCol hasName ls row ds := by
  intro ls
  induction ls with
  | nil => intro row ds _ _; rfl
  | cons l ls ih =>
    intro row ds h hl
    simp only [List.length_cons] at h
    unfold Dataset.loadRowsI Dataset.loadRows
    simp only [loadToksI_eq parse hs hraw ha (show row < n by omega) (tokens sep l) 0 _ (by have := hl l (by simp); omega)]
    rcases Dataset.loadToks parse raw startCol hasName row (tokens sep l) 0
      { ds with lengths := ds.lengths ++ [((tokens sep l).length : Int) - startCol - b2i hasName] } with ⟨d, e | e⟩
    · rfl
    · exact ih _ _ (by omega) (fun l' h' => hl l' (by simp [h']))

theorem le_foldl_max {α : Type} (f : α → ℕ) : ∀ (l : List α) (m : ℕ),
    m ≤ l.foldl (fun m x => max m (f x)) m ∧ ∀ x ∈ l, f x ≤ l.foldl (fun m x => max m (f x)) m := by
  intro l
  induction l with
  | nil => intro m; simp
  | cons y ys ih =>
    intro m
    simp only [List.foldl_cons, List.mem_cons, forall_eq_or_imp]
    obtain ⟨h1, h2⟩ := ih (max m (f y))
    exact ⟨by omega, by omega, h2⟩

theorem sizesI_eq {sep : List Char} {lines : List Text} {maxNumRow : Int} (h1 : lines.length < 2 ^ 31)
    (h2 : Dataset.maxColumns sep lines < 2 ^ 31)
    (h3 : (if maxNumRow ≤ 0 then lines.length else min maxNumRow.toNat lines.length) * Dataset.maxColumns sep lines < 2 ^ 31) :
    Dataset.sizesI sep lines maxNumRow =
      .ok (if maxNumRow ≤ 0 then lines.length else min maxNumRow.toNat lines.length, Dataset.maxColumns sep lines) := by
  unfold Dataset.sizesI
  rw [int32_bind _ (by omega) (by omega), int32_bind _ (by omega) (by omega)]
  exact int32_bind _ (by omega) (cast_lt_int h3)

theorem loadDataI_eq (parse : Text → Parsed K) (file : Option Text) (path : Text) (maxNumRow : Int) (startCol : ℕ) (sep : List Char)
    (hasName : Bool) (ds : Dataset K) (hs : startCol < 2 ^ 31)
    (hf : ∀ content, file = some content → (fileLines content).length < 2 ^ 31 ∧ Dataset.maxColumns sep (fileLines content) < 2 ^ 31 ∧
      (if maxNumRow ≤ 0 then (fileLines content).length else min maxNumRow.toNat (fileLines content).length) *
        Dataset.maxColumns sep (fileLines content) < 2 ^ 31) :
    Dataset.loadDataI parse file path maxNumRow startCol sep hasName ds = Dataset.loadData parse file path maxNumRow startCol sep hasName ds := by
  cases file with
  | none => rfl
  | some content =>
    obtain ⟨h1, h2, h3⟩ := hf content rfl
    change Dataset.loadContentI parse content path maxNumRow startCol sep hasName ds.clearData = _
    unfold Dataset.loadContentI Dataset.loadData
    rw [sizesI_eq h1 h2 h3]
    simp only
    have hraw := (le_foldl_max (fun l => (tokens sep l).length) (fileLines content) 0).2
    change ∀ l ∈ fileLines content, (tokens sep l).length ≤ Dataset.maxColumns sep (fileLines content) at hraw
    generalize Dataset.maxColumns sep (fileLines content) = raw at h2 h3 hraw ⊢
    have hnle : (if maxNumRow ≤ 0 then (fileLines content).length else min maxNumRow.toNat (fileLines content).length) ≤
      (fileLines content).length := by split <;> omega
    generalize (if maxNumRow ≤ 0 then (fileLines content).length else min maxNumRow.toNat (fileLines content).length) = n
      at h3 hnle ⊢
    rw [loadRowsI_eq (n := n) parse sep hs h2 h3 _ 0 _ (by rw [List.length_take]; omega) (by
      intro l hl'
      exact hraw l (List.mem_of_mem_take hl'))]
    have hmc : Dataset.maxColI raw startCol hasName = .ok ((raw : Int) - startCol - b2i hasName) := by
      have hb : b2i hasName = 0 ∨ b2i hasName = 1 := by unfold b2i; cases hasName <;> simp
      unfold Dataset.maxColI
      rw [int32_bind _ (by omega) (by omega), int32_ok (by omega) (by omega)]
    rw [hmc]
    rcases Dataset.loadRows parse sep raw startCol hasName (List.take n (fileLines content)) 0
      { ds.clearData with itemCount := 0, data := some (List.replicate (n * raw) 0) } with ⟨d, e | e⟩ <;> rfl

/-! ### Access -/

variable {ds : Dataset K} {rows : List (List (Dbl K))}

theorem Spec.Fits32.base (hI : Fits32 ds) {i : Int} (h : 0 ≤ i) (h' : i < ds.itemCount) :
    0 ≤ i * ds.maxCol ∧ i * ds.maxCol + ds.maxCol < 2 ^ 31 := by
  have h1 := hI.nonneg
  have h2 : (i + 1) * ds.maxCol ≤ ds.itemCount * ds.maxCol := Int.mul_le_mul_of_nonneg_right (by omega) h1
  have h3 := hI.area
  have h4 : 0 ≤ i * ds.maxCol := Int.mul_nonneg h h1
  rw [Int.add_mul] at h2
  omega

theorem getTimeSeriesI_eq (H : Holds ds rows) (hI : Fits32 ds) (index start stop : Int) :
    ds.getTimeSeriesI index start stop = ds.getTimeSeries index start stop := by
  unfold Dataset.getTimeSeriesI Dataset.getTimeSeries
  by_cases h1 : index < 0 ∨ (ds.itemCount : Int) ≤ index
  · rw [if_pos h1, if_pos h1]
  · rw [if_neg h1, if_neg h1]
    push Not at h1
    obtain ⟨b1, b2⟩ := hI.base h1.1 h1.2
    have h0 := hI.nonneg
    by_cases h2 : start < 0 ∧ stop < 0
    · rw [if_pos h2, if_pos h2, int32_ok (by omega) (by omega)]
      rfl
    · rw [if_neg h2, if_neg h2]
      obtain ⟨i, rfl⟩ := Int.eq_ofNat_of_zero_le h1.1
      have hlt : i < rows.length := by rw [← H.count]; omega
      have hr : rows[i]? = some rows[i] := List.getElem?_eq_getElem hlt
      have hfit := H.fits i _ hr
      have hc := hI.cols
      rw [H.getItemLength hr]
      simp only [bind, Except.bind]
      by_cases h3 : start < 0 ∨ stop ≤ start ∨ (rows[i].length : Int) < stop
      · rw [if_pos h3, if_pos h3]
      · rw [if_neg h3, if_neg h3]
        push Not at h3
        rw [int32_ok (by omega) (by omega)]
        simp only
        rw [int32_ok (by omega) (by omega)]

theorem pointAtI_eq {v : View} (h : 0 ≤ v.start) (h' : v.stop < 2 ^ 31) (i : Int) : ds.pointAtI v i = ds.pointAt v i := by
  unfold Dataset.pointAtI Dataset.pointAt
  by_cases h1 : i < 0 ∨ v.length ≤ i
  · rw [if_pos h1, if_pos h1]
  · rw [if_neg h1, if_neg h1]
    push Not at h1
    unfold View.length at h1
    rw [int32_ok (by omega) (by omega)]
    simp only [bind, Except.bind, add_assoc]

theorem pointsI_eq {v : View} (h : 0 ≤ v.start) (h' : v.stop < 2 ^ 31) : ds.pointsI v = ds.points v :=
  mapM_congr (fun i _ => pointAtI_eq h h' i)

theorem addressI_eq (H : Holds ds rows) (hI : Fits32 ds) {i : ℕ} {r : List (Dbl K)} (hr : rows[i]? = some r) {j : ℕ}
    (hj : j < r.length) : ds.addressI i j = .ok ((i : Int) * ds.maxCol + j) := by
  have hlt : i < rows.length := (List.getElem?_eq_some_iff.1 hr).1
  obtain ⟨b1, b2⟩ := hI.base (i := i) (by omega) (by rw [H.count]; omega)
  have hfit := H.fits i _ hr
  unfold Dataset.addressI
  rw [int32_ok (by omega) (by omega)]
  simp only [bind, Except.bind]
  exact int32_ok (by omega) (by omega)

theorem saveDataI_eq (H : Holds ds rows) (hI : Fits32 ds) (print : Dbl K → Text) (sep : Char) :
    ds.saveDataI print sep = ds.saveData print sep := by
  unfold Dataset.saveDataI Dataset.saveData
  rw [mapM_congr (g := ds.saveRow print sep)]
  intro i hi
  rw [List.mem_range, H.count] at hi
  have hr : rows[i]? = some rows[i] := List.getElem?_eq_getElem hi
  unfold Dataset.saveRowI Dataset.saveRow
  rw [H.getItemLength hr]
  have : (List.range (rows[i].length : Int).toNat).mapM (fun (j : ℕ) => do let a ← ds.addressI i j; ds.read a) =
      (List.range (rows[i].length : Int).toNat).mapM (fun (j : ℕ) => ds.read ((i : Int) * ds.maxCol + j)) := by
    refine mapM_congr (fun j hj => ?_)
    rw [List.mem_range, Int.toNat_natCast] at hj
    rw [addressI_eq H hI hr hj]
    rfl
  simp only [bind, Except.bind] at this ⊢
  simp only [this]
  rfl

theorem mapM_ok_map {α β : Type} (f : α → Res β) (g : α → β) : ∀ {l : List α}, (∀ x ∈ l, f x = .ok (g x)) →
    l.mapM f = .ok (l.map g)
  | [], _ => rfl
  | x :: xs, h => by
    rw [List.mapM_cons, h x (by simp), mapM_ok_map f g (fun y hy => h y (by simp [hy]))]
    rfl

theorem cellsI_eq [LinearOrder K] (H : Holds ds rows) (hI : Fits32 ds) : ds.cellsI = ds.cells := by
  unfold Dataset.cellsI Dataset.cells
  congr 1
  refine mapM_congr (fun i hi => ?_)
  rw [List.mem_range] at hi
  obtain ⟨b1, b2⟩ := hI.base (i := i) (by omega) (by omega)
  have h0 := hI.nonneg
  rw [H.count] at hi
  have hr : rows[i]? = some rows[i] := List.getElem?_eq_getElem hi
  have hfit := H.fits i _ hr
  rw [H.getItemLength hr]
  simp only [bind, Except.bind]
  rw [if_neg (by omega), if_neg (by omega)]
  refine mapM_ok_map _ _ (fun j hj => ?_)
  rw [List.mem_range, Int.toNat_natCast] at hj
  rw [int32_ok (by omega) (by omega)]
  simp only
  rw [Int.emod_eq_of_lt (by omega) (by omega)]

end

section

variable {K : Type} [Field K] [LinearOrder K] [HasSqrt K] {ds : Dataset K} {rows : List (List (Dbl K))}

/-! ### Groups -/

theorem newI_eq (H : Holds ds rows) (hI : Fits32 ds) {ℓ n : ℕ} (hn : (n : Int) = ds.maxCol - ℓ + 1)
    (hT : rows.length * n < 2 ^ 31) : LocalSpace.newI ds (ℓ : Int) = LocalSpace.new ds (ℓ : Int) := by
  have h1 := hI.cols
  have h0 := hI.nonneg
  unfold LocalSpace.newI LocalSpace.new
  rw [int32_ok (by omega) (by omega)]
  simp only [bind, Except.bind]
  rw [int32_ok (by omega) (by omega)]
  simp only
  rw [← hn, H.count]
  have : ((rows.length : Int) * (n : Int)) = ((rows.length * n : ℕ) : Int) := by push_cast; ring
  rw [this, int32_ok (by omega) (cast_lt_int hT)]

theorem SubAt.viewAt_bounds (H : Holds ds rows) (hI : Fits32 ds) {ℓ : ℕ} {c : ℕ × ℕ} (hc : SubAt rows ℓ c) :
    0 ≤ (viewAt ds ℓ c).start ∧ (viewAt ds ℓ c).stop < 2 ^ 31 := by
  obtain ⟨r, hr, hle⟩ := hc
  have := H.fits _ _ hr
  have := hI.cols
  simp only [viewAt, viewOf]
  omega

variable {ℓ n : ℕ} {sp : LocalSpace K} {abs : List AG}

theorem memberI_eq (H : Holds ds rows) (hI : Fits32 ds) (R : Rep ds rows ℓ n sp abs) {c : ℕ × ℕ} (hc : SubAt rows ℓ c) :
    sp.memberI ds ((c.1 : Int), (c.2 : Int)) = sp.member ds ((c.1 : Int), (c.2 : Int)) := by
  obtain ⟨r, hr, hle⟩ := hc
  have := H.fits _ _ hr
  have := hI.cols
  unfold LocalSpace.memberI LocalSpace.member
  rw [R.len, int32_ok (by simp only; omega) (by simp only; omega)]
  exact getTimeSeriesI_eq H hI _ _ _

theorem indexI_eq (H : Holds ds rows) (hn : (n : Int) = ds.maxCol - ℓ + 1) (hT : rows.length * n < 2 ^ 31)
    (R : Rep ds rows ℓ n sp abs) {c : ℕ × ℕ} (hc : SubAt rows ℓ c) :
    sp.indexI ((c.1 : Int), (c.2 : Int)) = .ok ((c.1 : Int) * sp.subCount + c.2) := by
  have h1 : c.1 * n + c.2 < rows.length * n := cell_lt hc.lt (hc.start_lt H hn)
  have h2 : ((c.1 : Int) * sp.subCount) = ((c.1 * n : ℕ) : Int) := by rw [R.sub]; push_cast; ring
  unfold LocalSpace.indexI
  simp only [h2]
  rw [int32_bind _ (by omega) (by omega), int32_ok (by omega) (by omega)]

theorem cellI_eq (H : Holds ds rows) (hn : (n : Int) = ds.maxCol - ℓ + 1) (hT : rows.length * n < 2 ^ 31)
    (R : Rep ds rows ℓ n sp abs) {c : ℕ × ℕ} (hc : SubAt rows ℓ c) :
    sp.cellI ((c.1 : Int), (c.2 : Int)) = sp.cell ((c.1 : Int), (c.2 : Int)) := by
  unfold LocalSpace.cellI LocalSpace.cell
  rw [indexI_eq H hn hT R hc]
  rfl

/-- Different subsequences have different cells, so there are no more of them than cells. -/
theorem subAt_length_le (H : Holds ds rows) (hn : (n : Int) = ds.maxCol - ℓ + 1) {cs : List (ℕ × ℕ)} (hs : ∀ c ∈ cs, SubAt rows ℓ c)
    (hd : cs.Nodup) : cs.length ≤ rows.length * n := by
  have hmap : (cs.map (fun c => c.1 * n + c.2)).Nodup := by
    refine List.Nodup.map_on ?_ hd
    intro x hx y hy e
    exact gcell_inj ((hs x hx).start_lt H hn) ((hs y hy).start_lt H hn) e
  have hsub : (cs.map (fun c => c.1 * n + c.2)) ⊆ List.range (rows.length * n) := by
    intro x hx
    obtain ⟨c, hc, rfl⟩ := List.mem_map.1 hx
    rw [List.mem_range]
    exact cell_lt (hs c hc).lt ((hs c hc).start_lt H hn)
  have := (List.Nodup.subperm hmap hsub).length_le
  simpa using this

theorem Rep.nodup_mem (R : Rep ds rows ℓ n sp abs) {a : AG} (ha : a ∈ abs) : a.mem.Nodup := by
  have := R.nodup
  rw [List.nodup_flatMap] at this
  exact this.1 a ha

theorem addMemberI_eq (H : Holds ds rows) (hn : (n : Int) = ds.maxCol - ℓ + 1) (hT : rows.length * n < 2 ^ 31)
    (R : Rep ds rows ℓ n sp abs) {c : ℕ × ℕ} (hc : SubAt rows ℓ c) (hf : c ∉ abs.flatMap AG.mem) (j : ℕ) :
    sp.addMemberI j ((c.1 : Int), (c.2 : Int)) = sp.addMember j ((c.1 : Int), (c.2 : Int)) := by
  unfold LocalSpace.addMemberI LocalSpace.addMember
  cases hg : sp.groups[j]? with
  | none => rfl
  | some g =>
    have hj : j < abs.length := by rw [← R.num]; exact (List.getElem?_eq_some_iff.1 hg).1
    have ha : abs[j]? = some abs[j] := List.getElem?_eq_getElem hj
    have hm : abs[j] ∈ abs := List.getElem_mem hj
    have G := R.grp j g _ hg ha
    have hlen : (c :: abs[j].mem).length ≤ rows.length * n := by
      refine subAt_length_le H hn ?_ (List.nodup_cons.2 ⟨fun h => hf (List.mem_flatMap.2 ⟨_, hm, h⟩), R.nodup_mem hm⟩)
      intro x hx
      rcases List.mem_cons.1 hx with rfl | hx
      · exact hc
      · exact R.mems _ hm x hx
    simp only [List.length_cons] at hlen
    simp only
    rw [G.count, int32_ok (by omega) (by omega), indexI_eq H hn hT R hc, cellI_eq H hn hT R hc]
    rfl

theorem pushGroupI_eq (H : Holds ds rows) (hI : Fits32 ds) (R : Rep ds rows ℓ n sp abs) {c : ℕ × ℕ} (hc : SubAt rows ℓ c) :
    LocalSpace.pushGroupI ds sp ((c.1 : Int), (c.2 : Int)) = LocalSpace.pushGroup ds sp ((c.1 : Int), (c.2 : Int)) := by
  unfold LocalSpace.pushGroupI LocalSpace.pushGroup
  rw [memberI_eq H hI R hc]
  rfl

theorem bestLoopI_congr {f g : Group K → Dbl K → Res (Dbl K)} : ∀ {gs : List (Group K)} (i : ℕ) (b : Dbl K × Option ℕ),
    (∀ x ∈ gs, f x = g x) → bestLoop f gs i b = bestLoop g gs i b := by
  intro gs
  induction gs with
  | nil => intro i b _; rfl
  | cons x xs ih =>
    intro i b h
    unfold bestLoop
    rw [h x (by simp)]
    cases g x b.1 with
    | error e => rfl
    | ok d => exact ih _ _ (fun y hy => h y (by simp [hy]))

theorem Rep.centroidPtsI (H : Holds ds rows) (hI : Fits32 ds) (R : Rep ds rows ℓ n sp abs) {g : Group K} (hg : g ∈ sp.groups) :
    g.centroidPtsI ds = g.centroidPts ds := by
  obtain ⟨j, hj⟩ := List.mem_iff_getElem?.1 hg
  have hlt : j < abs.length := by rw [← R.num]; exact (List.getElem?_eq_some_iff.1 hj).1
  have ha : abs[j]? = some abs[j] := List.getElem?_eq_getElem hlt
  have G := R.grp j g _ hj ha
  obtain ⟨h1, h2⟩ := (R.reps _ (List.getElem_mem hlt)).viewAt_bounds H hI
  unfold Group.centroidPtsI Group.centroidPts
  rw [G.centroid]
  exact pointsI_eq h1 h2

variable [Arith K]

theorem distanceI_eq (H : Holds ds rows) (hI : Fits32 ds) (R : Rep ds rows ℓ n sp abs) (ratio : ℚ) (ref : DistRef) (q : List (Dbl K))
    {g : Group K} (hg : g ∈ sp.groups) : Group.distanceI ds ratio ref q g = Group.distance ds ratio ref q g := by
  funext d
  unfold Group.distanceI Group.distance
  rw [R.centroidPtsI H hI hg]

theorem insertI_eq (H : Holds ds rows) (hI : Fits32 ds) (hl : 1 ≤ ℓ) (hn : (n : Int) = ds.maxCol - ℓ + 1)
    (hT : rows.length * n < 2 ^ 31) (ratio : ℚ) (ref : DistRef) (t : Dbl K) (R : Rep ds rows ℓ n sp abs) {c : ℕ × ℕ}
    (hc : SubAt rows ℓ c) (hf : c ∉ abs.flatMap AG.mem) :
    LocalSpace.insertI ds ratio ref t sp ((c.1 : Int), (c.2 : Int)) = LocalSpace.insert ds ratio ref t sp ((c.1 : Int), (c.2 : Int)) := by
  obtain ⟨b1, b2⟩ := hc.viewAt_bounds H hI
  have hm := R.member hl H hc
  unfold LocalSpace.insertI LocalSpace.insert
  rw [memberI_eq H hI R hc, hm]
  unfold LocalSpace.member at hm
  rw [hm]
  simp only [bind, Except.bind]
  rw [pointsI_eq b1 b2]
  cases ds.points (viewAt ds ℓ c) with
  | error e => rfl
  | ok q =>
    simp only
    rw [bestLoopI_congr (f := Group.distanceI ds ratio ref q) (g := Group.distance ds ratio ref q) 0 (.inf, none)
      (fun g hg => distanceI_eq H hI R ratio ref q hg)]
    cases bestLoop (Group.distance ds ratio ref q) sp.groups 0 (.inf, none) with
    | error e => rfl
    | ok b =>
      simp only
      split
      · rw [pushGroupI_eq H hI R hc]
        obtain ⟨sp', e, R'⟩ := R.pushGroup hl hc H
        rw [e]
        simp only
        exact addMemberI_eq H hn hT R' hc (by
          rw [List.flatMap_append]
          simpa using hf) _
      · cases b.2 with
        | none => rfl
        | some i => exact addMemberI_eq H hn hT R hc hf _

/-! ### The loop -/

theorem logI_ok {T x : ℕ} (h5 : 5 ≤ T) (hd : T / 5 ∣ x → x * 100 < 2 ^ 31) : LocalSpace.logI (T : Int) (x : Int) = .ok () := by
  unfold LocalSpace.logI
  have e : (T : Int).tdiv 5 = ((T / 5 : ℕ) : Int) := by
    rw [Int.tdiv_eq_ediv_of_nonneg (by omega)]; omega
  rw [e, if_neg (by omega)]
  by_cases h : T / 5 ∣ x
  · have := hd h
    rw [if_pos (by rw [← Int.ofNat_tmod]; exact_mod_cast Nat.mod_eq_zero_of_dvd h), int32_ok (by omega) (by omega)]
    rfl
  · rw [if_neg]
    intro h'
    rw [← Int.ofNat_tmod] at h'
    exact h (Nat.dvd_of_mod_eq_zero (by exact_mod_cast h'))

theorem logI_over {T x : ℕ} (h5 : 5 ≤ T) (h : T / 5 ∣ x) (hx : 2 ^ 31 ≤ x * 100) :
    LocalSpace.logI (T : Int) (x : Int) = .error (.ub "int overflow") := by
  unfold LocalSpace.logI
  have e : (T : Int).tdiv 5 = ((T / 5 : ℕ) : Int) := by
    rw [Int.tdiv_eq_ediv_of_nonneg (by omega)]; omega
  rw [e, if_neg (by omega), if_pos (by rw [← Int.ofNat_tmod]; exact_mod_cast Nat.mod_eq_zero_of_dvd h), int32_over (by omega)]
  rfl

theorem groupLoopI_eq (H : Holds ds rows) (hI : Fits32 ds) (hl : rows ≠ [] → 1 ≤ ℓ) (hn : (n : Int) = ds.maxCol - ℓ + 1)
    (hT : rows.length * n < 2 ^ 31) (ratio : ℚ) (ref : DistRef) (t : Dbl K) (log : Bool) (hev : Evals K ratio ref) :
    ∀ (cs : List (ℕ × ℕ)) (sp : LocalSpace K) (abs : List AG) (a : ℕ), Rep ds rows ℓ n sp abs →
      (∀ c ∈ cs, c.1 < rows.length ∧ c.2 < n) → cs.Pairwise Before → (∀ x ∈ abs.flatMap AG.mem, ∀ c ∈ cs, Before x c) →
      a + cs.length < 2 ^ 31 →
      (log = true → ∀ x, a < x → x ≤ a + cs.length → rows.length * n / 5 ∣ x → x * 100 < 2 ^ 31) →
      (loopS (LocalSpace.groupStepI ds ratio ref t log (rows.length * n : ℕ)) cs ((a : Int), sp)).1.2 =
        (loopS (LocalSpace.groupStep ds ratio ref t log) cs sp).1 ∧
      (loopS (LocalSpace.groupStepI ds ratio ref t log (rows.length * n : ℕ)) cs ((a : Int), sp)).2 =
        (loopS (LocalSpace.groupStep ds ratio ref t log) cs sp).2 ∧
      ((loopS (LocalSpace.groupStep ds ratio ref t log) cs sp).2 = .ok () →
        (loopS (LocalSpace.groupStepI ds ratio ref t log (rows.length * n : ℕ)) cs ((a : Int), sp)).1.1 = ((a + cs.length : ℕ) : Int)) := by
  intro cs
  induction cs with
  | nil => intro sp abs a R _ _ _ _ _; exact ⟨rfl, rfl, fun _ => rfl⟩
  | cons c cs ih =>
    intro sp abs a R hlt hpw hbef ha hlog
    obtain ⟨hc1, hc2⟩ := hlt c (by simp)
    have hr : rows[c.1]? = some rows[c.1] := List.getElem?_eq_getElem hc1
    have hcols := hI.cols
    have h0 := hI.nonneg
    rw [List.pairwise_cons] at hpw
    simp only [List.length_cons] at ha hlog ⊢
    have hTe : sp.subCount * ds.itemCount = ((rows.length * n : ℕ) : Int) := by rw [R.sub, H.count]; push_cast; ring
    by_cases hz : log = true ∧ rows.length * n / 5 = 0
    · obtain ⟨rfl, hz⟩ := hz
      have hz' : ((rows.length * n : ℕ) : Int) / 5 = 0 := by omega
      have e1 : LocalSpace.groupStep ds ratio ref t true sp c = .error (.ub "division by zero") := by
        unfold LocalSpace.groupStep
        rw [if_pos ⟨rfl, by rw [hTe]; exact hz'⟩]
      have e2 : LocalSpace.groupStepI ds ratio ref t true (rows.length * n : ℕ) ((a : Int), sp) c = .error (.ub "division by zero") := by
        change LocalSpace.groupBodyI ds ratio ref t true (rows.length * n : ℕ) (a : Int) sp c = _
        unfold LocalSpace.groupBodyI
        rw [int32_bind _ (by omega) (by omega), if_pos rfl]
        unfold LocalSpace.logI
        rw [if_pos (by rw [Int.tdiv_eq_ediv_of_nonneg (by omega)]; exact hz')]
        rfl
      unfold loopS
      rw [e1, e2]
      exact ⟨rfl, rfl, fun h => by cases h⟩
    · have hgl : (if log = true then LocalSpace.logI ((rows.length * n : ℕ) : Int) ((a + 1 : ℕ) : Int) else .ok ()) = .ok () := by
        by_cases hlg : log = true
        · rw [if_pos hlg]
          have hq : rows.length * n / 5 ≠ 0 := fun h => hz ⟨hlg, h⟩
          exact logI_ok (by omega) (hlog hlg (a + 1) (by omega) (by omega))
        · rw [if_neg hlg]
      have hstep : LocalSpace.groupStep ds ratio ref t log sp c =
          if rows[c.1].length < c.2 + ℓ then .ok sp else sp.insert ds ratio ref t ((c.1 : Int), (c.2 : Int)) := by
        unfold LocalSpace.groupStep
        rw [if_neg (by rw [hTe]; rintro ⟨h1, h2⟩; exact hz ⟨h1, by omega⟩), H.getItemLength hr]
        simp only [bind, Except.bind, R.len]
        by_cases h : rows[c.1].length < c.2 + ℓ
        · rw [if_pos h, if_pos (by exact_mod_cast h)]
        · rw [if_neg h, if_neg (by exact_mod_cast h)]
      have hstepI : LocalSpace.groupStepI ds ratio ref t log (rows.length * n : ℕ) ((a : Int), sp) c =
          if rows[c.1].length < c.2 + ℓ then .ok (((a + 1 : ℕ) : Int), sp)
          else (sp.insertI ds ratio ref t ((c.1 : Int), (c.2 : Int))).map (fun s => (((a + 1 : ℕ) : Int), s)) := by
        change LocalSpace.groupBodyI ds ratio ref t log (rows.length * n : ℕ) (a : Int) sp c = _
        unfold LocalSpace.groupBodyI
        have ea : ((a : Int) + 1) = ((a + 1 : ℕ) : Int) := by push_cast; ring
        rw [ea, int32_bind _ (by omega) (by omega), hgl, R.len]
        refine (int32_bind _ (by omega) (by omega)).trans ?_
        rw [H.getItemLength hr]
        simp only [bind, Except.bind]
        by_cases h : rows[c.1].length < c.2 + ℓ
        · rw [if_pos h, if_pos (by exact_mod_cast h)]
        · rw [if_neg h, if_neg (by exact_mod_cast h)]
          cases LocalSpace.insertI ds ratio ref t sp ((c.1 : Int), (c.2 : Int)) <;> rfl
      have hcnt : a + 1 + cs.length = a + (cs.length + 1) := by omega
      by_cases hv : rows[c.1].length < c.2 + ℓ
      · rw [if_pos hv] at hstep hstepI
        unfold loopS
        rw [hstep, hstepI]
        have := ih sp abs (a + 1) R (fun x hx => hlt x (by simp [hx])) hpw.2 (fun x hx y hy => hbef x hx y (by simp [hy]))
          (by omega) (fun h x h1 h2 => hlog h x (by omega) (by omega))
        rw [hcnt] at this
        exact this
      · rw [if_neg hv] at hstep hstepI
        have hsub : SubAt rows ℓ c := ⟨_, hr, by omega⟩
        have hl1 : 1 ≤ ℓ := hl (by rintro rfl; simp at hc1)
        have hfresh : c ∉ abs.flatMap AG.mem := fun h => absurd (hbef c h c (by simp)) (by unfold Before; omega)
        rw [insertI_eq H hI hl1 hn hT ratio ref t R hsub hfresh] at hstepI
        unfold loopS
        rw [hstep, hstepI]
        cases hi : LocalSpace.insert ds ratio ref t sp ((c.1 : Int), (c.2 : Int)) with
        | error e => exact ⟨rfl, rfl, fun h => by cases h⟩
        | ok sp1 =>
          obtain ⟨sp1', abs1, e1, R1, I1, -⟩ := groupInsert_ok H hl1 hn ratio ref t R hsub hfresh (Or.inr ⟨_, hi⟩) hev
          rw [hi, Except.ok.injEq] at e1
          subst e1
          have := ih sp1 abs1 (a + 1) R1 (fun x hx => hlt x (by simp [hx])) hpw.2 (by
            intro x hx y hy
            rw [I1.perm.mem_iff, List.mem_cons] at hx
            rcases hx with rfl | hx
            · exact hpw.1 y hy
            · exact hbef x hx y (by simp [hy]))
            (by omega) (fun h x h1 h2 => hlog h x (by omega) (by omega))
          rw [hcnt] at this
          exact this

theorem coords_length (ds : Dataset K) (sp : LocalSpace K) : (sp.coords ds).length = sp.subCount.toNat * ds.itemCount := by
  unfold LocalSpace.coords
  rw [List.length_flatMap]
  simp

/-- No product of the log overflows. -/
theorem log_small {T : ℕ} (hT : T < 21474840) {x : ℕ} (hx : x ≤ T) (hd : T / 5 ∣ x) : x * 100 < 2 ^ 31 := by
  by_contra h
  have hq : T / 5 = 4294967 := by omega
  rw [hq] at hd
  obtain ⟨j, rfl⟩ := hd
  omega

theorem groupLengthI_eq (H : Holds ds rows) (hI : Fits32 ds) (hl : rows ≠ [] → 1 ≤ ℓ) (hn : (n : Int) = ds.maxCol - ℓ + 1)
    (hT : rows.length * n < 2 ^ 31) (ratio : ℚ) (ref : DistRef) (t : Dbl K) (log : ℕ → Bool) (hev : Evals K ratio ref)
    (hlog : log ℓ = true → rows.length * n < 21474840) :
    GSpace.groupLengthI ds ratio log ref t ℓ = GSpace.groupLength ds ratio log ref t ℓ := by
  obtain ⟨sp0, e0, R0⟩ := Rep.new (ℓ := ℓ) H hn
  unfold GSpace.groupLengthI GSpace.groupLength
  rw [newI_eq H hI hn hT, e0]
  have hTe : sp0.subCount * ds.itemCount = ((rows.length * n : ℕ) : Int) := by rw [R0.sub, H.count]; push_cast; ring
  have hlen : (sp0.coords ds).length = rows.length * n := by
    rw [coords_length, R0.sub, H.count, Int.toNat_natCast, Nat.mul_comm]
  have key := groupLoopI_eq H hI hl hn hT ratio ref t (log ℓ) hev (sp0.coords ds) sp0 [] 0 R0
    (fun c hc => by rw [mem_coords, H.count, R0.sub, Int.toNat_natCast] at hc; exact hc) (coords_sorted ds sp0) (by simp)
    (by omega) (fun h x h1 h2 h3 => log_small (hlog h) (by omega) h3)
  simp only [LocalSpace.generateGroups, LocalSpace.generateGroupsI]
  rw [hTe, int32_ok (by omega) (cast_lt_int hT)]
  simp only
  rw [show ((0 : ℕ) : Int) = 0 from rfl] at key
  rw [key.1, key.2.1]

theorem groupLengthI_over (H : Holds ds rows) (hI : Fits32 ds) (hl : rows ≠ [] → 1 ≤ ℓ) (hn : (n : Int) = ds.maxCol - ℓ + 1)
    (hT : rows.length * n < 2 ^ 31) (ratio : ℚ) (ref : DistRef) (t : Dbl K) (log : ℕ → Bool) (hev : Evals K ratio ref)
    (hS : SafeT rows ℓ ratio ref t) (hlog : log ℓ = true) (hbig : 21474840 ≤ rows.length * n) :
    (GSpace.groupLengthI ds ratio log ref t ℓ).2 = .error (.ub "int overflow") := by
  obtain ⟨sp0, e0, R0⟩ := Rep.new (ℓ := ℓ) H hn
  unfold GSpace.groupLengthI
  rw [newI_eq H hI hn hT, e0]
  have hTe : sp0.subCount * ds.itemCount = ((rows.length * n : ℕ) : Int) := by rw [R0.sub, H.count]; push_cast; ring
  have hlen : (sp0.coords ds).length = rows.length * n := by
    rw [coords_length, R0.sub, H.count, Int.toNat_natCast, Nat.mul_comm]
  simp only [LocalSpace.generateGroupsI, hlog]
  rw [hTe, int32_ok (by omega) (cast_lt_int hT)]
  simp only
  have hex : ∃ x, 0 < x ∧ rows.length * n / 5 ∣ x ∧ 2 ^ 31 ≤ x * 100 :=
    ⟨rows.length * n / 5 * 5, by omega, Nat.dvd_mul_right _ _, by omega⟩
  classical
  obtain ⟨hx0, hx1, hx2⟩ := Nat.find_spec hex
  have hmin : ∀ y, 0 < y → y < Nat.find hex → rows.length * n / 5 ∣ y → y * 100 < 2 ^ 31 := by
    intro y h0 h1 h2
    by_contra h
    exact Nat.find_min hex h1 ⟨h0, h2, by omega⟩
  have hle : Nat.find hex ≤ rows.length * n :=
    (Nat.find_min' hex (m := rows.length * n / 5 * 5) ⟨by omega, Nat.dvd_mul_right _ _, by omega⟩).trans (by omega)
  generalize Nat.find hex = x at hx0 hx1 hx2 hmin hle
  have hsplit : sp0.coords ds = (sp0.coords ds).take (x - 1) ++ (sp0.coords ds).drop (x - 1) := (List.take_append_drop _ _).symm
  have hmem : ∀ c ∈ sp0.coords ds, c.1 < rows.length ∧ c.2 < n :=
    fun c hc => by rw [mem_coords, H.count, R0.sub, Int.toNat_natCast] at hc; exact hc
  have hsort : ((sp0.coords ds).take (x - 1)).Pairwise Before := (coords_sorted ds sp0).sublist (List.take_sublist _ _)
  have htl : ((sp0.coords ds).take (x - 1)).length = x - 1 := by rw [List.length_take]; omega
  have key := groupLoopI_eq H hI hl hn hT ratio ref t true hev ((sp0.coords ds).take (x - 1)) sp0 [] 0 R0
    (fun c hc => hmem c (List.mem_of_mem_take hc)) hsort (by simp) (by omega) (fun h y h1 h2 h3 => hmin y h1 (by omega) h3)
  obtain ⟨sp1, abs1, e1, R1, -⟩ := groupLoop_ok H hl hn ratio ref t true hev ((sp0.coords ds).take (x - 1)) sp0 [] R0
    (by intro a ha; simp at ha) (Or.inl ⟨hS, fun _ => by rw [Nat.mul_comm]; omega⟩)
    (fun c hc => (hmem c (List.mem_of_mem_take hc)).1) hsort (by simp)
  rw [e1, htl] at key
  have hrest : ∃ c cs, (sp0.coords ds).drop (x - 1) = c :: cs := by
    cases h : (sp0.coords ds).drop (x - 1) with
    | nil =>
      have := congrArg List.length h
      rw [List.length_drop, List.length_nil] at this
      omega
    | cons c cs => exact ⟨c, cs, rfl⟩
  obtain ⟨c, cs, hc⟩ := hrest
  have happ : ∀ {σ α : Type} (f : σ → α → Res σ) (l l' : List α) (s : σ), (loopS f l s).2 = .ok () →
      loopS f (l ++ l') s = loopS f l' (loopS f l s).1 := by
    intro σ α f l l'
    induction l with
    | nil => intro s _; rfl
    | cons y ys ih =>
      intro s h
      simp only [List.cons_append, loopS] at h ⊢
      cases hf : f s y with
      | error e => rw [hf] at h; cases h
      | ok s' => rw [hf] at h; exact ih s' h
  have hcnt := key.2.2 rfl
  have h2 := key.2.1
  rw [show ((0 : ℕ) : Int) = 0 from rfl] at hcnt h2
  rw [hsplit, happ _ _ _ _ h2, hc]
  generalize (loopS (LocalSpace.groupStepI ds ratio ref t true ((rows.length * n : ℕ) : Int))
    ((sp0.coords ds).take (x - 1)) (0, sp0)).1 = st at hcnt
  have hstep : LocalSpace.groupStepI ds ratio ref t true ((rows.length * n : ℕ) : Int) st c = .error (.ub "int overflow") := by
    obtain ⟨a, sp⟩ := st
    simp only at hcnt
    subst hcnt
    change LocalSpace.groupBodyI ds ratio ref t true (rows.length * n : ℕ) ((0 + (x - 1) : ℕ) : Int) sp c = _
    unfold LocalSpace.groupBodyI
    have ea : (((0 + (x - 1) : ℕ) : Int) + 1) = ((x : ℕ) : Int) := by omega
    rw [ea, int32_bind _ (by omega) (by omega), if_pos rfl, logI_over (by omega) hx1 hx2]
    rfl
  simp only [loopS, hstep]
  rfl

/-! ### All lengths -/

theorem groups_le_subs {ratio : ℚ} {ref : DistRef} {t : Dbl K} (G : Grouped ds rows ratio ref t ℓ sp abs) :
    sp.groups.length ≤ subsOfLength rows ℓ := by
  obtain ⟨n, -, R⟩ := G.rep
  have h1 : (abs.flatMap AG.mem).length ≤ subsOfLength rows ℓ := by
    rw [← subList_length]
    exact (List.Nodup.subperm R.nodup (fun c hc => (mem_subList c).2 ((G.all c).1 hc))).length_le
  have h2 : ∀ l : List AG, (∀ a ∈ l, a.mem ≠ []) → l.length ≤ (l.flatMap AG.mem).length := by
    intro l
    induction l with
    | nil => intro _; simp
    | cons a l ih =>
      intro h
      have h3 := ih (fun b hb => h b (by simp [hb]))
      have h4 := List.length_pos_iff.2 (h a (by simp))
      rw [List.flatMap_cons, List.length_append, List.length_cons]
      omega
  rw [R.num]
  refine (h2 abs ?_).trans h1
  intro a ha h
  have := (G.repIn a ha).1
  rw [h] at this
  simp at this

theorem totalLoopI_eq (f : ℕ → Option (LocalSpace K) × Res ℕ) (B : ℕ → ℕ) : ∀ (is : List ℕ) (gs : GSpace K),
    (∀ i ∈ is, ∀ m, (f i).2 = .ok m → m ≤ B i) → 0 ≤ gs.total → gs.total + ((is.map B).sum : ℕ) < 2 ^ 31 →
    GSpace.groupLoopI f is gs = GSpace.groupLoop f is gs := by
  intro is
  induction is with
  | nil => intro gs _ _ _; rfl
  | cons i is ih =>
    intro gs h h0 hs
    rw [List.map_cons, List.sum_cons] at hs
    unfold GSpace.groupLoopI GSpace.groupLoop
    simp only
    cases hf : (f i).2 with
    | error e => rfl
    | ok m =>
      have hm := h i (by simp) m hf
      simp only
      rw [int32_ok (by omega) (by omega)]
      exact ih _ (fun j hj => h j (by simp [hj])) (by simp only; omega) (by simp only; omega)

theorem groupable_eq {α : Type} (g0 : GSpace K) (rows : List (List α)) {maxCol : Int} (hmax : 0 ≤ maxCol)
    (hsz : (g0.spaces.length : Int) = maxCol + 1) : (g0.lengths.map (subsOfLength rows)).sum = groupable maxCol g0.whole rows := by
  unfold groupable GSpace.lengths GSpace.minLength
  congr 2
  have e : g0.spaces.length = (maxCol + 1).toNat := by omega
  rw [if_neg (by split <;> omega), e]
  refine List.filter_congr (fun i hi => ?_)
  rw [List.mem_range] at hi
  cases g0.whole
  · simp
  · simp only [if_true, decide_eq_decide]
    omega

/-- The places of a length that is grouped are counted by an `int`. -/
theorem places_fit (H : Holds ds rows) (hI : Fits32 ds) {whole : Bool} (hw : whole = true → rows ≠ [] → 1 ≤ ds.maxCol) {i n : ℕ}
    (hr : InRange ds.maxCol whole i) (hn : (n : Int) = ds.maxCol - i + 1) :
    (rows ≠ [] → 1 ≤ i) ∧ rows.length * n < 2 ^ 31 := by
  have hmax := hI.nonneg
  have hcols := hI.cols
  have harea := hI.area
  have h1 : rows ≠ [] → 1 ≤ i := by
    intro hne
    unfold InRange at hr
    cases whole
    · simp at hr; omega
    · have := hw rfl hne; simp at hr; omega
  refine ⟨h1, ?_⟩
  rw [H.count] at harea
  by_cases h0 : rows = []
  · subst h0; simp
  · have h1 : (n : Int) ≤ ds.maxCol := by have := h1 h0; omega
    have h2 : (rows.length : Int) * n ≤ rows.length * ds.maxCol := Int.mul_le_mul_of_nonneg_left h1 (by omega)
    have h3 : ((rows.length * n : ℕ) : Int) < 2 ^ 31 := by push_cast; omega
    omega

/-- Only the total may overflow. -/
theorem groupI_loop (H : Holds ds rows) (hI : Fits32 ds) (ratio : ℚ) (m : Metric) (t : Dbl K) (whole : Bool)
    (hw : whole = true → rows ≠ [] → 1 ≤ ds.maxCol) (log : ℕ → Bool)
    (hlog : ∀ ℓ, InRange ds.maxCol whole ℓ → log ℓ = true → rows.length * (ds.maxCol - ℓ + 1) < 21474840)
    (hev : Evals K ratio (.pairwise m)) (gs : GSpace K) :
    GSpace.groupI ds ratio log (metricName m) t whole gs =
      ((GSpace.groupLoopI (GSpace.groupLength ds ratio log (.pairwise m) t) (prepared ds m t whole : GSpace K).lengths (prepared ds m t whole)).1,
        (GSpace.groupLoopI (GSpace.groupLength ds ratio log (.pairwise m) t) (prepared ds m t whole : GSpace K).lengths
          (prepared ds m t whole)).2.map (fun _ => (GSpace.groupLoopI (GSpace.groupLength ds ratio log (.pairwise m) t)
            (prepared ds m t whole : GSpace K).lengths (prepared ds m t whole)).1.total)) := by
  have hmax := hI.nonneg
  have hcols := hI.cols
  unfold GSpace.groupI
  simp only [prepare_ok hmax]
  rw [int32_ok (by omega) hcols]
  simp only
  have hsz : ((prepared ds m t whole : GSpace K).spaces.length : Int) = ds.maxCol + 1 := by
    simp only [prepared, List.length_replicate]; omega
  have hmem : ∀ i, i ∈ (prepared ds m t whole : GSpace K).lengths ↔ InRange ds.maxCol whole i := fun i => mem_lengths hmax hsz i
  have hone : ∀ i ∈ (prepared ds m t whole : GSpace K).lengths,
      GSpace.groupLengthI ds ratio log (.pairwise m) t i = GSpace.groupLength ds ratio log (.pairwise m) t i := by
    intro i hi
    have hr := (hmem i).1 hi
    have hr1 := hr.1
    obtain ⟨n, hn⟩ : ∃ n : ℕ, (n : Int) = ds.maxCol - i + 1 := ⟨(ds.maxCol - i + 1).toNat, by omega⟩
    obtain ⟨hne, hT⟩ := places_fit H hI hw hr hn
    refine groupLengthI_eq H hI hne hn hT ratio _ t log hev (fun h => ?_)
    have := hlog i hr h
    rw [← hn] at this
    have h3 : ((rows.length * n : ℕ) : Int) < 21474840 := by push_cast; exact this
    omega
  have hcongr : ∀ (f g : ℕ → Option (LocalSpace K) × Res ℕ) (is : List ℕ) (gs : GSpace K), (∀ i ∈ is, f i = g i) →
      GSpace.groupLoopI f is gs = GSpace.groupLoopI g is gs := by
    intro f g is
    induction is with
    | nil => intro gs _; rfl
    | cons i is ih =>
      intro gs h
      unfold GSpace.groupLoopI
      rw [h i (by simp)]
      simp only
      cases (g i).2 with
      | error e => rfl
      | ok k =>
        simp only
        cases int32 (gs.total + k) with
        | error e => rfl
        | ok z => exact ih _ (fun j hj => h j (by simp [hj]))
  rw [hcongr _ _ _ _ hone]

theorem groupI_eq (H : Holds ds rows) (hI : Fits32 ds) (ratio : ℚ) (m : Metric) (t : Dbl K) (whole : Bool)
    (hw : whole = true → rows ≠ [] → 1 ≤ ds.maxCol) (log : ℕ → Bool)
    (hlog : ∀ ℓ, InRange ds.maxCol whole ℓ → log ℓ = true → rows.length * (ds.maxCol - ℓ + 1) < 21474840)
    (hev : Evals K ratio (.pairwise m)) (htot : groupable ds.maxCol whole rows < 2 ^ 31) (gs : GSpace K) :
    GSpace.groupI ds ratio log (metricName m) t whole gs = GSpace.group ds ratio log (metricName m) t whole gs := by
  have hmax := hI.nonneg
  have hsz : ((prepared ds m t whole : GSpace K).spaces.length : Int) = ds.maxCol + 1 := by
    simp only [prepared, List.length_replicate]; omega
  have hmem : ∀ i, i ∈ (prepared ds m t whole : GSpace K).lengths ↔ InRange ds.maxCol whole i := fun i => mem_lengths hmax hsz i
  rw [groupI_loop H hI ratio m t whole hw log hlog hev]
  unfold GSpace.group
  simp only [prepare_ok hmax]
  rw [totalLoopI_eq _ (subsOfLength rows)]
  · intro i hi k hk
    have hr := (hmem i).1 hi
    have hr1 := hr.1
    obtain ⟨n, hn⟩ : ∃ n : ℕ, (n : Int) = ds.maxCol - i + 1 := ⟨(ds.maxCol - i + 1).toNat, by omega⟩
    obtain ⟨sp, abs, e, G⟩ := generate_ok H (places_fit H hI hw hr hn).1 (by have := hr.1; omega) ratio _ t log (Or.inr ⟨k, hk⟩) hev
    rw [e, Except.ok.injEq] at hk
    rw [← hk]
    exact groups_le_subs G
  · exact Int.le_refl 0
  · rw [groupable_eq _ rows hmax hsz]
    change (0 : Int) + (groupable ds.maxCol whole rows : ℕ) < 2 ^ 31
    omega

/-- Logging the first length that is grouped. -/
theorem groupI_log_over (H : Holds ds rows) (hI : Fits32 ds) (ratio : ℚ) (m : Metric) (t : Dbl K) (whole : Bool) (ℓ : ℕ)
    (hℓ : InRange ds.maxCol whole ℓ) (hfirst : ∀ i, InRange ds.maxCol whole i → ℓ ≤ i)
    (hw : whole = true → rows ≠ [] → 1 ≤ ds.maxCol) (log : ℕ → Bool) (hlog : log ℓ = true)
    (hbig : 21474840 ≤ rows.length * (ds.maxCol - ℓ + 1)) (hS : SafeT rows ℓ ratio (.pairwise m) t)
    (hev : Evals K ratio (.pairwise m)) (gs : GSpace K) :
    (GSpace.groupI ds ratio log (metricName m) t whole gs).2 = .error (.ub "int overflow") := by
  have hmax := hI.nonneg
  have hcols := hI.cols
  have hr1 := hℓ.1
  have hsz : ((prepared ds m t whole : GSpace K).spaces.length : Int) = ds.maxCol + 1 := by
    simp only [prepared, List.length_replicate]; omega
  have hmem : ∀ i, i ∈ (prepared ds m t whole : GSpace K).lengths ↔ InRange ds.maxCol whole i := fun i => mem_lengths hmax hsz i
  obtain ⟨n, hn⟩ : ∃ n : ℕ, (n : Int) = ds.maxCol - ℓ + 1 := ⟨(ds.maxCol - ℓ + 1).toNat, by omega⟩
  obtain ⟨hne, hT⟩ := places_fit H hI hw hℓ hn
  have hover := groupLengthI_over H hI hne hn hT ratio (.pairwise m) t log hev hS hlog (by
    rw [← hn] at hbig
    have h3 : (21474840 : Int) ≤ ((rows.length * n : ℕ) : Int) := by push_cast; exact hbig
    omega)
  obtain ⟨is, hls⟩ : ∃ is, (prepared ds m t whole : GSpace K).lengths = ℓ :: is := by
    have hsorted : ((prepared ds m t whole : GSpace K).lengths).Pairwise (· < ·) := by
      unfold GSpace.lengths
      split
      · exact List.Pairwise.nil
      · exact List.pairwise_lt_range.filter _
    have h1 := (hmem ℓ).2 hℓ
    cases hl : (prepared ds m t whole : GSpace K).lengths with
    | nil => rw [hl] at h1; cases h1
    | cons i is =>
      rw [hl] at h1 hsorted
      have hi := hfirst i ((hmem i).1 (by rw [hl]; simp))
      rcases List.mem_cons.1 h1 with h | h
      · exact ⟨is, by rw [h]⟩
      · have := List.rel_of_pairwise_cons hsorted h
        omega
  unfold GSpace.groupI
  simp only [prepare_ok hmax]
  rw [int32_ok (by omega) hcols]
  simp only [hls]
  unfold GSpace.groupLoopI
  simp only [hover]
  rfl

end

end Genex
