import Verif.Lemmas.OverflowEval
import Verif.Lemmas.ArithCongr
import Verif.Lemmas.DatasetProps
import Verif.Spec.Overflow

/-! Datasets in range (lemmas for C87). -/

set_option linter.unusedSectionVars false

namespace Genex

open Dbl Spec

variable {K : Type} [Field K] [LinearOrder K]

theorem mapM_out {α β : Type} {f : α → Res β} : ∀ {l : List α} {r : List β}, l.mapM f = .ok r →
    r.length = l.length ∧ ∀ y ∈ r, ∃ x ∈ l, f x = .ok y
  | [], r, h => by
    cases h
    simp
  | a :: l, r, h => by
    rw [List.mapM_cons] at h
    simp only [bind, Except.bind, pure, Except.pure] at h
    cases hf : f a with
    | error e => rw [hf] at h; cases h
    | ok y =>
      rw [hf] at h
      simp only at h
      cases hl : l.mapM f with
      | error e => rw [hl] at h; cases h
      | ok r' =>
        rw [hl] at h
        cases h
        obtain ⟨h1, h2⟩ := mapM_out hl
        refine ⟨by simp [h1], ?_⟩
        intro z hz
        rw [List.mem_cons] at hz
        rcases hz with rfl | hz
        · exact ⟨a, by simp, hf⟩
        · obtain ⟨x, hx, e⟩ := h2 z hz
          exact ⟨x, by simp [hx], e⟩

/-- A series of the dataset has no more points than the array. -/
theorem points_size {L : ℕ} {ds : Dataset K} (hL : DataSize L ds) : AllIn (fun pts => pts.length ≤ L) ds := by
  intro v pts h
  unfold Dataset.points at h
  obtain ⟨h1, -⟩ := mapM_out h
  rw [h1, List.length_range]
  by_cases h0 : v.length.toNat = 0
  · omega
  · -- the first and the last point lie in the array
    have hall : ∀ i < v.length.toNat, ∃ buf, ds.data = some buf ∧ 0 ≤ v.base + v.start + i ∧ v.base + v.start + i < buf.length := by
      intro i hi
      have hok : ∃ y, ds.pointAt v i = .ok y := by
        have : ∀ (l : List ℕ) r, l.mapM (fun (i : ℕ) => ds.pointAt v i) = .ok r → ∀ i ∈ l, ∃ y, ds.pointAt v i = .ok y := by
          intro l
          induction l with
          | nil => intro r _ i hi; cases hi
          | cons a l ih =>
            intro r hr i hi
            rw [List.mapM_cons] at hr
            simp only [bind, Except.bind, pure, Except.pure] at hr
            cases ha : ds.pointAt v a with
            | error e => rw [ha] at hr; cases hr
            | ok y =>
              rw [ha] at hr
              simp only at hr
              cases hl : l.mapM (fun (i : ℕ) => ds.pointAt v i) with
              | error e => rw [hl] at hr; cases hr
              | ok r' =>
                rw [List.mem_cons] at hi
                rcases hi with rfl | hi
                · exact ⟨y, ha⟩
                · exact ih r' hl i hi
        exact this _ _ h i (by simpa using hi)
      obtain ⟨y, e⟩ := hok
      unfold Dataset.pointAt at e
      split at e
      · cases e
      · unfold Dataset.read at e
        cases hd : ds.data with
        | none => rw [hd] at e; cases e
        | some buf =>
          rw [hd] at e
          simp only at e
          split at e
          · cases e
          · split at e
            · rename_i h
              have := (List.getElem?_eq_some_iff.1 h).1
              exact ⟨buf, rfl, by omega, by omega⟩
            · cases e
    obtain ⟨b0, hb0, k1, -⟩ := hall 0 (by omega)
    obtain ⟨b1, hb1, -, k2⟩ := hall (v.length.toNat - 1) (by omega)
    have := hL b1 hb1
    omega

/-- A series of the dataset has points of the array, and no more than that has. -/
theorem points_all {P : Dbl K → Prop} {L : ℕ} {ds : Dataset K} (hB : DataAll P ds) (hL : DataSize L ds) :
    AllIn (fun pts => (∀ x ∈ pts, P x) ∧ pts.length ≤ L) ds := by
  intro v pts h
  unfold Dataset.points at h
  obtain ⟨h1, h2⟩ := mapM_out h
  have hread : ∀ y ∈ pts, ∃ buf, ds.data = some buf ∧ y ∈ buf := by
    intro y hy
    obtain ⟨i, -, e⟩ := h2 y hy
    unfold Dataset.pointAt at e
    split at e
    · cases e
    · unfold Dataset.read at e
      cases hd : ds.data with
      | none => rw [hd] at e; cases e
      | some buf =>
        rw [hd] at e
        simp only at e
        split at e
        · cases e
        · split at e
          · rename_i h; cases e; exact ⟨buf, rfl, List.mem_of_getElem? h⟩
          · cases e
  refine ⟨fun y hy => ?_, ?_⟩
  · obtain ⟨buf, hb, hm⟩ := hread y hy
    exact hB buf hb y hm
  · exact points_size hL v pts (by unfold Dataset.points; exact h)

theorem points_below {B : K} {L : ℕ} {ds : Dataset K} (hB : DataBelow B ds) (hL : DataSize L ds) :
    AllIn (fun pts => (∀ x ∈ pts, Below B x) ∧ pts.length ≤ L) ds := points_all hB hL

theorem write_all {P : Dbl K → Prop} {L : ℕ} {ds ds' : Dataset K} (hB : DataAll P ds) (hL : DataSize L ds) {c : Int} {x : Dbl K} (hx : P x)
    (h : ds.write c x = .ok ds') : DataAll P ds' ∧ DataSize L ds' := by
  unfold Dataset.write at h
  cases hd : ds.data with
  | none => rw [hd] at h; cases h
  | some buf =>
    rw [hd] at h
    simp only at h
    split at h
    · cases h
      refine ⟨fun buf' hb y hy => ?_, fun buf' hb => ?_⟩
      · cases hb
        rcases List.mem_or_eq_of_mem_set hy with h' | rfl
        · exact hB buf hd y h'
        · exact hx
      · cases hb
        rw [List.length_set]
        exact hL buf hd
    · cases h

theorem write_below {B : K} {L : ℕ} {ds ds' : Dataset K} (hB : DataBelow B ds) (hL : DataSize L ds) {c : Int} {x : Dbl K} (hx : Below B x)
    (h : ds.write c x = .ok ds') : DataBelow B ds' ∧ DataSize L ds' := write_all hB hL hx h

variable [IsStrictOrderedRing K] {rd : K → K}

theorem rewrite_below {B : K} {L : ℕ} (f : Dbl K → Dbl K) : ∀ (cs : List Int) (ds ds' : Dataset K), cs.Nodup → DataBelow B ds → DataSize L ds →
    (∀ c ∈ cs, ∃ x, ds.read c = .ok x ∧ Below B (f x)) →
    cs.foldlM (fun (d : Dataset K) (c : Int) => d.read c >>= fun x => d.write c (f x)) ds = .ok ds' → DataBelow B ds' ∧ DataSize L ds' := by
  intro cs
  induction cs with
  | nil => intro ds ds' _ h1 h2 _ h; cases h; exact ⟨h1, h2⟩
  | cons c cs ih =>
    intro ds ds' hn h1 h2 hc h
    obtain ⟨x, hx, hf⟩ := hc c (by simp)
    rw [List.foldlM_cons, hx] at h
    simp only [bind, Except.bind] at h
    cases hw : ds.write c (f x) with
    | error e => rw [hw] at h; cases h
    | ok ds1 =>
      rw [hw] at h
      rw [List.nodup_cons] at hn
      obtain ⟨h3, h4⟩ := write_below h1 h2 hf hw
      refine ih ds1 ds' hn.2 h3 h4 (fun c' hc' => ?_) h
      obtain ⟨y, hy, hfy⟩ := hc c' (by simp [hc'])
      refine ⟨y, ?_, hfy⟩
      rw [read_write hw, if_neg]
      · exact hy
      · rintro rfl
        exact hn.1 hc'

theorem zero_below {B : K} (hB : 0 ≤ B) : Below B 0 := ⟨0, rfl, by simpa using hB⟩

/-- Normalisation leaves data in range there. -/
theorem normalizeR_below (hr : Rounding rd) (h1 : rd 1 = 1) {B : K} {L : ℕ} (hB1 : 1 ≤ B) {ds ds' : Dataset K} {rows : List (List K)}
    (H : Holds ds (rows.map (·.map fin))) (hB : DataBelow B ds) (hL : DataSize L ds) {mm : Dbl K × Dbl K}
    (e : ds.normalizeR rd = .ok (ds', mm)) : DataBelow B ds' ∧ DataSize L ds' := by
  unfold Dataset.normalizeR at e
  split at e
  · cases e
  rw [cells_ok H] at e
  simp only [bind, Except.bind] at e
  obtain ⟨m, em, hm⟩ := minMax_ok ds (cellList ds.maxCol (rows.map (·.map fin))) (.inf, .ninf) ∅ (fun c hc => by
      obtain ⟨i, j, r, x, hr, hx, rfl⟩ := mem_cellList.1 hc
      have := H.cells i r hr j x hx
      rw [List.getElem?_map, Option.map_eq_some_iff] at hr
      obtain ⟨r', hr', rfl⟩ := hr
      rw [List.getElem?_map, Option.map_eq_some_iff] at hx
      obtain ⟨x', hx', rfl⟩ := hx
      exact ⟨x', this⟩) (Or.inl ⟨rfl, rfl⟩)
  rw [readSet H, Set.empty_union] at hm
  rw [em] at e
  simp only at e
  have hfit : ∀ r ∈ rows.map (·.map fin), (r.length : Int) ≤ ds.maxCol := fun r hr => by
    obtain ⟨i, hi⟩ := List.mem_iff_getElem?.1 hr
    exact H.fits i r hi
  rcases hm with ⟨rfl, hm⟩ | ⟨lo, hi, rfl, hlo, hhi⟩
  · have hcl : cellList ds.maxCol (rows.map (·.map fin)) = [] := by
      rw [List.eq_nil_iff_forall_not_mem]
      intro c hc
      obtain ⟨i, j, r, x, hr', hx, rfl⟩ := mem_cellList.1 hc
      rw [List.getElem?_map, Option.map_eq_some_iff] at hr'
      obtain ⟨r', hr', rfl⟩ := hr'
      rw [List.getElem?_map, Option.map_eq_some_iff] at hx
      obtain ⟨x', hx', rfl⟩ := hx
      have : x' ∈ valSet rows := ⟨r', List.mem_of_getElem? hr', List.mem_of_getElem? hx'⟩
      rw [hm] at this
      exact this
    rw [hcl] at e
    simp only [List.foldlM_nil, pure, Except.pure] at e
    split at e
    · split at e <;> (cases e; exact ⟨hB, hL⟩)
    · cases e; exact ⟨hB, hL⟩
  · simp only [fin_sub_fin, rnd_fin] at e
    split at e
    · split at e
      · cases e; exact ⟨hB, hL⟩
      · split at e
        · cases e
        · rename_i d' hd'
          cases e
          have : ∀ (cs : List Int) (ds : Dataset K), DataBelow B ds → DataSize L ds →
              cs.foldlM (fun (d : Dataset K) (c : Int) => d.write c 0) ds = .ok d' → DataBelow B d' ∧ DataSize L d' := by
            intro cs
            induction cs with
            | nil => intro ds h1 h2 h; cases h; exact ⟨h1, h2⟩
            | cons c cs ih =>
              intro ds h1 h2 h
              rw [List.foldlM_cons] at h
              simp only [bind, Except.bind] at h
              cases hw : ds.write c 0 with
              | error e => rw [hw] at h; cases h
              | ok ds1 =>
                rw [hw] at h
                obtain ⟨h3, h4⟩ := write_below h1 h2 (zero_below (by linarith)) hw
                exact ih ds1 h3 h4 h
          exact this _ _ hB hL hd'
    · rename_i h0
      split at e
      · cases e
      · rename_i d' hd'
        cases e
        have hne : rd (hi - lo) ≠ 0 := fun e => h0 ⟨by rw [e]; rfl, by simp⟩
        have hpos : 0 < rd (hi - lo) := by
          have := hr.nonneg (sub_nonneg.2 (hlo.2 hhi.1))
          exact _root_.lt_of_le_of_ne this (Ne.symm hne)
        refine rewrite_below (fun x => rnd rd (rnd rd (x - fin lo) / fin (rd (hi - lo)))) _ ds d' (cellList_nodup hfit) hB hL
          (fun c hc => ?_) hd'
        obtain ⟨i, j, r, x, hr', hx, rfl⟩ := mem_cellList.1 hc
        have hread := H.cells i r hr' j x hx
        rw [List.getElem?_map, Option.map_eq_some_iff] at hr'
        obtain ⟨r', hr', rfl⟩ := hr'
        rw [List.getElem?_map, Option.map_eq_some_iff] at hx
        obtain ⟨x', hx', rfl⟩ := hx
        have hm' := List.mem_of_getElem? hr'
        have hx'' := List.mem_of_getElem? hx'
        refine ⟨_, hread, rd (rd (x' - lo) / rd (hi - lo)), ?_, ?_⟩
        · simp only [fin_sub_fin, rnd_fin]
          rw [fin_div_fin hne, rnd_fin]
        · have h2 : 0 ≤ rd (x' - lo) := hr.nonneg (sub_nonneg.2 (hlo.2 ⟨r', hm', hx''⟩))
          have h3 : rd (x' - lo) ≤ rd (hi - lo) := hr.mono _ _ (by have := hhi.2 ⟨r', hm', hx''⟩; linarith)
          rw [abs_of_nonneg (hr.nonneg (div_nonneg h2 hpos.le))]
          refine le_trans ?_ hB1
          rw [← h1]
          exact hr.mono _ _ ((div_le_one hpos).2 h3)

/-! ## Loading -/

theorem loadToks_all {parse : Text → Parsed K} {P : Dbl K → Prop} {L : ℕ} {raw st : Int} {nm : Bool} {row : ℕ} : ∀ (ts : List Text) (col : ℕ) (ds : Dataset K),
    DataAll P ds → DataSize L ds → (∀ (i : ℕ) t, ts[i]? = some t → st + b2i nm ≤ col + i → ∀ x, parse t = .val x → P x) →
    DataAll P (Dataset.loadToks parse raw st nm row ts col ds).1 ∧ DataSize L (Dataset.loadToks parse raw st nm row ts col ds).1
  | [], _, ds, h1, h2, _ => ⟨h1, h2⟩
  | t :: ts, col, ds, h1, h2, h => by
    have h' : ∀ (i : ℕ) t, ts[i]? = some t → st + b2i nm ≤ (col + 1 : ℕ) + i → ∀ x, parse t = .val x → P x := fun i u hu hi =>
      h (i + 1) u (by simpa using hu) (by push_cast at hi ⊢; omega)
    unfold Dataset.loadToks
    split
    · rename_i hc
      split
      · exact loadToks_all ts _ { ds with names := ds.names ++ [t] } h1 h2 h'
      · rename_i hn
        have hcol : st + b2i nm ≤ (col : Int) + (0 : ℕ) := by
          cases nm with
          | false => simpa [b2i] using hc
          | true =>
            have : (col : Int) ≠ st := fun e => hn ⟨e, rfl⟩
            simp only [b2i, if_true]
            omega
        split
        · exact ⟨fun buf hb => (by cases hb), fun buf hb => (by cases hb)⟩
        · exact ⟨fun buf hb => (by cases hb), fun buf hb => (by cases hb)⟩
        · rename_i x hx
          split
          · exact ⟨h1, h2⟩
          · rename_i ds1 hw
            obtain ⟨h3, h4⟩ := write_all h1 h2 (h 0 t (by simp) hcol x hx) hw
            exact loadToks_all ts _ ds1 h3 h4 h'
    · exact loadToks_all ts _ ds h1 h2 h'

theorem loadRows_all {parse : Text → Parsed K} {P : Dbl K → Prop} {L : ℕ} {sep : List Char} {raw st : Int} {nm : Bool} : ∀ (ls : List Text) (row : ℕ)
    (ds : Dataset K), DataAll P ds → DataSize L ds →
    (∀ l ∈ ls, ∀ (i : ℕ) t, (tokens sep l)[i]? = some t → st + b2i nm ≤ i → ∀ x, parse t = .val x → P x) →
    DataAll P (Dataset.loadRows parse sep raw st nm ls row ds).1 ∧ DataSize L (Dataset.loadRows parse sep raw st nm ls row ds).1
  | [], _, ds, h1, h2, _ => ⟨h1, h2⟩
  | l :: ls, row, ds, h1, h2, h => by
    have h3 := loadToks_all (parse := parse) (raw := raw) (st := st) (nm := nm) (row := row) (tokens sep l) 0
      { ds with lengths := ds.lengths ++ [((tokens sep l).length : Int) - st - b2i nm] } (P := P) (L := L) h1 h2
      (fun i t ht hi => h l (by simp) i t ht (by simpa using hi))
    unfold Dataset.loadRows
    simp only
    split
    · exact h3
    · exact loadRows_all ls _ _ h3.1 h3.2 (fun l' hl' => h l' (by simp [hl']))

theorem maxColumns_le {sep : List Char} {W : ℕ} : ∀ (ls : List Text) (m : ℕ), m ≤ W → (∀ l ∈ ls, (tokens sep l).length ≤ W) →
    ls.foldl (fun m l => max m (tokens sep l).length) m ≤ W
  | [], _, h, _ => h
  | l :: ls, m, h, hl => maxColumns_le ls _ (max_le h (hl l (by simp))) (fun l' h' => hl l' (by simp [h']))

/-- Loading a file whose values are in range, of at most `R` lines and `W` columns. -/
theorem load_all {parse : Text → Parsed K} {P : Dbl K → Prop} (hP : P 0) {sep : List Char} {content path : Text} {n : Int} {st : ℕ} {nm : Bool}
    {ds : Dataset K} {R W : ℕ}
    (h : ∀ l ∈ firstLines n content, ∀ t ∈ (columns sep l).drop (valueCol st nm), ∀ x, parse t = .val x → P x)
    (hR : (firstLines 0 content).length ≤ R) (hW : ∀ l ∈ firstLines 0 content, (columns sep l).length ≤ W) :
    DataAll P (ds.loadData parse (some content) path n st sep nm).1 ∧ DataSize (R * W) (ds.loadData parse (some content) path n st sep nm).1 ∧
      ((ds.loadData parse (some content) path n st sep nm).2 = .ok () →
        (ds.loadData parse (some content) path n st sep nm).1.maxCol ≤ W) := by
  have h0 : ∀ (k : ℕ) (d : Dataset K), DataAll P { d with data := some (List.replicate k 0) } := by
    intro k d buf hb x hx
    cases hb
    rw [List.eq_of_mem_replicate hx]
    exact hP
  have hall : firstLines 0 content = fileLines content := by
    rw [← firstLines_eq]
    unfold rowsRead
    simp
  have hcols : Dataset.maxColumns sep (fileLines content) ≤ W := maxColumns_le _ _ (Nat.zero_le _) (by
    intro l hl
    rw [tokens_eq]
    exact hW l (hall ▸ hl))
  have hlines : ∀ l ∈ (fileLines content).take (if n ≤ 0 then (fileLines content).length else min n.toNat (fileLines content).length),
      l ∈ firstLines n content := by
    intro l hl
    rw [← firstLines_eq]
    exact hl
  have hrows : (if n ≤ 0 then (fileLines content).length else min n.toNat (fileLines content).length) ≤ R := by
    rw [hall] at hR
    split <;> omega
  unfold Dataset.loadData
  simp only
  have h1 := loadRows_all (parse := parse) (sep := sep) (raw := Dataset.maxColumns sep (fileLines content)) (st := st) (nm := nm)
    (P := P) ((fileLines content).take (if n ≤ 0 then (fileLines content).length else min n.toNat (fileLines content).length)) 0
    { ds.clearData with itemCount := 0, data := some (List.replicate ((if n ≤ 0 then (fileLines content).length else min n.toNat (fileLines content).length) *
        Dataset.maxColumns sep (fileLines content)) 0) } (L := R * W) (h0 _ _) (by
          intro buf hb
          cases hb
          rw [List.length_replicate]
          exact Nat.mul_le_mul hrows hcols) (by
          intro l hl i t ht hi x hx
          rw [tokens_eq] at ht
          refine h l (hlines l hl) t ?_ x hx
          have hv : valueCol st nm ≤ i := by
            cases nm <;> simp only [valueCol, b2i] at hi ⊢ <;> simp at hi ⊢ <;> omega
          refine List.mem_iff_getElem?.2 ⟨i - valueCol st nm, ?_⟩
          rw [List.getElem?_drop, ← ht]
          congr 1
          omega)
  split
  · exact ⟨h1.1, h1.2, fun h => by cases h⟩
  · refine ⟨h1.1, h1.2, fun _ => ?_⟩
    have : 0 ≤ b2i nm := by cases nm <;> decide
    dsimp only
    omega

/-- Loading a file whose values are in range, of at most `R` lines and `W` columns. -/
theorem load_below {parse : Text → Parsed K} {B : K} (hB : 0 ≤ B) {sep : List Char} {content path : Text} {n : Int} {st : ℕ} {nm : Bool}
    {ds : Dataset K} {R W : ℕ}
    (h : ∀ l ∈ firstLines n content, ∀ t ∈ (columns sep l).drop (valueCol st nm), ∀ x, parse t = .val x → Below B x)
    (hR : (firstLines 0 content).length ≤ R) (hW : ∀ l ∈ firstLines 0 content, (columns sep l).length ≤ W) :
    DataBelow B (ds.loadData parse (some content) path n st sep nm).1 ∧ DataSize (R * W) (ds.loadData parse (some content) path n st sep nm).1 ∧
      ((ds.loadData parse (some content) path n st sep nm).2 = .ok () →
        (ds.loadData parse (some content) path n st sep nm).1.maxCol ≤ W) := load_all (zero_below hB) h hR hW

/-- Distances in range agree. -/
theorem agree_overflow [HasSqrt K] (hr : Rounding rd) {X B : K} (hB : 0 ≤ B) (hX : rd X = X) (hX1 : 1 ≤ X) [BandOps] {ratio : ℚ} (hq : 0 ≤ ratio) {L : ℕ} {f : DistRef}
    (hs : metricOf f = .euclidean → LawfulSqrt K) (hN : NoOverflow rd X B (2 * L) (metricOf f)) :
    Agree (overflowArith (rndMax rd X)) (roundedArith rd) ratio (fun pts => (∀ x ∈ pts, Below B x) ∧ pts.length ≤ L) f := by
  rintro a b d ⟨ha, hal⟩ ⟨hb, hbl⟩
  exact evalW_eq hr hX hX1 f hs hq ha hb (noOverflow_mono hr hB (by omega) hN) d

/-- The same for the pairwise distances, whatever the band. -/
theorem agree_pairwise [HasSqrt K] (hr : Rounding rd) {X B : K} (hB : 0 ≤ B) (hX : rd X = X) (hX1 : 1 ≤ X) [BandOps] {ratio : ℚ} {L : ℕ} {m : Metric}
    (hs : m = .euclidean → LawfulSqrt K) (hN : NoOverflow rd X B (2 * L) m) :
    Agree (overflowArith (rndMax rd X)) (roundedArith rd) ratio (fun pts => (∀ x ∈ pts, Below B x) ∧ pts.length ≤ L) (.pairwise m) := by
  intro a b d ha hb
  have := agree_overflow hr hB hX hX1 (le_refl (0 : ℚ)) (f := .pairwise m) hs hN a b d ha hb
  exact this

end Genex
