import Verif.Lemmas.Dataset

/-! `loadData`: failures, and loading into a used object. -/

set_option linter.unusedSectionVars false

namespace Genex

open Spec

variable {K : Type} [Field K]

/-- A token is a number. -/
def Parsed.isVal : Parsed K → Bool
  | .val _ => true
  | _ => false

theorem exists_vals {l : List (Parsed K)} (h : ∀ p ∈ l, p.isVal = true) : ∃ xs : List (Dbl K), l = xs.map Parsed.val := by
  induction l with
  | nil => exact ⟨[], rfl⟩
  | cons p ps ih =>
    obtain ⟨xs, rfl⟩ := ih (fun q hq => h q (by simp [hq]))
    have := h p (by simp)
    cases p with
    | val x => exact ⟨x :: xs, rfl⟩
    | invalid => simp [Parsed.isVal] at this
    | range => simp [Parsed.isVal] at this

theorem loadToks_fail (parse : Text → Parsed K) (raw s : ℕ) (hasName : Bool) (row w : ℕ)
    (hw : (raw : Int) - s - hn hasName = w) : ∀ (toks : List Text) (col : ℕ) (ds : Dataset K) (buf : List (Dbl K)),
    ds.data = some buf → (∃ t ∈ toks.drop (s + hn hasName - col), (parse t).isVal = false) →
    row * w + (col - (s + hn hasName)) + (toks.drop (s + hn hasName - col)).length ≤ buf.length →
    ∃ msg, Dataset.loadToks parse raw s hasName row toks col ds = (ds.clearData, .error (.genex msg)) := by
  intro toks
  induction toks with
  | nil => rintro col ds buf hd ⟨t, ht, -⟩ hb; simp at ht
  | cons t ts ih =>
    intro col ds buf hd hx hb
    unfold Dataset.loadToks
    by_cases h1 : s ≤ col
    · rw [if_pos (by exact_mod_cast h1)]
      by_cases h2 : col = s ∧ hasName = true
      · obtain ⟨rfl, rfl⟩ := h2
        rw [if_pos ⟨rfl, rfl⟩]
        simp only [hn, if_true, Nat.add_sub_cancel_left, List.drop_one, List.tail_cons] at hx hb ⊢
        exact ih (col + 1) { ds with names := ds.names ++ [t] } buf hd (by simpa [hn] using hx)
          (by simp only [hn, if_true, Nat.sub_self, List.drop_zero]; omega)
      · rw [if_neg (by
          rintro ⟨h, h'⟩
          exact h2 ⟨by exact_mod_cast h, h'⟩)]
        have h3 : s + hn hasName ≤ col := by
          unfold hn
          cases hasName
          · simpa using h1
          · simp only [if_true] at *
            rcases Nat.lt_or_ge s col with h | h
            · omega
            · exact absurd ⟨by omega, trivial⟩ h2
        rw [show s + hn hasName - col = 0 by omega, List.drop_zero] at hx hb
        simp only [List.length_cons] at hb
        cases hp : parse t with
        | invalid => exact ⟨_, rfl⟩
        | range => exact ⟨_, rfl⟩
        | val x =>
          have hidx : ((row : Int) * ((raw : Int) - s - b2i hasName) + ((col : Int) - s - b2i hasName)) =
              ((row * w + (col - (s + hn hasName)) : ℕ) : Int) := by
            rw [b2i_hn, hw]
            push_cast [Nat.cast_sub h3]
            ring
          have hwr : ds.write ((row : Int) * ((raw : Int) - s - b2i hasName) + ((col : Int) - s - b2i hasName)) x =
              .ok { ds with data := some (buf.set (row * w + (col - (s + hn hasName))) x) } := by
            rw [hidx]
            unfold Dataset.write
            rw [hd]
            simp only
            rw [if_pos ⟨by omega, by omega⟩, Int.toNat_natCast]
          simp only [hwr]
          obtain ⟨t', ht', hb'⟩ := hx
          rcases List.mem_cons.1 ht' with rfl | ht'
          · rw [hp] at hb'; simp [Parsed.isVal] at hb'
          · exact ih (col + 1) { ds with data := some (buf.set (row * w + (col - (s + hn hasName))) x) }
              (buf.set (row * w + (col - (s + hn hasName))) x) rfl
              ⟨t', by rw [show s + hn hasName - (col + 1) = 0 by omega]; exact ht', hb'⟩
              (by rw [show s + hn hasName - (col + 1) = 0 by omega, List.drop_zero, List.length_set]; omega)
    · rw [if_neg (by
        intro h
        exact h1 (by exact_mod_cast h))]
      rw [show s + hn hasName - col = (s + hn hasName - (col + 1)) + 1 by omega, List.drop_succ_cons] at hx hb
      exact ih (col + 1) ds buf hd hx (by omega)

theorem loadRows_fail (parse : Text → Parsed K) (sep : List Char) (raw s : ℕ) (hasName : Bool) (w : ℕ)
    (hw : (raw : Int) - s - hn hasName = w) : ∀ (lines : List Text) (row : ℕ) (ds : Dataset K) (buf : List (Dbl K)),
    ds.data = some buf →
    (∃ l ∈ lines, ∃ p ∈ lineVals parse sep (s + hn hasName) l, p.isVal = false) →
    (∀ l ∈ lines, (tokens sep l).length ≤ raw) →
    (row + lines.length) * w ≤ buf.length →
    ∃ msg L, Dataset.loadRows parse sep raw s hasName lines row ds =
      ({ ds.clearData with lengths := L }, .error (.genex msg)) := by
  intro lines
  induction lines with
  | nil => rintro row ds buf hd ⟨l, hl, -⟩; simp at hl
  | cons l ls ih =>
    intro row ds buf hd hx hl hb
    have hl1 := hl l (by simp)
    have hb' : row * w + ((tokens sep l).drop (s + hn hasName)).length ≤ buf.length := by
      simp only [List.length_cons] at hb
      rw [List.length_drop]
      have : (row + (ls.length + 1)) * w = row * w + w + ls.length * w := by ring
      have := Nat.zero_le (ls.length * w)
      have : ((tokens sep l).length : Int) ≤ raw := by exact_mod_cast hl1
      omega
    unfold Dataset.loadRows
    simp only
    by_cases hbad : ∃ p ∈ lineVals parse sep (s + hn hasName) l, p.isVal = false
    · obtain ⟨p, hp, hpv⟩ := hbad
      obtain ⟨t, ht, rfl⟩ := List.mem_map.1 hp
      obtain ⟨msg, e⟩ := loadToks_fail parse raw s hasName row w hw (tokens sep l) 0
        { ds with lengths := ds.lengths ++ [((tokens sep l).length : Int) - s - b2i hasName] } buf hd
        ⟨t, by simpa using ht, hpv⟩ (by simpa using hb')
      rw [e]
      exact ⟨msg, _, rfl⟩
    · obtain ⟨xs, hxs⟩ := exists_vals (l := lineVals parse sep (s + hn hasName) l) (fun p hp => by
        by_contra hc
        exact hbad ⟨p, hp, by simpa using hc⟩)
      have hlen : xs.length = ((tokens sep l).drop (s + hn hasName)).length := by
        have := congrArg List.length hxs
        simpa [lineVals] using this.symm
      rw [loadToks_ok parse raw s hasName row w hw (tokens sep l) 0
        { ds with lengths := ds.lengths ++ [((tokens sep l).length : Int) - s - b2i hasName] } buf xs hd
        (by simpa [lineVals] using hxs) (by simpa [hlen] using hb')]
      simp only [Nat.zero_sub, Nat.add_zero]
      obtain ⟨l', hl', hp'⟩ := hx
      rcases List.mem_cons.1 hl' with rfl | hl'
      · exact absurd hp' hbad
      · obtain ⟨msg, L, e⟩ := ih (row + 1)
          { ds with lengths := ds.lengths ++ [((tokens sep l).length : Int) - s - b2i hasName],
                    names := ds.names ++ nameOf hasName s (tokens sep l) 0,
                    data := some (setFrom buf (row * w) xs), itemCount := ds.itemCount + 1 }
          (setFrom buf (row * w) xs) rfl ⟨l', hl', hp'⟩ (fun l'' h'' => hl l'' (by simp [h''])) (by
            simp only [List.length_cons] at hb
            rw [setFrom_length]; rw [show row + 1 + ls.length = row + (ls.length + 1) by omega]; exact hb)
        exact ⟨msg, L, by rw [e]; rfl⟩

/-- A file with a value token that is not a number is rejected and the object is empty afterwards. -/
theorem loadData_fail (parse : Text → Parsed K) (content path : Text) (maxNumRow : Int) (s : ℕ) (sep : List Char)
    (hasName : Bool) (ds0 : Dataset K)
    (hx : ∃ l ∈ (fileLines content).take (rowsRead maxNumRow (fileLines content).length),
      ∃ p ∈ lineVals parse sep (s + hn hasName) l, p.isVal = false) :
    ∃ msg L, Dataset.loadData parse (some content) path maxNumRow s sep hasName ds0 =
      ({ ds0.clearData with lengths := L }, .error (.genex msg)) := by
  unfold Dataset.loadData
  simp only
  have e0 : (if maxNumRow ≤ 0 then (fileLines content).length else min maxNumRow.toNat (fileLines content).length) =
    rowsRead maxNumRow (fileLines content).length := rfl
  rw [e0]
  set lines := fileLines content with hlines
  set n := rowsRead maxNumRow lines.length with hn'
  set raw := Dataset.maxColumns sep lines with hraw
  have hrl : ∀ l ∈ lines.take n, (tokens sep l).length ≤ raw := fun l h => le_maxColumns sep lines l (List.mem_of_mem_take h)
  have hlen : (lines.take n).length = n := by
    rw [List.length_take]; have := rowsRead_le maxNumRow lines.length; omega
  have hw : ∃ w : ℕ, (raw : Int) - s - hn hasName = w := by
    obtain ⟨l, hl, p, hp, -⟩ := hx
    have h2 := hrl l hl
    obtain ⟨t, ht, -⟩ := List.mem_map.1 hp
    have := List.length_pos_of_mem ht
    rw [List.length_drop] at this
    exact ⟨raw - s - hn hasName, by omega⟩
  obtain ⟨w, hw⟩ := hw
  have hwr : w ≤ raw := by omega
  obtain ⟨msg, L, e⟩ := loadRows_fail parse sep raw s hasName w hw (lines.take n) 0
    { ds0.clearData with itemCount := 0, data := some (List.replicate (n * raw) 0) }
    (List.replicate (n * raw) 0) rfl hx hrl
    (by rw [hlen, Nat.zero_add, List.length_replicate]; exact Nat.mul_le_mul_left n hwr)
  rw [e]
  exact ⟨msg, L, by simp [Dataset.clearData]⟩

/-! ### Loading into a used object -/

/-- The parts of an object that `clearData` and `loadData` leave alone, put in front of another object. -/
def carry (L : List Int) (p : Text) (nz : Bool) (ds : Dataset K) : Dataset K :=
  { ds with lengths := L ++ ds.lengths, filePath := p, normalized := nz }

theorem write_carry (L : List Int) (p : Text) (nz : Bool) (ds : Dataset K) (i : Int) (x : Dbl K) :
    (carry L p nz ds).write i x = (ds.write i x).map (carry L p nz) := by
  unfold Dataset.write
  simp only [carry]
  cases ds.data with
  | none => rfl
  | some buf => simp only; split <;> rfl

theorem loadToks_carry (parse : Text → Parsed K) (raw s : Int) (hasName : Bool) (row : ℕ) (L : List Int) (p : Text)
    (nz : Bool) : ∀ (toks : List Text) (col : ℕ) (ds : Dataset K),
    Dataset.loadToks parse raw s hasName row toks col (carry L p nz ds) =
      (carry L p nz (Dataset.loadToks parse raw s hasName row toks col ds).1,
        (Dataset.loadToks parse raw s hasName row toks col ds).2) := by
  intro toks
  induction toks with
  | nil => intro col ds; rfl
  | cons t ts ih =>
    intro col ds
    unfold Dataset.loadToks
    split
    · split
      · exact ih (col + 1) { ds with names := ds.names ++ [t] }
      · cases parse t with
        | invalid => rfl
        | range => rfl
        | val x =>
          simp only [write_carry]
          generalize ds.write _ x = r
          cases r with
          | error e => rfl
          | ok d => exact ih (col + 1) d
    · exact ih (col + 1) ds

theorem loadRows_carry (parse : Text → Parsed K) (sep : List Char) (raw s : Int) (hasName : Bool) (L : List Int)
    (p : Text) (nz : Bool) : ∀ (lines : List Text) (row : ℕ) (ds : Dataset K),
    Dataset.loadRows parse sep raw s hasName lines row (carry L p nz ds) =
      (carry L p nz (Dataset.loadRows parse sep raw s hasName lines row ds).1,
        (Dataset.loadRows parse sep raw s hasName lines row ds).2) := by
  intro lines
  induction lines with
  | nil => intro row ds; rfl
  | cons l ls ih =>
    intro row ds
    unfold Dataset.loadRows
    simp only
    have e : ({ carry L p nz ds with lengths := (carry L p nz ds).lengths ++
        [((tokens sep l).length : Int) - s - b2i hasName] } : Dataset K) =
        carry L p nz { ds with lengths := ds.lengths ++ [((tokens sep l).length : Int) - s - b2i hasName] } := by
      simp [carry]
    rw [e, loadToks_carry]
    simp only
    generalize Dataset.loadToks parse raw s hasName row (tokens sep l) 0
      { ds with lengths := ds.lengths ++ [((tokens sep l).length : Int) - s - b2i hasName] } = r
    obtain ⟨r1, r2⟩ := r
    cases r2 with
    | error e => rfl
    | ok u => exact ih (row + 1) { r1 with itemCount := r1.itemCount + 1 }

/-- What loading into any object does, compared with loading into a fresh one. -/
theorem loadData_carry (parse : Text → Parsed K) (file : Option Text) (path : Text) (maxNumRow startCol : Int)
    (sep : List Char) (hasName : Bool) (ds : Dataset K) :
    let r := Dataset.loadData parse file path maxNumRow startCol sep hasName (Dataset.fresh : Dataset K)
    Dataset.loadData parse file path maxNumRow startCol sep hasName ds =
      ({ r.1 with lengths := ds.lengths ++ r.1.lengths, normalized := ds.normalized,
                  filePath := match r.2 with | .ok _ => path | .error _ => ds.filePath }, r.2) := by
  cases file with
  | none => simp [Dataset.loadData, Dataset.clearData, Dataset.fresh]
  | some content =>
    simp only [Dataset.loadData]
    set lines := fileLines content with hlines
    set n := (if maxNumRow ≤ 0 then lines.length else min maxNumRow.toNat lines.length) with hn'
    set raw := Dataset.maxColumns sep lines with hraw
    have e : ({ ds.clearData with itemCount := 0, data := some (List.replicate (n * raw) 0) } : Dataset K) =
        carry ds.lengths ds.filePath ds.normalized
          { (Dataset.fresh : Dataset K).clearData with itemCount := 0, data := some (List.replicate (n * raw) 0) } := by
      simp [carry, Dataset.clearData, Dataset.fresh]
    rw [e, loadRows_carry]
    generalize Dataset.loadRows parse sep raw startCol hasName (lines.take n) 0
      { (Dataset.fresh : Dataset K).clearData with itemCount := 0, data := some (List.replicate (n * raw) 0) } = r
    obtain ⟨r1, r2⟩ := r
    cases r2 with
    | error e => rfl
    | ok u => rfl

end Genex
