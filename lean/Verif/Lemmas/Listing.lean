import Verif.Spec.Listing
import Verif.Lemmas.Terminal
import Verif.Lemmas.DatasetFail

/-!
# Lemmas for `Props/Listing`
-/

set_option linter.unusedSectionVars false

namespace Genex.Spec

open Genex Genex.Cli Genex.Registry Genex.Api Genex.Manual Genex.Props

/-! ## The table -/

theorem cutTabs_app {l : Text} (hl : '\t' ∉ l) (t : Text) : cutTabs (l ++ '\t' :: t) = l :: cutTabs t := by
  induction l with
  | nil => simp [cutTabs]
  | cons c cs ih =>
    simp only [List.mem_cons, not_or] at hl
    rw [List.cons_append, cutTabs, if_neg (Ne.symm hl.1), ih hl.2]

theorem cutTabs_last {l : Text} (hl : '\t' ∉ l) : cutTabs l = [l] := by
  induction l with
  | nil => rfl
  | cons c cs ih =>
    simp only [List.mem_cons, not_or] at hl
    rw [cutTabs, if_neg (Ne.symm hl.1), ih hl.2]

theorem unpad_app {t : Text} (ht : t.getLast? ≠ some ' ') (n : ℕ) : unpad (t ++ List.replicate n ' ') = t := by
  unfold unpad
  rw [List.reverse_append, List.reverse_replicate]
  have h1 : ∀ (n : ℕ) (l : Text), l.head? ≠ some ' ' → (List.replicate n ' ' ++ l).dropWhile (· = ' ') = l := by
    intro n l hl
    induction n with
    | zero =>
      cases l with
      | nil => rfl
      | cons c cs =>
        have : c ≠ ' ' := fun h => hl (by rw [h]; rfl)
        simp [this]
    | succ n ih => simpa [List.replicate_succ] using ih
  rw [h1 n t.reverse (by rwa [List.head?_reverse]), List.reverse_reverse]

/-- A text filled up to a width. -/
def padded (w : ℕ) (t : Text) : Text := t ++ List.replicate (w - t.length) ' '

theorem padded_not {w : ℕ} {t : Text} {c : Char} (hc : c ≠ ' ') (ht : c ∉ t) : c ∉ padded w t := by
  unfold padded
  rw [List.mem_append, not_or]
  exact ⟨ht, fun h => hc (List.eq_of_mem_replicate h)⟩

section
variable {K : Type} [Zero K] {S : Screen K}

/-- How a dataset is grouped, as `list` says it. -/
def groupedText (S : Screen K) (m : Meta K) : Text :=
  if m.isGrouped then "Grouped (".toList ++ m.distance.toList ++ ", TS = ".toList ++ S.num 6 m.threshold ++ ")".toList
  else "Not grouped".toList

def normalizedText (m : Meta K) : Text := if m.isNormalized then "Normalized".toList else "Not normalized".toList

def rowText (S : Screen K) (m : Meta K) : Text :=
  "  ".toList ++ (padded 10 m.name.toList ++ '\t' :: (padded 35 (groupedText S m) ++ '\t' :: padded 10 (normalizedText m)))

theorem texts_dataset (m : Meta K) : Piece.texts S (datasetLine m) = rowText S m ++ ['\n'] := by
  have e : "\t".toList = ['\t'] := rfl
  unfold datasetLine rowText groupedText normalizedText padded
  cases m.isGrouped <;> cases m.isNormalized <;>
    (simp only [if_true, if_false, Bool.false_eq_true]
     generalize "  " = s1, "Grouped (" = s2, ", TS = " = s3, ")" = s4, "Not grouped" = s5, "Normalized" = s6, "Not normalized" = s7
     simp only [Piece.texts, Piece.text, List.append_assoc, List.cons_append, List.nil_append, List.append_nil, e])

/-- Names and distances without tabs and line breaks. -/
structure PlainMeta (m : Meta K) : Prop where
  name : '\n' ∉ m.name.toList ∧ '\t' ∉ m.name.toList ∧ ' ' ∉ m.name.toList
  distance : '\n' ∉ m.distance.toList ∧ '\t' ∉ m.distance.toList

theorem grouped_plain (hS : ∀ x, '\n' ∉ S.num 6 x ∧ '\t' ∉ S.num 6 x) {m : Meta K} (hm : PlainMeta m) :
    '\n' ∉ groupedText S m ∧ '\t' ∉ groupedText S m ∧ (groupedText S m).getLast? ≠ some ' ' := by
  unfold groupedText
  split
  · refine ⟨?_, ?_, ?_⟩
    · simp only [List.mem_append, not_or]
      exact ⟨⟨⟨⟨by decide, hm.distance.1⟩, by decide⟩, (hS _).1⟩, by decide⟩
    · simp only [List.mem_append, not_or]
      exact ⟨⟨⟨⟨by decide, hm.distance.2⟩, by decide⟩, (hS _).2⟩, by decide⟩
    · rw [List.getLast?_append, show ")".toList.getLast? = some ')' from rfl, Option.some_or]
      decide
  · decide

theorem normalized_plain (m : Meta K) :
    '\n' ∉ normalizedText m ∧ '\t' ∉ normalizedText m ∧ (normalizedText m).getLast? ≠ some ' ' := by
  unfold normalizedText
  split <;> decide

theorem rowText_line (hS : ∀ x, '\n' ∉ S.num 6 x ∧ '\t' ∉ S.num 6 x) {m : Meta K} (hm : PlainMeta m) : '\n' ∉ rowText S m := by
  unfold rowText
  simp only [List.mem_append, List.mem_cons, not_or]
  exact ⟨by decide, padded_not (by decide) hm.name.1, by decide, padded_not (by decide) (grouped_plain hS hm).1, by decide,
    padded_not (by decide) (normalized_plain m).1⟩

theorem readRow_rowText (hS : ∀ x, '\n' ∉ S.num 6 x ∧ '\t' ∉ S.num 6 x) {m : Meta K} (hm : PlainMeta m) :
    readRow (rowText S m) = some (m.name.toList, groupedText S m, normalizedText m) := by
  unfold readRow rowText
  rw [following_app, Option.bind_some, cutTabs_app (padded_not (by decide) hm.name.2.1),
    cutTabs_app (padded_not (by decide) (grouped_plain hS hm).2.1), cutTabs_last (padded_not (by decide) (normalized_plain m).2.1)]
  have h1 : unpad (padded 10 m.name.toList) = m.name.toList :=
    unpad_app (fun h => hm.name.2.2 (List.mem_of_getLast? h)) _
  have h2 : unpad (padded 35 (groupedText S m)) = groupedText S m := unpad_app (grouped_plain hS hm).2.2 _
  have h3 : unpad (padded 10 (normalizedText m)) = normalizedText m := unpad_app (normalized_plain m).2.2 _
  simp only [List.map_cons, List.map_nil, h1, h2, h3]

/-- The first line of the table. -/
def countText (n : ℕ) : Text := intText (n : Int) ++ " datasets loaded".toList

theorem texts_infos (timer : Bool) (d : ℕ) (args : List String) (l : List (Meta K)) :
    Piece.texts S ((report timer d args (.call .allInfo) (.infos l)).1 ++ [.endl]) =
      (([countText l.length, []] : List Text).map (· ++ ['\n'])).flatten ++ (((l.map (rowText S)).map (· ++ ['\n'])).flatten ++ ['\n']) := by
  have h : (l.map fun m => Piece.texts S (datasetLine m)) = (l.map (rowText S)).map (· ++ ['\n']) := by
    rw [List.map_map]
    exact List.map_congr_left fun m _ => texts_dataset m
  unfold report countText
  rw [texts_app, texts_app, texts_flat, h]
  generalize " datasets loaded" = s1
  simp only [Piece.texts, Piece.text, List.map_cons, List.map_nil, List.flatten_cons, List.flatten_nil, List.append_assoc, List.cons_append,
    List.nil_append, List.append_nil]

theorem countText_line (n : ℕ) : '\n' ∉ countText n ∧ readRow (countText n) = none := by
  unfold countText
  refine ⟨?_, ?_⟩
  · rw [List.mem_append, not_or]
    exact ⟨intText_noNewline _, by decide⟩
  · unfold readRow
    rw [following, if_neg, Option.bind_none]
    rintro ⟨r, hr⟩
    rw [intText_nat] at hr
    cases hd : Nat.toDigits 10 n with
    | nil => exact Nat.toDigits_ne_nil hd
    | cons c cs =>
      rw [hd] at hr
      have h1 : c.isDigit = true := Nat.isDigit_of_mem_toDigits (by norm_num) (by norm_num) (hd ▸ List.mem_cons_self)
      have h2 : some ' ' = some c := congrArg List.head? hr
      cases h2
      exact absurd h1 (by decide)

/-- The rows of the table that `list dataset` shows. -/
theorem rowsIn_infos (hS : ∀ x, '\n' ∉ S.num 6 x ∧ '\t' ∉ S.num 6 x) (timer : Bool) (d : ℕ) (args : List String) {l : List (Meta K)}
    (hl : ∀ m ∈ l, PlainMeta m) :
    rowsIn (Piece.texts S ((report timer d args (.call .allInfo) (.infos l)).1 ++ [.endl])) =
      l.map (fun m => (m.name.toList, groupedText S m, normalizedText m)) ∧
    ∃ r, textLines (Piece.texts S ((report timer d args (.call .allInfo) (.infos l)).1 ++ [.endl])) = countText l.length :: r := by
  rw [texts_infos]
  constructor
  · unfold rowsIn
    rw [filterMap_lines _ _ _ ?_ ?_ rfl]
    · rw [List.filterMap_map]
      induction l with
      | nil => rfl
      | cons m l ih =>
        rw [List.filterMap_cons_some (b := (m.name.toList, groupedText S m, normalizedText m)), List.map_cons,
          ih (fun x hx => hl x (List.mem_cons_of_mem _ hx))]
        exact readRow_rowText hS (hl m List.mem_cons_self)
    · intro x hx
      simp only [List.mem_cons, List.not_mem_nil, or_false] at hx
      rcases hx with rfl | rfl
      · exact countText_line _
      · exact ⟨by simp, rfl⟩
    · intro x hx
      obtain ⟨m, hm, rfl⟩ := List.mem_map.1 hx
      exact rowText_line hS (hl m hm)
  · rw [List.map_cons, List.flatten_cons, List.append_assoc, List.append_assoc, List.singleton_append, textLines_app (countText_line _).1]
    exact ⟨_, rfl⟩

end

/-! ## The datasets -/

section
variable {K : Type} [Field K] [LinearOrder K] [HasSqrt K] [Arith K]

theorem loadDistance_name {gs : GSpace K} {name : String} : (gs.loadDistance name).1.distanceName = name := by
  unfold GSpace.loadDistance
  simp only
  repeat' split
  all_goals rfl

theorem loadDistance_ok {gs : GSpace K} {name : String} {u : Unit} (h : (gs.loadDistance name).2 = .ok u) : name ∈ gAllDistanceName := by
  unfold GSpace.loadDistance at h
  cases hd : getDistanceFromName name with
  | error e => rw [hd] at h; cases h
  | ok p =>
    unfold getDistanceFromName at hd
    split at hd
    · rename_i d hl
      rw [← show (gAllDistanceName.zip gAllDistance).map Prod.fst = gAllDistanceName from rfl]
      exact lookup_mem hl
    · cases hd

theorem prepare_name {ds : Dataset K} {name : String} {t : Dbl K} {whole : Bool} {gs : GSpace K} :
    (gs.prepare ds name t whole).1.distanceName = name := by
  unfold GSpace.prepare
  simp only
  repeat' split
  all_goals exact loadDistance_name

theorem groupLoop_name {f : ℕ → Option (LocalSpace K) × Res ℕ} {is : List ℕ} {gs : GSpace K} :
    (GSpace.groupLoop f is gs).1.distanceName = gs.distanceName := by
  induction is generalizing gs with
  | nil => rfl
  | cons i is ih =>
    unfold GSpace.groupLoop
    simp only
    split
    · rfl
    · rw [ih]

/-- Grouping: the groups are as before, or the name of the distance is the one given, or there is none. -/
theorem groupAll_name [BandOps] {ratio : ℚ} {log : ℕ → Bool} {name : String} {t : Dbl K} {whole : Bool} {numThreads : Int}
    {g : GSet K} {out : GSet K × Res Int} (h : g.GroupAll ratio log name t whole numThreads out) :
    out.1.groups = g.groups ∨ ∃ gs, out.1.groups = some gs ∧ (gs.distanceName = name ∨ gs.distanceName = "") := by
  obtain ⟨multi, hm, rfl⟩ := h
  unfold GSet.groupAllLengths
  simp only
  split
  · exact .inl rfl
  · by_cases h1 : numThreads = 1
    · rw [if_pos h1]
      refine .inr ⟨_, rfl, .inl ?_⟩
      simp only [GSpace.group]
      cases hp : ((GSpace.fresh : GSpace K).prepare g.ds name t whole).2 with
      | error e => exact prepare_name
      | ok p =>
        simp only
        rw [groupLoop_name, prepare_name]
    · rw [if_neg h1]
      by_cases h2 : 1 < numThreads
      · rw [if_pos h2]
        refine .inr ⟨_, rfl, ?_⟩
        cases hm h2 with
        | fails e h => exact .inl prepare_name
        | undefined => exact .inl prepare_name
        | runs p hp k m s hr hd _ => exact .inl prepare_name
      · rw [if_neg h2]
        exact .inr ⟨_, rfl, .inr rfl⟩

/-- Grouping that returns: the distance and the threshold are those given. -/
theorem groupAll_status [BandOps] {ratio : ℚ} {log : ℕ → Bool} {name : String} {t : Dbl K} {whole : Bool} {numThreads : Int}
    {g : GSet K} {out : GSet K × Res Int} (h : g.GroupAll ratio log name t whole numThreads out) {z : Int} (hz : out.2 = .ok z) :
    ∃ gs, out.1.groups = some gs ∧ gs.distanceName = name ∧ gs.threshold = some t := by
  obtain ⟨multi, hm, rfl⟩ := h
  unfold GSet.groupAllLengths at hz ⊢
  simp only at hz ⊢
  split
  · rename_i hd
    rw [hd] at hz
    cases hz
  · rename_i d hd
    rw [hd] at hz
    simp only at hz
    by_cases h1 : numThreads = 1
    · rw [if_pos h1] at hz ⊢
      refine ⟨_, rfl, ?_⟩
      simp only [GSpace.group] at hz ⊢
      cases hp : ((GSpace.fresh : GSpace K).prepare g.ds name t whole).2 with
      | error e => rw [hp] at hz; cases hz
      | ok p =>
        simp only
        rw [groupLoop_threshold, groupLoop_name, prepare_threshold hp, prepare_name]
        exact ⟨rfl, rfl⟩
    · rw [if_neg h1] at hz ⊢
      by_cases h2 : 1 < numThreads
      · rw [if_pos h2] at hz ⊢
        refine ⟨_, rfl, ?_⟩
        cases hm h2 with
        | fails e h => cases hz
        | undefined => cases hz
        | runs p hp k m s hr hd _ => exact ⟨prepare_name, prepare_threshold hp⟩
      · rw [if_neg h2] at hz
        cases hz

theorem rdInt_ok {ts ts' : List (Tok K)} {z : Int} (h : rdInt ts = .ok (z, ts')) : ts = .int z :: ts' := by
  unfold rdInt at h
  split at h <;> cases h
  rfl

theorem rdSize_ok {ts ts' : List (Tok K)} {z : ℕ} (h : rdSize ts = .ok (z, ts')) : ts = .size z :: ts' := by
  unfold rdSize at h
  split at h <;> cases h
  rfl

theorem rdStr_ok {ts ts' : List (Tok K)} {z : String} (h : rdStr ts = .ok (z, ts')) : ts = .str z :: ts' := by
  unfold rdStr at h
  split at h <;> cases h
  rfl

theorem rdDbl_ok {ts ts' : List (Tok K)} {z : Dbl K} (h : rdDbl ts = .ok (z, ts')) : ts = .dbl z :: ts' := by
  unfold rdDbl at h
  split at h <;> cases h
  rfl

theorem loadLoop_name {ds : Dataset K} {is : List ℕ} {gs : GSpace K} {ts : List (Tok K)} :
    (GSpace.loadLoop ds is gs ts).1.distanceName = gs.distanceName := by
  induction is generalizing gs ts with
  | nil => rfl
  | cons i is ih =>
    unfold GSpace.loadLoop
    split
    · rfl
    · split
      · rfl
      · rw [ih]

theorem gspaceLoad_status {ds : Dataset K} {gs : GSpace K} {ts : List (Tok K)} {x : List (Tok K)}
    (h : (GSpace.load ds gs ts).2 = .ok x) : ∃ lo hi d t rest, ts = .size lo :: .size hi :: .str d :: .dbl t :: rest ∧
      (GSpace.load ds gs ts).1.distanceName = d ∧ (GSpace.load ds gs ts).1.threshold = some t ∧ d ∈ gAllDistanceName := by
  unfold GSpace.load at h ⊢
  cases h1 : rdSize ts with
  | error e => rw [h1] at h; cases h
  | ok a =>
    obtain ⟨lo, ts1⟩ := a
    rw [h1] at h
    simp only at h ⊢
    cases h2 : rdSize ts1 with
    | error e => rw [h2] at h; cases h
    | ok a =>
      obtain ⟨hi, ts2⟩ := a
      rw [h2] at h
      simp only at h ⊢
      cases h3 : rdStr ts2 with
      | error e => rw [h3] at h; cases h
      | ok a =>
        obtain ⟨d, ts3⟩ := a
        rw [h3] at h
        simp only at h ⊢
        cases h4 : rdDbl ts3 with
        | error e => rw [h4] at h; cases h
        | ok a =>
          obtain ⟨t, ts4⟩ := a
          rw [h4] at h
          simp only at h ⊢
          refine ⟨lo, hi, d, t, ts4, ?_, ?_⟩
          · rw [rdSize_ok h1, rdSize_ok h2, rdStr_ok h3, rdDbl_ok h4]
          · split at h
            · cases h
            rename_i u hu
            refine and_assoc.1 ⟨?_, loadDistance_ok hu⟩
            split at h
            · cases h
            rw [if_neg ‹_›, loadLoop_name, loadLoop_threshold]
            exact ⟨loadDistance_name, loadDistance_threshold⟩

theorem loadFromFile_status {g : GSet K} {file : Option (List (Tok K))} {u : Unit} (h : (g.loadFromFile file).2 = .ok u) :
    ∃ n len lo hi d t rest, file = some (.int n :: .int len :: .size lo :: .size hi :: .str d :: .dbl t :: rest) ∧
      d ∈ gAllDistanceName ∧ ∃ gs, (g.loadFromFile file).1.groups = some gs ∧ gs.distanceName = d ∧ gs.threshold = some t := by
  unfold GSet.loadFromFile at h ⊢
  cases file with
  | none => cases h
  | some ts =>
    simp only at h ⊢
    unfold GSet.load at h ⊢
    cases h1 : rdInt ts with
    | error e => rw [h1] at h; cases h
    | ok a =>
      obtain ⟨n, ts1⟩ := a
      rw [h1] at h
      simp only at h ⊢
      cases h2 : rdInt ts1 with
      | error e => rw [h2] at h; cases h
      | ok a =>
        obtain ⟨len, ts2⟩ := a
        rw [h2] at h
        simp only at h ⊢
        split at h
        · cases h
        rename_i hc
        split at h
        · cases h
        rename_i hc2
        cases hx : (GSpace.load g.ds GSpace.fresh ts2).2 with
        | error e => rw [hx] at h; cases h
        | ok x =>
          obtain ⟨lo, hi, d, t, rest, e1, e2, e3, e4⟩ := gspaceLoad_status hx
          refine ⟨n, len, lo, hi, d, t, rest, ?_, e4, ?_⟩
          · rw [rdInt_ok h1, rdInt_ok h2, e1]
          · rw [if_neg hc, if_neg hc2]
            exact ⟨_, rfl, e2, e3⟩

theorem loadData_unnormalized (parse : Text → Parsed K) (file : Option Text) (path : Text) (maxNumRow startCol : Int)
    (sep : List Char) (hasName : Bool) :
    (Dataset.loadData parse file path maxNumRow startCol sep hasName (Dataset.fresh : Dataset K)).1.normalized = false := by
  rw [loadData_carry]
  rfl

/-- The name of a distance is within a column. -/
def PlainGroups (g : GSet K) : Prop := ∀ gs, g.groups = some gs → '\n' ∉ gs.distanceName.toList ∧ '\t' ∉ gs.distanceName.toList

theorem step_plain [BandOps] {E : Env K} {s s' : Api K} {c : AnyCall K} {r : Reply K} (hI : Inv s) (h : Api.Step E s c s' r)
    {name : String} (hk : ∀ g, Registry.Holds s name g → PlainGroups g)
    (hg' : ∀ t d n w, c = .group name t d n w → '\n' ∉ d.toList ∧ '\t' ∉ d.toList)
    (hs : (∃ f, c = .call (.loadGroups name f)) → ∃ o, r = .ret (.ok o))
    (hso : ∀ f, c ≠ .call (.loadGroupsOld name f)) :
    ∀ g, Registry.Holds s' name g → PlainGroups g := by
  have hE := step_eff hI h
  have hI' := inv_eff hI hE
  by_cases hn : Changes c ∧ (name ∈ named c ∨ c = .call .unloadAll)
  swap
  · intro g hg
    exact hk g ((holds_eff hI hE hn g).2 hg)
  intro x hx
  obtain ⟨hch, hn⟩ := hn
  cases c with
  | group n t distance numThreads whole =>
    have : name = n := by
      rcases hn with hn | hn
      · exact List.mem_singleton.1 hn
      · cases hn
    subst this
    unfold Api.Step GroupCall at h
    simp only at h
    rcases hI.cases name with hf | ⟨id, g, hf, hg⟩
    · rw [hf] at h
      obtain ⟨rfl, rfl⟩ := h
      exact hk x hx
    · rw [hf] at h
      simp only [hg] at h
      obtain ⟨log, out, hout, rfl, rfl⟩ := h
      rw [holds_store hI hf hx]
      rcases groupAll_name hout with h1 | ⟨gs, h1, h2⟩
      · intro gs hgs
        rw [h1] at hgs
        exact hk g ((hI.holds).2 ⟨id, hf, hg⟩) gs hgs
      · intro gs' hgs
        rw [h1] at hgs
        cases hgs
        rcases h2 with h2 | h2
        · rw [h2]
          exact hg' _ _ _ _ rfl
        · rw [h2]
          exact ⟨by decide, by decide⟩
  | call c =>
    change s.exec E c = (s', r) at h
    cases c <;> first | exact hch.elim | skip
    case load n file path sep maxNumRow startCol hasName =>
      have : name = n := by
        rcases hn with hn | hn
        · exact List.mem_singleton.1 hn
        · cases hn
      subst this
      simp only [exec] at h
      cases hf : mapFind s.datasets name with
      | some id =>
        rw [hf] at h
        cases h
        exact hk x hx
      | none =>
        rw [hf] at h
        simp only at h
        have hno : ∀ (o : Option (GSet K)), ¬ Registry.Holds { s with heap := s.heap ++ [o] } name x := by
          rintro o ⟨id, hm, -⟩
          exact mapFind_none.1 hf id hm
        split at h
        · cases h
          exact absurd hx (hno _)
        · cases h
          exact absurd hx (hno _)
        · cases h
          obtain ⟨id, hm, hg⟩ := hx
          rcases mem_mapSet hm with h1 | h1
          · cases h1
            simp only [List.getElem?_concat_length] at hg
            cases hg
            intro gs hgs
            cases hgs
          · exact absurd h1 (mapFind_none.1 hf id)
    case unload n =>
      have : name = n := by
        rcases hn with hn | hn
        · exact List.mem_singleton.1 hn
        · cases hn
      subst this
      simp only [exec] at h
      rcases hI.cases name with hf | ⟨id, g, hf, hg⟩
      · rw [withSet_none hf] at h
        cases h
        exact hk x hx
      · rw [withSet_some hf hg] at h
        have hdel : s.delete id = some { s with heap := s.heap.set id none } := by
          unfold delete
          rw [hg]
          rfl
        simp only [hdel] at h
        cases h
        obtain ⟨id', hm, -⟩ := hx
        exact absurd rfl (mem_mapErase.1 hm).2
    case unloadAll =>
      simp only [exec] at h
      obtain ⟨t, ht, -, -⟩ := deleteAll_some (s := s) hI.ids hI.live
      rw [ht] at h
      cases h
      obtain ⟨id', hm, -⟩ := hx
      cases hm
    case normalize n =>
      have : name = n := by
        rcases hn with hn | hn
        · exact List.mem_singleton.1 hn
        · cases hn
      subst this
      simp only [exec] at h
      rcases hI.cases name with hf | ⟨id, g, hf, hg⟩
      · rw [withSet_none hf] at h
        cases h
        exact hk x hx
      · rw [withSet_some hf hg] at h
        split at h
        · cases h
          exact hk x hx
        · cases h
          rw [holds_store hI hf hx]
          intro gs hgs
          exact hk g ((hI.holds).2 ⟨id, hf, hg⟩) gs hgs
    case loadGroups n file =>
      have : name = n := by
        rcases hn with hn | hn
        · exact List.mem_singleton.1 hn
        · cases hn
      subst this
      simp only [exec] at h
      rcases hI.cases name with hf | ⟨id, g, hf, hg⟩
      · rw [withSet_none hf] at h
        cases h
        exact hk x hx
      · rw [withSet_some hf hg] at h
        cases h
        obtain ⟨o, ho⟩ := hs ⟨_, rfl⟩
        rw [holds_store hI hf hx]
        cases hz : (g.loadFromFile file).2 with
        | error e => rw [hz] at ho; cases ho
        | ok z =>
          obtain ⟨_, _, _, _, d, _, _, _, e4, gs, e1, e2, _⟩ := loadFromFile_status hz
          intro gs' hgs
          rw [e1] at hgs
          cases hgs
          rw [e2]
          have : ∀ d ∈ gAllDistanceName, '\n' ∉ d.toList ∧ '\t' ∉ d.toList := by decide
          exact this d e4
    case loadGroupsOld n file =>
      have : name = n := by
        rcases hn with hn | hn
        · exact List.mem_singleton.1 hn
        · cases hn
      subst this
      exact absurd rfl (hso _)

/-- What the datasets are like, for a status. -/
def Matches (s : Api K) (name : String) : Option (Bool × Option (String × Dbl K)) → Prop
  | none => ∀ g, ¬ Registry.Holds s name g
  | some (b, none) => ∃ g, Registry.Holds s name g ∧ g.ds.normalized = b ∧ g.groups = none
  | some (b, some (d, t)) => ∃ g, Registry.Holds s name g ∧ g.ds.normalized = b ∧ ∃ gs, g.groups = some gs ∧ gs.distanceName = d ∧ gs.threshold = some t

theorem matches_same {s s' : Api K} {name : String} {st : Option (Bool × Option (String × Dbl K))} (h : SameAt s s' name)
    (hm : Matches s name st) : Matches s' name st := by
  match st, hm with
  | none, hm => exact fun g hg => hm g ((h g).2 hg)
  | some (b, none), ⟨g, h1, h2⟩ => exact ⟨g, (h g).1 h1, h2⟩
  | some (b, some (d, t)), ⟨g, h1, h2⟩ => exact ⟨g, (h g).1 h1, h2⟩

theorem matches_held {s : Api K} {name : String} {b : Bool} {o : Option (String × Dbl K)} (hm : Matches s name (some (b, o))) :
    ∃ g, Registry.Holds s name g ∧ g.ds.normalized = b ∧ match o with
      | none => g.groups = none
      | some (d, t) => ∃ gs, g.groups = some gs ∧ gs.distanceName = d ∧ gs.threshold = some t := by
  match o, hm with
  | none, hm => exact hm
  | some (d, t), hm => exact hm

theorem matches_mk {s : Api K} {name : String} {b : Bool} {o : Option (String × Dbl K)} (hm : ∃ g, Registry.Holds s name g ∧ g.ds.normalized = b ∧
    match o with
      | none => g.groups = none
      | some (d, t) => ∃ gs, g.groups = some gs ∧ gs.distanceName = d ∧ gs.threshold = some t) : Matches s name (some (b, o)) := by
  match o, hm with
  | none, hm => exact hm
  | some (d, t), hm => exact hm

theorem load_matches [BandOps] {E : Env K} {s s' : Api K} {name : String} {f p sep m c b} {o : Out K} (hI : Inv s)
    (h : Api.Step E s (.call (.load name f p sep m c b)) s' (.ret (.ok o))) : Matches s' name (some (false, none)) ∧ ∃ x, o = .info x ∧ x.name = name := by
  have hI' := inv_step hI h
  change s.exec E _ = _ at h
  simp only [exec] at h
  cases hf : mapFind s.datasets name with
  | some id => rw [hf] at h; cases h
  | none =>
    rw [hf] at h
    simp only at h
    split at h
    · cases h
    · cases h
    · rw [metaOf_ungrouped] at h
      cases h
      refine ⟨⟨_, hI'.holds.2 ⟨s.heap.length, ?_, deref_some.2 List.getElem?_concat_length⟩, loadData_unnormalized .., rfl⟩, _, rfl, rfl⟩
      simp only [mapFind_mapSet, if_true]

theorem unload_matches [BandOps] {E : Env K} {s s' : Api K} {name : String} {o : Out K} (hI : Inv s)
    (h : Api.Step E s (.call (.unload name)) s' (.ret (.ok o))) : Matches s' name none ∧ o = .unit := by
  change s.exec E _ = _ at h
  simp only [exec] at h
  rcases hI.cases name with hf | ⟨id, g, hf, hg⟩
  · rw [withSet_none hf] at h
    cases h
  · rw [withSet_some hf hg] at h
    have hdel : s.delete id = some { s with heap := s.heap.set id none } := by
      unfold delete
      rw [hg]
      rfl
    simp only [hdel] at h
    cases h
    refine ⟨?_, rfl⟩
    rintro x ⟨id', hm, -⟩
    exact absurd rfl (mem_mapErase.1 hm).2

theorem normalize_matches [BandOps] (hM : Marks K) {E : Env K} {s s' : Api K} {name : String} {o : Out K} (hI : Inv s)
    (h : Api.Step E s (.call (.normalize name)) s' (.ret (.ok o))) {b : Bool} {g : Option (String × Dbl K)}
    (hm : Matches s name (some (b, g))) : Matches s' name (some (true, g)) ∧ ∃ p, o = .pair p := by
  change s.exec E _ = _ at h
  simp only [exec] at h
  obtain ⟨x, hx, -, hx3⟩ := matches_held hm
  obtain ⟨id, hf, hg⟩ := hI.holds.1 hx
  rw [withSet_some hf hg] at h
  split at h
  · cases h
  · rename_i ds p hn
    cases h
    refine ⟨matches_mk ⟨_, holds_self_store hf hg, hM _ _ _ hn, ?_⟩, p, rfl⟩
    cases g <;> exact hx3

theorem normalize_pair [BandOps] {E : Env K} {s s' : Api K} {name : String} {o : Out K} (hI : Inv s)
    (h : Api.Step E s (.call (.normalize name)) s' (.ret (.ok o))) : ∃ p, o = .pair p := by
  change s.exec E _ = _ at h
  simp only [exec] at h
  rcases hI.cases name with hf | ⟨id, g, hf, hg⟩
  · rw [withSet_none hf] at h
    cases h
  · rw [withSet_some hf hg] at h
    split at h
    · cases h
    · cases h
      exact ⟨_, rfl⟩

theorem group_matches [BandOps] {E : Env K} {s s' : Api K} {name d : String} {t : Dbl K} {n : Int} {w : Bool} {o : Out K} (hI : Inv s)
    (h : Api.Step E s (.group name t d n w) s' (.ret (.ok o))) {b : Bool} {g : Option (String × Dbl K)}
    (hm : Matches s name (some (b, g))) : Matches s' name (some (b, some (d, t))) := by
  obtain ⟨x, hx, hx2, -⟩ := matches_held hm
  obtain ⟨id, hf, hg⟩ := hI.holds.1 hx
  unfold Api.Step GroupCall at h
  simp only at h
  rw [hf] at h
  simp only [hg] at h
  obtain ⟨log, out, hout, rfl, ho⟩ := h
  cases hz : out.2 with
  | error e => rw [hz] at ho; cases ho
  | ok z =>
    exact matches_mk ⟨_, holds_self_store hf hg, by rw [groupAll_ds hout]; exact hx2, groupAll_status hout hz⟩

theorem loadGroups_matches [BandOps] {E : Env K} {s s' : Api K} {name d : String} {t : Dbl K} {n len : Int} {lo hi : ℕ}
    {rest : List (Tok K)} {o : Out K} (hI : Inv s)
    (h : Api.Step E s (.call (.loadGroups name (some (.int n :: .int len :: .size lo :: .size hi :: .str d :: .dbl t :: rest)))) s'
      (.ret (.ok o))) {b : Bool} {g : Option (String × Dbl K)}
    (hm : Matches s name (some (b, g))) : Matches s' name (some (b, some (d, t))) := by
  obtain ⟨x, hx, hx2, -⟩ := matches_held hm
  obtain ⟨id, hf, hg⟩ := hI.holds.1 hx
  change s.exec E _ = _ at h
  simp only [exec] at h
  rw [withSet_some hf hg] at h
  simp only [Prod.mk.injEq] at h
  obtain ⟨rfl, ho⟩ := h
  generalize hfile : some (Tok.int n :: .int len :: .size lo :: .size hi :: .str d :: .dbl t :: rest) = file at ho
  cases hz : (x.loadFromFile file).2 with
  | error e => rw [hz] at ho; cases ho
  | ok z =>
    obtain ⟨_, _, _, _, _, _, _, e5, -, gs, e1, e2, e3⟩ := loadFromFile_status hz
    rw [← hfile] at e5
    cases e5
    exact matches_mk ⟨_, holds_self_store hf hg, by rw [loadFromFile_ds]; exact hx2, gs, e1, e2, e3⟩

/-- Loading, unloading and normalizing that fail leave the datasets as they are. -/
theorem refused_same [BandOps] {E : Env K} {s s' : Api K} {c : Call K} {f : Fault} (hI : Inv s)
    (h : Api.Step E s (.call c) s' (.ret (.error f)))
    (hc : (∃ n f p sep m k b, c = .load n f p sep m k b) ∨ (∃ n, c = .unload n) ∨ ∃ n, c = .normalize n) (name : String) : SameAt s s' name := by
  change s.exec E _ = _ at h
  rcases hc with ⟨n, fl, p, sep, m, k, b, rfl⟩ | ⟨n, rfl⟩ | ⟨n, rfl⟩
  · have hstep : Api.Step E s (.call (.load n fl p sep m k b)) s' (.ret (.error f)) := h
    have hI' := inv_step hI hstep
    have key : s'.datasets = s.datasets ∧ (s'.heap = s.heap ∨ ∃ o, s'.heap = s.heap ++ [o]) := by
      simp only [exec] at h
      split at h
      · cases h; exact ⟨rfl, .inl rfl⟩
      · split at h
        · cases h; exact ⟨rfl, .inr ⟨_, rfl⟩⟩
        · cases h; exact ⟨rfl, .inr ⟨_, rfl⟩⟩
        · rw [metaOf_ungrouped] at h
          cases h
    intro x
    rw [hI.holds, hI'.holds, key.1]
    refine exists_congr fun id => and_congr_right fun hid => ?_
    obtain ⟨g, hg⟩ := hI.find hid
    rw [deref_some] at hg ⊢
    rw [deref_some]
    rcases key.2 with e | ⟨o, e⟩
    · rw [e]
    · rw [e, List.getElem?_append_left (List.getElem?_eq_some_iff.1 hg).1]
  · simp only [exec] at h
    rcases hI.cases n with hf | ⟨id, g, hf, hg⟩
    · rw [withSet_none hf] at h
      cases h
      exact fun _ => Iff.rfl
    · rw [withSet_some hf hg] at h
      split at h <;> cases h
  · simp only [exec] at h
    rcases hI.cases n with hf | ⟨id, g, hf, hg⟩
    · rw [withSet_none hf] at h
      cases h
      exact fun _ => Iff.rfl
    · rw [withSet_some hf hg] at h
      split at h
      · cases h
        exact fun _ => Iff.rfl
      · cases h

end

/-! ## The lines -/

section
variable {K : Type}

theorem tokens_blank {l cur : List Char} (hcur : ' ' ∉ cur) : ∀ w ∈ Cli.tokens l cur, ' ' ∉ w := by
  induction l generalizing cur with
  | nil =>
    intro w hw
    rw [Cli.tokens] at hw
    split at hw
    · cases hw
    · rw [List.mem_singleton.1 hw]
      simpa using hcur
  | cons c cs ih =>
    intro w hw
    rw [Cli.tokens] at hw
    split at hw
    · split at hw
      · exact ih (by simp) w hw
      · rcases List.mem_cons.1 hw with rfl | hw
        · simpa using hcur
        · exact ih (by simp) w hw
    · rename_i hc
      exact ih (by simp only [List.mem_cons, not_or]; exact ⟨Ne.symm hc, hcur⟩) w hw

theorem arg_char {line : String} {c : Char} (hl : c ∉ line.toList) (i : ℕ) : c ∉ (arg (splitLine line) i).toList := by
  unfold arg
  rw [List.getD_eq_getElem?_getD]
  cases h : (splitLine line)[i]? with
  | none => simp
  | some w =>
    have hm := List.mem_of_getElem? h
    unfold splitLine at hm
    obtain ⟨v, hv, rfl⟩ := List.mem_map.1 hm
    rw [Option.getD_some, String.toList_ofList]
    intro hc
    rcases tokens_chars hv hc with h | h
    · exact hl h
    · cases h

theorem arg_blank {line : String} (i : ℕ) : ' ' ∉ (arg (splitLine line) i).toList := by
  unfold arg
  rw [List.getD_eq_getElem?_getD]
  cases h : (splitLine line)[i]? with
  | none => simp
  | some w =>
    have hm := List.mem_of_getElem? h
    unfold splitLine at hm
    obtain ⟨v, hv, rfl⟩ := List.mem_map.1 hm
    rw [Option.getD_some, String.toList_ofList]
    exact tokens_blank (by simp) v hv

theorem call_group {P : CliEnv K} {line : String} {n : String} {t : Dbl K} {d : String} {k : Int} {w : Bool}
    (h : processLine P line = .run (.ok (.call (.group n t d k w)))) : d = "euclidean" ∨ d = arg (splitLine line) 3 := by
  obtain ⟨h0, -, -⟩ := call_change h
  obtain ⟨f, hf, hr, -⟩ := process_command h
  rw [h0] at hf
  cases hf
  unfold Cli.group at hr
  split at hr
  · cases hr
  obtain ⟨_, -, hr⟩ := res_bind hr
  cases hr
  split
  · exact .inr rfl
  · exact .inl rfl

/-- What a line that begins with `load`, `unload` or `normalize` does. -/
theorem call_data {P : CliEnv K} {line : String} {a : AnyCall K} (h : processLine P line = .run (.ok (.call a)))
    (h0 : arg (splitLine line) 0 ∈ ["load", "unload", "normalize"]) :
    (∃ f p sep m k b, a = .call (.load (arg (splitLine line) 1) f p sep m k b)) ∨ a = .call (.unload (arg (splitLine line) 1)) ∨
      a = .call (.normalize (arg (splitLine line) 1)) := by
  obtain ⟨f, hf, hr, -⟩ := process_command h
  simp only [List.mem_cons, List.not_mem_nil, or_false] at h0
  rcases h0 with h0 | h0 | h0 <;> rw [h0] at hf <;> cases hf
  · unfold Cli.load at hr
    split at hr
    · cases hr
    obtain ⟨_, -, hr⟩ := res_bind hr
    obtain ⟨_, -, hr⟩ := res_bind hr
    obtain ⟨_, -, hr⟩ := res_bind hr
    cases hr
    exact .inl ⟨_, _, _, _, _, _, rfl⟩
  · unfold Cli.unload at hr
    split at hr <;> cases hr
    exact .inr (.inl rfl)
  · unfold Cli.normalize at hr
    split at hr <;> cases hr
    exact .inr (.inr rfl)

theorem words_args {line cmd name : String} {ws : List Text} (h : Words line.toList (cmd.toList :: name.toList :: ws)) :
    arg (splitLine line) 0 = cmd ∧ arg (splitLine line) 1 = name := by
  unfold splitLine
  rw [words_unique h]
  simp [arg]

theorem fine_lines {L : List Text} (hL : ∀ l ∈ L, '\n' ∉ l ∧ ¬ "Error! ".toList <+: l) :
    ¬ HasLine "Error! " ((L.map (· ++ ['\n'])).flatten ++ ['\n']) := by
  rintro ⟨l, hm, hp⟩
  rw [textLines_flat _ (fun l hl => (hL l hl).1)] at hm
  rcases List.mem_append.1 hm with hm | hm
  · exact (hL l hm).2 hp
  · have e : textLines ['\n'] = [[], []] := rfl
    rw [e] at hm
    have : l = [] := by simpa using hm
    rw [this] at hp
    exact absurd hp (by decide)

theorem head_not {a b : Text} {c : Char} (h : b.head? = some c) (hc : c ≠ 'E') (hb : '\n' ∉ b) (ha : '\n' ∉ a) :
    '\n' ∉ b ++ a ∧ ¬ "Error! ".toList <+: b ++ a := by
  refine ⟨by rw [List.mem_append, not_or]; exact ⟨hb, ha⟩, ?_⟩
  rintro ⟨r, hr⟩
  have h1 : some 'E' = (b ++ a).head? := congrArg List.head? hr
  rw [List.head?_append, h, Option.some_or] at h1
  cases h1
  exact hc rfl

end

section
variable {K : Type} [Field K] [LinearOrder K] [HasSqrt K] [Arith K] [BandOps]

theorem load_fine {S : Screen K} {timer : Bool} {d : ℕ} {args : List String} {n f p sep mr k b} {m : Meta K} (hm : '\n' ∉ m.name.toList) :
    ¬ HasLine "Error! " (Piece.texts S (before (.call (.load n f p sep mr k b)) ++
      (report timer d args (.call (.load n f p sep mr k b)) (.info m)).1 ++ [.endl])) := by
  have ht : Piece.texts S (before (.call (.load n f p sep mr k b)) ++
      (report timer d args (.call (.load n f p sep mr k b)) (.info m)).1 ++ [.endl]) =
      ((["Dataset loaded                         ".toList ++ [], "  Name:        ".toList ++ m.name.toList,
        "  Item count:  ".toList ++ intText m.itemCount, "  Item length: ".toList ++ intText m.itemLength] : List Text).map
          (· ++ ['\n'])).flatten ++ ['\n'] := by
    simp only [before, report]
    generalize "Dataset loaded                         " = s1, "  Name:        " = s2, "  Item count:  " = s3, "  Item length: " = s4
    simp [Piece.texts, Piece.text]
  rw [ht]
  refine fine_lines ?_
  intro l hl
  simp only [List.mem_cons, List.not_mem_nil, or_false] at hl
  rcases hl with rfl | rfl | rfl | rfl
  · exact head_not (c := 'D') rfl (by decide) (by decide) (by simp)
  · exact head_not (c := ' ') rfl (by decide) (by decide) hm
  · exact head_not (c := ' ') rfl (by decide) (by decide) (intText_noNewline _)
  · exact head_not (c := ' ') rfl (by decide) (by decide) (intText_noNewline _)

theorem unload_fine {S : Screen K} {timer : Bool} {d : ℕ} {args : List String} {n : String} (hm : '\n' ∉ n.toList) :
    ¬ HasLine "Error! " (Piece.texts S (before (.call (.unload n)) ++ (report timer d args (.call (.unload n)) (.unit : Out K)).1 ++ [.endl])) := by
  have ht : Piece.texts S (before (.call (.unload n)) ++ (report timer d args (.call (.unload n)) (.unit : Out K)).1 ++ [.endl]) =
      ((["Dataset ".toList ++ (n.toList ++ " is unloaded".toList)] : List Text).map (· ++ ['\n'])).flatten ++ ['\n'] := by
    simp only [before, report]
    generalize "Dataset " = s1, " is unloaded" = s2
    simp [Piece.texts, Piece.text]
  rw [ht]
  refine fine_lines ?_
  intro l hl
  rw [List.mem_singleton.1 hl]
  exact head_not (c := 'D') rfl (by decide) (by decide) (by rw [List.mem_append, not_or]; exact ⟨hm, by decide⟩)

theorem normalized_fine {S : Screen K} {timer : Bool} {d : ℕ} {args : List String} {n : String} {x : Dbl K × Dbl K} (hm : '\n' ∉ n.toList) :
    ¬ HasLine "Error! " (Piece.texts S (before (.call (.normalize n)) ++ (report timer d args (.call (.normalize n)) (.pair x)).1 ++ [.endl])) := by
  have ht : Piece.texts S (before (.call (.normalize n)) ++ (report timer d args (.call (.normalize n)) (.pair x)).1 ++ [.endl]) =
      ((["Dataset ".toList ++ (n.toList ++ " is now normalized".toList)] : List Text).map (· ++ ['\n'])).flatten ++ ['\n'] := by
    simp only [before, report]
    generalize "Dataset " = s1, " is now normalized" = s2
    simp [Piece.texts, Piece.text]
  rw [ht]
  refine fine_lines ?_
  intro l hl
  rw [List.mem_singleton.1 hl]
  exact head_not (c := 'D') rfl (by decide) (by decide) (by rw [List.mem_append, not_or]; exact ⟨hm, by decide⟩)

/-- A line that has run: its call, and what has been printed. -/
theorem says_ran {E : Env K} {P : CliEnv K} {c c' : Console K} {line : String} {ps : List (Piece K)} {o : Outcome K} {a : AnyCall K}
    (h : Says E P c line c' ps o) (hp : processLine P line = .run (.ok (.call a))) :
    (∃ out, Api.Step E c.api a c'.api (.ret (.ok out)) ∧ ps = before a ++ (report c.timer c.digits (splitLine line) a out).1 ++ [.endl]) ∨
      ∃ f, Api.Step E c.api a c'.api (.ret (.error f)) := by
  obtain ⟨h1, h2⟩ := h
  unfold Turn at h1
  rw [hp] at h1
  obtain ⟨r, hr, rfl⟩ := h1
  unfold output at h2
  rw [hp] at h2
  dsimp only at h2
  split at h2
  · rename_i out he
    cases he
    refine .inl ⟨out, hr, ?_⟩
    exact (congrArg Prod.fst (Option.some.inj h2)).symm
  · rename_i f he
    cases he
    exact .inr ⟨f, hr⟩
  · cases h2

/-- The first two words are a command on a dataset and its name, and there is an error: nothing has changed. -/
theorem refused_line {E : Env K} {S : Screen K} {c d : Console K} {e : Entered K} (hI : Inv c.api) (ht : Terminal E S c [e] d)
    {name : String} (htch : e.Touches ["load", "unload", "normalize"] name) (hf : ¬ e.Fine) (n : String) : SameAt c.api d.api n := by
  obtain ⟨hline, ps, o, hs, -, htx⟩ := terminal_one ht
  obtain ⟨cmd, hcmd, ws, hw⟩ := htch
  obtain ⟨a0, a1⟩ := words_args hw
  rcases says_step hs with he | ⟨a, r, ha, hr, rfl, -⟩
  · rw [he]
    exact fun _ => Iff.rfl
  · have hl : '\n' ∉ (arg (splitLine e.line) 1).toList := arg_line hline 1
    have hd := call_data ha (by rw [a0]; exact hcmd)
    rcases says_ran hs ha with ⟨out, hst, hps⟩ | ⟨f, hst⟩
    · refine absurd ?_ hf
      unfold Entered.Fine
      rw [htx, hps]
      rcases hd with ⟨f, p, sep, m, k, b, rfl⟩ | rfl | rfl
      · obtain ⟨-, x, rfl, hx⟩ := load_matches hI hst
        exact load_fine (by rw [hx]; exact hl)
      · obtain ⟨-, rfl⟩ := unload_matches hI hst
        exact unload_fine hl
      · obtain ⟨p, rfl⟩ := normalize_pair hI hst
        exact normalized_fine hl
    · rcases hd with ⟨f, p, sep, m, k, b, rfl⟩ | rfl | rfl
      · exact refused_same hI hst (.inl ⟨_, _, _, _, _, _, _, rfl⟩) n
      · exact refused_same hI hst (.inr (.inl ⟨_, rfl⟩)) n
      · exact refused_same hI hst (.inr (.inr ⟨_, rfl⟩)) n

theorem terminal_inv {E : Env K} {S : Screen K} {c : Console K} {h : List (Entered K)} (ht : Terminal E S Console.fresh h c) : Inv c.api := by
  obtain ⟨H, hh, -⟩ := terminal_history ht
  exact inv_history inv_fresh hh

/-- The datasets are as the screen says. -/
theorem status_matches (hM : Marks K) {E : Env K} {S : Screen K} (hS : S.progress = [] ∨ S.progress.getLast? = some '\n') {c : Console K}
    {h : List (Entered K)} (ht : Terminal E S Console.fresh h c) {name : String} {st : Option (Bool × Option (String × Dbl K))}
    (hst : Status name h st) : Matches c.api name st := by
  induction hst generalizing c with
  | nil =>
    generalize hh : ([] : List (Entered K)) = h at ht
    cases ht with
    | nil =>
      rintro g ⟨id, hm, -⟩
      cases hm
    | snoc => exact absurd (congrArg List.length hh) (by simp)
  | load _ hty hu hf ih =>
    obtain ⟨b, hb, he⟩ := terminal_split ht
    obtain ⟨out, hs⟩ := fine_returns hS he (usage_runs hty hu (usage_load hu)) hf
    exact (load_matches (terminal_inv hb) hs).1
  | unload _ hty hf ih =>
    obtain ⟨b, hb, he⟩ := terminal_split ht
    obtain ⟨out, hs⟩ := fine_returns hS he (usage_runs hty (.unload name) (by simp)) hf
    exact (unload_matches (terminal_inv hb) hs).1
  | normalize _ hty hf ih =>
    obtain ⟨b, hb, he⟩ := terminal_split ht
    obtain ⟨out, hs⟩ := fine_returns hS he (usage_runs hty (.normalize name) (by simp)) hf
    exact (normalize_matches hM (terminal_inv hb) hs (ih hb)).1
  | group _ hty hu hf ih =>
    obtain ⟨b, hb, he⟩ := terminal_split ht
    obtain ⟨out, hs⟩ := fine_returns hS he (usage_runs hty hu (usage_group hu)) hf
    exact group_matches (terminal_inv hb) hs (ih hb)
  | @loadGroups _ _ _ _ path _ _ _ _ _ _ _ _ hty hfile hf ih =>
    obtain ⟨b, hb, he⟩ := terminal_split ht
    obtain ⟨out, hs⟩ := fine_returns hS he (usage_runs hty (.loadGroups name path) (by simp)) hf
    rw [hfile] at hs
    exact loadGroups_matches (terminal_inv hb) hs (ih hb)
  | refused _ hty hf ih =>
    obtain ⟨b, hb, he⟩ := terminal_split ht
    exact matches_same (refused_line (terminal_inv hb) he hty hf name) (ih hb)
  | @other _ e _ _ hty ih =>
    obtain ⟨b, hb, he⟩ := terminal_split ht
    obtain ⟨-, ps, o, hs, -, -⟩ := terminal_one he
    rcases says_step hs with h1 | ⟨a, r, ha, hr, -, -⟩
    · rw [h1]
      exact ih hb
    · have hI := terminal_inv hb
      exact matches_same (holds_eff hI (step_eff hI hr) (changes_touches (T := e.text) ha hty)) (ih hb)

/-- Names and distances are within a column. -/
theorem terminal_plain {E : Env K} {S : Screen K} (hS : S.progress = [] ∨ S.progress.getLast? = some '\n') {c : Console K}
    {h : List (Entered K)} (ht : Terminal E S Console.fresh h c) (ho : Orderly h) {name : String} {g : GSet K}
    (hg : Registry.Holds c.api name g) :
    ('\n' ∉ name.toList ∧ '\t' ∉ name.toList ∧ ' ' ∉ name.toList) ∧ PlainGroups g := by
  generalize hc : Console.fresh = c₀ at ht
  induction ht generalizing name g with
  | nil =>
    subst hc
    obtain ⟨id, hm, -⟩ := hg
    cases hm
  | @snoc d e h P line ps o hprev hline hs hne ih =>
    subst hc
    have ih := fun {name : String} {g : GSet K} (hg : Registry.Holds d.api name g) => ih (fun x hx => ho x (List.mem_append_left _ hx)) hg
    have hI := terminal_inv hprev
    obtain ⟨htab, hlg⟩ := ho _ (List.mem_append_right _ (List.mem_singleton.2 rfl))
    rcases says_step hs with h1 | ⟨a, r, ha, hr, rfl, -⟩
    · rw [h1] at hg
      exact ih hg
    · constructor
      · by_cases hn : Changes a ∧ (name ∈ named a ∨ a = .call .unloadAll)
        · have h1 : name = arg (splitLine line) 1 := by
            obtain ⟨h1, h2⟩ := hn
            have hc := call_change ha
            match a, ha, h1, h2, hc with
            | .group n _ _ _ _, _, _, h2, hc =>
              simp only [named, List.mem_singleton, reduceCtorEq, or_false] at h2
              exact h2.trans hc.2.1
            | .call (.load n _ _ _ _ _ _), _, _, h2, hc =>
              simp only [named, List.mem_singleton, AnyCall.call.injEq, reduceCtorEq, or_false] at h2
              exact h2.trans hc.2.1
            | .call (.unload n), _, _, h2, hc =>
              simp only [named, List.mem_singleton, AnyCall.call.injEq, reduceCtorEq, or_false] at h2
              exact h2.trans hc.2.1
            | .call (.normalize n), _, _, h2, hc =>
              simp only [named, List.mem_singleton, AnyCall.call.injEq, reduceCtorEq, or_false] at h2
              exact h2.trans hc.2.1
            | .call (.loadGroups n _), _, _, h2, hc =>
              simp only [named, List.mem_singleton, AnyCall.call.injEq, reduceCtorEq, or_false] at h2
              exact h2.trans hc.2.1
            | .call .unloadAll, _, _, _, hc => exact hc.elim
            | .call (.loadGroupsOld _ _), _, _, _, hc => exact hc.elim
          rw [h1]
          exact ⟨arg_line hline 1, arg_char htab 1, arg_blank 1⟩
        · exact (ih ((holds_eff hI (step_eff hI hr) hn g).2 hg)).1
      · refine step_plain hI hr (fun x hx => (ih hx).2) ?_ ?_ ?_ g hg
        · rintro t x n w rfl
          rcases call_group ha with rfl | rfl
          · exact ⟨by decide, by decide⟩
          · exact ⟨arg_line hline 3, arg_char htab 3⟩
        · rintro ⟨f, rfl⟩
          have hcc := call_change ha
          dsimp only at hcc
          obtain ⟨ws, hw⟩ := words_two hcc.1 hcc.2.1 hcc.2.2
          have hfine := hlg ⟨_, hw⟩
          cases r with
          | dangling =>
            obtain ⟨h3, h4⟩ := hs
            unfold output at h4
            rw [ha] at h4
            cases h4
          | ret x =>
            cases x with
            | error f => exact absurd (says_error hS (.inr rfl) hs) hfine
            | ok o => exact ⟨o, rfl⟩
        · rintro f rfl
          exact call_change ha

end

/-! ## The answer of `list` -/

section
variable {K : Type} [Field K] [LinearOrder K] [HasSqrt K] [Arith K] [BandOps]

theorem metaOf_ub {name : String} {g : GSet K} {e : Fault} (h : metaOf name g = .error e) : ∃ w, e = .ub w := by
  unfold metaOf at h
  repeat' split at h
  all_goals first | (cases h; exact ⟨_, rfl⟩) | cases h

theorem metasOf_ub {l : List (String × GSet K)} {e : Fault} (h : metasOf l = .error e) : ∃ w, e = .ub w := by
  induction l with
  | nil => cases h
  | cons x l ih =>
    unfold metasOf at h
    simp only [bind, Except.bind] at h
    cases h1 : metaOf x.1 x.2 with
    | error y => rw [h1] at h; cases h; exact metaOf_ub h1
    | ok m =>
      rw [h1] at h
      simp only at h
      cases h2 : metasOf l with
      | error y => rw [h2] at h; cases h; exact ih h2
      | ok l' => rw [h2] at h; cases h

theorem metasOf_each {l : List (String × GSet K)} {ms : List (Meta K)} (h : metasOf l = .ok ms) :
    List.Forall₂ (fun x m => metaOf x.1 x.2 = .ok m) l ms := by
  induction l generalizing ms with
  | nil => cases h; exact .nil
  | cons e l ih =>
    unfold metasOf at h
    simp only [bind, Except.bind] at h
    cases h1 : metaOf e.1 e.2 with
    | error x => rw [h1] at h; cases h
    | ok m =>
      rw [h1] at h
      simp only at h
      cases h2 : metasOf l with
      | error x => rw [h2] at h; cases h
      | ok l' =>
        rw [h2] at h
        cases h
        exact .cons h1 (ih h2)

theorem metasOf_ok {l : List (String × GSet K)} (h : ∀ x ∈ l, ∃ m, metaOf x.1 x.2 = .ok m) : ∃ ms, metasOf l = .ok ms := by
  induction l with
  | nil => exact ⟨[], rfl⟩
  | cons x l ih =>
    obtain ⟨m, hm⟩ := h x List.mem_cons_self
    obtain ⟨ms, hms⟩ := ih (fun y hy => h y (List.mem_cons_of_mem _ hy))
    refine ⟨m :: ms, ?_⟩
    simp only [metasOf, hm, hms, bind, Except.bind, pure, Except.pure]

theorem forall₂_left {α β : Type} {R : α → β → Prop} {l : List α} {m : List β} (h : List.Forall₂ R l m) {a : α} (ha : a ∈ l) : ∃ b ∈ m, R a b := by
  induction h with
  | nil => cases ha
  | cons hr _ ih =>
    rcases List.mem_cons.1 ha with rfl | ha
    · exact ⟨_, List.mem_cons_self, hr⟩
    · obtain ⟨b, hb, hb'⟩ := ih ha
      exact ⟨b, List.mem_cons_of_mem _ hb, hb'⟩

theorem forall₂_right {α β : Type} {R : α → β → Prop} {l : List α} {m : List β} (h : List.Forall₂ R l m) {b : β} (hb : b ∈ m) : ∃ a ∈ l, R a b := by
  induction h with
  | nil => cases hb
  | cons hr _ ih =>
    rcases List.mem_cons.1 hb with rfl | hb
    · exact ⟨_, List.mem_cons_self, hr⟩
    · obtain ⟨a, ha, ha'⟩ := ih hb
      exact ⟨a, List.mem_cons_of_mem _ ha, ha'⟩

/-- The row for a dataset, from the dataset. -/
def rowFor (S : Screen K) (m : Meta K) : Text × Text × Text := (m.name.toList, groupedText S m, normalizedText m)

/-- What `list dataset` shows, and that it changes nothing. -/
theorem list_shows {E : Env K} {S : Screen K} {c d : Console K} {e : Entered K} (hI : Inv c.api) (ht : Terminal E S c [e] d)
    (hty : e.Typed ["list", "dataset"]) : ∃ ms, (ms.map Meta.name).Pairwise (· < ·) ∧
      (∀ m ∈ ms, ∃ g, Registry.Holds c.api m.name g ∧ metaOf m.name g = .ok m) ∧
      (∀ name g, Registry.Holds c.api name g → ∃ m ∈ ms, metaOf name g = .ok m) ∧ d.api = c.api ∧
      e.text = Piece.texts S ((report c.timer c.digits (splitLine e.line) (.call .allInfo) (.infos ms)).1 ++ [.endl]) := by
  obtain ⟨-, ps, o, hs, -, htx⟩ := terminal_one ht
  have hp : processLine e.env e.line = .run (.ok (.call (.call .allInfo))) := usage_runs hty .listDataset (by simp)
  obtain ⟨l, h1, h2, h3⟩ := allSets_some hI.live
  have hmem : ∀ name g, (name, g) ∈ l ↔ Registry.Holds c.api name g := by
    intro name g
    constructor
    · intro hm
      obtain ⟨id, h4, h5⟩ := h3 _ hm
      exact ⟨id, h4, deref_some.1 h5⟩
    · rintro ⟨id, h4, h5⟩
      have : name ∈ l.map Prod.fst := by rw [h2]; exact List.mem_map.2 ⟨_, h4, rfl⟩
      obtain ⟨x, hx, rfl⟩ := List.mem_map.1 this
      obtain ⟨id', h6, h7⟩ := h3 x hx
      have := sorted_unique hI.sorted h4 h6
      subst this
      rw [deref_some, h5] at h7
      cases h7
      exact hx
  have hstep : ∀ r, Api.Step E c.api (.call .allInfo) d.api r → d.api = c.api ∧ r = .ret ((metasOf l).map .infos) := by
    intro r hr
    change c.api.exec E _ = _ at hr
    simp only [exec, h1] at hr
    exact ⟨(congrArg Prod.fst hr).symm, (congrArg Prod.snd hr).symm⟩
  rcases says_ran hs hp with ⟨out, hst, hps⟩ | ⟨f, hst⟩
  · obtain ⟨e1, e2⟩ := hstep _ hst
    cases hm : metasOf l with
    | error x => rw [hm] at e2; cases e2
    | ok ms =>
      rw [hm] at e2
      cases e2
      have hF := metasOf_each hm
      refine ⟨ms, ?_, ?_, ?_, e1, ?_⟩
      · rw [metasOf_names hm, h2, List.pairwise_map]
        exact hI.sorted
      · intro m hmm
        obtain ⟨x, hx, hxm⟩ := forall₂_right hF hmm
        rw [metaOf_name hxm]
        exact ⟨x.2, (hmem x.1 x.2).1 hx, hxm⟩
      · intro name g hg
        exact forall₂_left hF ((hmem name g).2 hg)
      · rw [htx, hps]
        rfl
  · obtain ⟨e1, e2⟩ := hstep _ hst
    cases hm : metasOf l with
    | ok ms => rw [hm] at e2; cases e2
    | error x =>
      rw [hm] at e2
      cases e2
      obtain ⟨w, rfl⟩ := metasOf_ub hm
      exfalso
      obtain ⟨h4, h5⟩ := hs
      unfold Turn at h4
      rw [hp] at h4
      obtain ⟨r, hr, rfl⟩ := h4
      obtain ⟨-, e4⟩ := hstep _ hr
      rw [e4, hm] at h5
      unfold output at h5
      rw [hp] at h5
      simp [Except.map, message] at h5

theorem metaOf_plain {name : String} {g : GSet K} {m : Meta K} (h : metaOf name g = .ok m) (hp : PlainGroups g)
    (hn : '\n' ∉ name.toList ∧ '\t' ∉ name.toList ∧ ' ' ∉ name.toList) : PlainMeta m := by
  refine ⟨by rw [metaOf_name h]; exact hn, ?_⟩
  unfold metaOf at h
  split at h
  · cases h
    exact (by decide : '\n' ∉ "".toList ∧ '\t' ∉ "".toList)
  · rename_i gs hgs
    split at h <;> cases h
    exact hp gs hgs

theorem metaOf_row {S : Screen K} {name : String} {g : GSet K} {b : Bool} {o : Option (String × Dbl K)} (hb : g.ds.normalized = b)
    (hg : match o with
      | none => g.groups = none
      | some (d, t) => ∃ gs, g.groups = some gs ∧ gs.distanceName = d ∧ gs.threshold = some t) :
    ∃ m, metaOf name g = .ok m ∧ rowFor S m = rowOf S name b o := by
  obtain ⟨ds, groups⟩ := g
  subst hb
  match o, hg with
  | none, hg =>
    dsimp only at hg
    subst hg
    exact ⟨_, rfl, rfl⟩
  | some (d, t), hg =>
    obtain ⟨gs, h1, h2, h3⟩ := hg
    dsimp only at h1
    subst h1 h2
    refine ⟨⟨name, ds.itemCount, ds.maxCol, ds.normalized, true, gs.distanceName, t⟩, ?_, rfl⟩
    simp only [metaOf, h3]
    rfl

end

end Genex.Spec
