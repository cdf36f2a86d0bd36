import Verif.Lemmas.UnitGroups
import Verif.Lemmas.Terminal
import Verif.Spec.UnitTerminal

/-!
# Lemmas: a whole file loaded and grouped at the terminal
-/

set_option linter.unusedSectionVars false

namespace Genex

open Spec Dbl Api Registry Cli Manual

variable {K : Type} [Field K] [LinearOrder K] [IsStrictOrderedRing K] [HasSqrt K]

theorem foldColumns_le (sep : List Char) (n : ℕ) : ∀ (ls : List Text) (m : ℕ), m ≤ n → (∀ l ∈ ls, (tokens sep l).length ≤ n) →
    ls.foldl (fun m l => max m (tokens sep l).length) m ≤ n
  | [], _, h, _ => h
  | l :: ls, m, h, hl => by
    rw [List.foldl_cons]
    exact foldColumns_le sep n ls _ (max_le h (hl l (by simp))) fun x hx => hl x (by simp [hx])

/-- All lines read: the columns are those of the longest row. -/
theorem load_longest {parse : Text → Parsed K} {content path : Text} {sep : List Char} {m : Int} {s : ℕ} {hasName : Bool} {rows : List (List K)}
    (hm : m ≤ 0) (hf : FileHas parse content sep m s hasName rows) :
    ∃ ds, Dataset.loadData parse (some content) path m s sep hasName (Dataset.fresh : Dataset K) = (ds, .ok ()) ∧
      Spec.Holds ds (rows.map (·.map .fin)) ∧ ds.maxCol = longest rows := by
  have hx : readVals parse m s sep hasName content = (rows.map (·.map Dbl.fin)).map (·.map .val) := by
    have := hf.numbers
    unfold readVals
    rw [this]
    simp [List.map_map, Function.comp_def]
  obtain ⟨ds, e, H, -⟩ := load_holds parse content path m s sep hasName (rows.map (·.map .fin)) hx hf.reach
  obtain ⟨ds', e', -, -, -, -, -, -, -, h9⟩ := loadData_ok parse content path m s sep hasName Dataset.fresh (rows.map (·.map .fin))
    (by rw [readVals_eq]; exact hx) (by rw [firstLines_eq, ← valueCol_eq]; intro l hl'; rw [tokens_eq]; exact hf.reach l hl')
  have : ds' = ds := by rw [e] at e'; exact (congrArg Prod.fst e').symm
  subst this
  refine ⟨ds', e, H, le_antisymm ?_ ?_⟩
  · have hle : Dataset.maxColumns sep (fileLines content) ≤ longest rows + valueCol s hasName := by
      refine foldColumns_le sep _ _ _ (Nat.zero_le _) fun l hl => ?_
      have hl' : l ∈ firstLines m content := by
        rw [linesOf_eq] at hl
        unfold firstLines
        rw [if_pos hm]
        exact hl
      have h1 := List.mem_map_of_mem (f := fun l => ((columns sep l).drop (valueCol s hasName)).map parse) hl'
      rw [hf.numbers] at h1
      obtain ⟨r, hr, hre⟩ := List.mem_map.1 h1
      have h2 := congrArg List.length hre
      simp only [List.length_map, List.length_drop] at h2
      have h3 := le_longest hr
      rw [tokens_eq]
      omega
    rw [valueCol_eq] at hle
    omega
  · obtain ⟨r, hr⟩ := List.exists_mem_of_ne_nil _ hf.some
    have hfit : ∀ r ∈ rows, (r.length : Int) ≤ ds'.maxCol := by
      intro r hr
      obtain ⟨i, hi⟩ := List.mem_iff_getElem?.1 hr
      have := H.fits i (r.map .fin) (by rw [List.getElem?_map, hi]; rfl)
      simpa using this
    have h0 := hfit r hr
    have := longest_le (rows := rows) (n := ds'.maxCol.toNat) fun r hr => by have := hfit r hr; omega
    omega

theorem longest_converted {s c : K} {rows rows' : List (List K)} (h : ConvertedAll s c rows rows') : longest rows' = longest rows := by
  rw [h.map]
  simp [longest, Function.comp_def]

/-- The object in the program. -/
theorem wholly_object {E : Env K} {S : Screen K} (hS : S.progress = [] ∨ S.progress.getLast? = some '\n') {c : Console K}
    {h : List (Entered K)} (ht : Terminal E S Console.fresh h c) {name : String} {rows : List (List K)} {dist : String} {t : Dbl K}
    (hg : GroupedWholly E h name rows dist t) :
    ∃ (z : GSet K) (log : ℕ → Bool) (n : Int) (out : GSet K × Res Int) (N : Int), Spec.Holds z.ds (rows.map (·.map .fin)) ∧
      z.ds.maxCol = longest rows ∧ GSet.GroupAll cliBand log dist t false n z out ∧ out.2 = .ok N ∧ Registry.Holds c.api name out.1 := by
  obtain ⟨h₁, h₂, h₃, e₁, e₂, args₁, args₂, content, path, sep, mr, sc, hn, threads, rfl, hty₁, hu₁, hmr, hfile, hfine₁, hk₂, hty₂, hu₂, hfine₂, hk₃⟩ := hg
  obtain ⟨b, hb, hr⟩ := terminal_split ht
  rw [← List.singleton_append] at hr
  obtain ⟨b', he₂, hr⟩ := terminal_split hr
  obtain ⟨o₂, hst₂⟩ := fine_returns hS he₂ (usage_runs hty₂ hu₂ (usage_group hu₂)) hfine₂
  obtain ⟨H₃, hH₃, hx₃⟩ := terminal_history hr
  have hratio := terminal_ratio hb
  obtain ⟨Hb, hHb, -⟩ := terminal_history hb
  have hIb : Inv b.api := inv_history inv_fresh hHb
  have hIb' : Inv b'.api := inv_step hIb hst₂
  -- the file
  obtain ⟨z, hz, Hz, hmax⟩ : ∃ z, Registry.Holds b.api name z ∧ Spec.Holds z.ds (rows.map (·.map .fin)) ∧ z.ds.maxCol = longest rows := by
    obtain ⟨a, ha, hr⟩ := terminal_split hb
    rw [← List.singleton_append] at hr
    obtain ⟨a', he₁, hr⟩ := terminal_split hr
    obtain ⟨o₁, hst₁⟩ := fine_returns hS he₁ (usage_runs hty₁ hu₁ (usage_load hu₁)) hfine₁
    obtain ⟨H₂, hH₂, hx₂⟩ := terminal_history hr
    obtain ⟨Ha, hHa, -⟩ := terminal_history ha
    have hI : Inv a.api := inv_history inv_fresh hHa
    have hI₁ : Inv a'.api := inv_step hI hst₁
    have hl : a.api.exec E (.load name (some content) path sep mr sc hn) = (a'.api, .ret (.ok o₁)) := hst₁
    simp only [exec] at hl
    generalize a'.api = A at hl hI₁ hH₂
    split at hl
    · cases hl
    split at hl
    · cases hl
    · cases hl
    obtain ⟨ds, e, H, hm⟩ := load_longest (path := path) hmr hfile
    have hhold : Registry.Holds A name ⟨ds, none⟩ := by
      cases hl
      refine (hI₁.holds).2 ⟨a.api.heap.length, ?_, ?_⟩
      · simp [mapFind_mapSet]
      · rw [deref_some]; simp [e]
    obtain ⟨g', hg', hd'⟩ := data_history hI₁ hH₂ (fun x hm => by
      obtain ⟨y, hy, hpy⟩ := hx₂ x hm
      exact changesData_touches (T := y.text) hpy (hk₂ y hy)) hhold
    exact ⟨g', hg', by rw [hd']; exact H, by rw [hd']; exact hm⟩
  obtain ⟨id, k1, k2⟩ := hIb.holds.1 hz
  simp only [Api.Step, Api.GroupCall, k1, k2] at hst₂
  obtain ⟨log, out, ho, hb', hres⟩ := hst₂
  rw [hratio] at ho
  cases hN : out.2 with
  | error f => rw [hN] at hres; cases hres
  | ok N =>
    refine ⟨z, log, threads, out, N, Hz, hmax, ho, hN, ?_⟩
    refine (kept_history hIb' hH₃ (fun x hm => by
      obtain ⟨y, hy, hpy⟩ := hx₃ x hm
      exact changes_touches (T := y.text) hpy (hk₃ y hy)) out.1).1 ?_
    rw [hb']
    exact holds_self_store k1 k2

end Genex
