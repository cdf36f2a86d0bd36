import Verif.Spec.DataFiles
import Verif.Lemmas.Archives
import Verif.Lemmas.NumberText

set_option linter.unusedSectionVars false

/-! Datasets kept in a text file between sessions (for C116). -/

namespace Genex.Spec

open Genex Genex.Cli Genex.Registry Genex.Api Manual

section

variable {K : Type} [Field K] [LinearOrder K] [IsStrictOrderedRing K] [HasSqrt K] [BandOps]

theorem NamedBy.loadedBy {E : Env K} {name : String} {ns : List Text} {h : List (Entered K)} {rows : List (List K)}
    (hw : NamedBy E name ns h rows) : LoadedBy E name h rows := by
  induction hw with
  | load h1 h2 h3 h4 h5 h6 => exact .load h1 h2 h3 h5 h6
  | normalize h1 h2 h3 h4 h5 ih => exact .normalize ih h2 h3 h4 h5

theorem fileHas_lines {parse : Text → Parsed K} {content : Text} {sep : List Char} {mr : Int} {sc : ℕ} {hn : Bool} {rows : List (List K)}
    (h : FileHas parse content sep mr sc hn rows) : (firstLines mr content).length = rows.length := by
  have := congrArg List.length h.numbers
  simpa using this

/-- The object with the rows, and its names. -/
theorem named_data {E : Env K} {S : Screen K} (hS : S.progress = [] ∨ S.progress.getLast? = some '\n') {c : Console K}
    {h : List (Entered K)} (ht : Terminal E S Console.fresh h c) {name : String} {ns : List Text} {rows : List (List K)}
    (hl : NamedBy E name ns h rows) :
    ∃ g, Registry.Holds c.api name g ∧ Holds g.ds (rows.map (·.map .fin)) ∧ g.ds.names = ns ∧ (ns = [] ∨ ns.length = rows.length) ∧ rows ≠ [] := by
  induction hl generalizing c with
  | @load h₁ h₂ e args content path sep mr sc hn rows hty hu hfile hnames hfine hkeep =>
    obtain ⟨b, hb, hr⟩ := terminal_split ht
    rw [← List.singleton_append] at hr
    obtain ⟨b', he, hr⟩ := terminal_split hr
    have hp := usage_runs hty hu (usage_load hu)
    obtain ⟨out, hst⟩ := fine_returns hS he hp hfine
    have hI := terminal_inv hb
    have hI₁ : Inv b'.api := inv_step hI hst
    obtain ⟨H', hH', hx⟩ := terminal_history hr
    change b.api.exec E _ = _ at hst
    simp only [exec] at hst
    split at hst
    · cases congrArg Prod.snd hst
    split at hst
    · cases congrArg Prod.snd hst
    · cases congrArg Prod.snd hst
    obtain ⟨ds, e1, H, e2, -, -⟩ := load_holds E.parse content path mr sc sep hn (rows.map (·.map .fin))
      (by
        have := hfile.numbers
        unfold readVals
        rw [this]
        simp [List.map_map, Function.comp_def]) hfile.reach
    have hhold : Registry.Holds b'.api name ⟨ds, none⟩ := by
      refine (hI₁.holds).2 ⟨b.api.heap.length, ?_, ?_⟩
      · rw [← (Prod.mk.inj hst).1]
        simp [mapFind_mapSet]
      · rw [← (Prod.mk.inj hst).1, deref_some]; simp [e1]
    obtain ⟨g', hg', hd'⟩ := data_history hI₁ hH' (fun x hm => by
      obtain ⟨y, hy, hpy⟩ := hx x hm
      exact changesData_touches (T := y.text) hpy (hkeep y hy)) hhold
    refine ⟨g', hg', by rw [hd']; exact H, by rw [hd', hnames]; exact e2, ?_, hfile.some⟩
    rw [hnames]
    unfold titles
    cases hn
    · left; rfl
    · right
      rw [if_pos rfl, List.length_map]
      exact fileHas_lines hfile
  | @normalize h₁ h₂ e raw rows hb0 hty hs hfine hkeep ih =>
    obtain ⟨b, hb, hr⟩ := terminal_split ht
    rw [← List.singleton_append] at hr
    obtain ⟨b', he, hr⟩ := terminal_split hr
    have hp := usage_runs hty (.normalize name) (by simp)
    obtain ⟨out, hst⟩ := fine_returns hS he hp hfine
    have hI := terminal_inv hb
    have hI₁ : Inv b'.api := inv_step hI hst
    obtain ⟨H', hH', hx⟩ := terminal_history hr
    obtain ⟨g, hg, H, hm, hlen, hne⟩ := ih hb
    obtain ⟨lo, hi, hlo, hhi, rfl⟩ := hs
    obtain ⟨id, k1, k2⟩ := hI.holds.1 hg
    obtain ⟨ds', lo', hi', e1, hlo', hhi', -, H1, hm', -, -⟩ := normalize_ok H ⟨lo, hlo.1⟩
    obtain rfl := hlo.unique hlo'
    obtain rfl := hhi.unique hhi'
    change b.api.exec E _ = _ at hst
    simp only [exec] at hst
    rw [withSet_some k1 k2] at hst
    simp only [Arith.normalize, e1] at hst
    have hhold : Registry.Holds b'.api name { g with ds := ds' } := by
      rw [← (Prod.mk.inj hst).1]
      exact holds_self_store k1 k2
    obtain ⟨g', hg', hd'⟩ := data_history hI₁ hH' (fun x hm => by
      obtain ⟨y, hy, hpy⟩ := hx x hm
      exact changesData_touches (T := y.text) hpy (hkeep y hy)) hhold
    refine ⟨g', hg', ?_, by rw [hd']; exact hm'.trans hm, by simpa using hlen, by simpa using hne⟩
    rw [hd']
    simpa [List.map_map, Function.comp_def, scale] using H1

theorem usage_save {P : CliEnv K} {args : List String} {n : String} {sep : Char}
    (hu : Usage P args (.call (.call (.save n sep)))) : ∀ r, args ≠ "distance" :: r := by
  intro r hr
  generalize ha : Action.call (AnyCall.call (Call.save n sep)) = A at hu
  cases hu <;> first | (simp at hr; done) | cases ha

/-- What `save` leaves. -/
theorem writes_save {E : Env K} {S : Screen K} {h : List (Entered K)} {name : String} {sep : Char} {text : Text} (hl : SavesAs E S h name sep text) :
    ∃ c, Terminal E S Console.fresh h c ∧ ∀ z, Registry.Holds c.api name z → z.ds.saveData E.print sep = .ok text := by
  obtain ⟨c, d, P, line, args, ps, ht, hw, hu, hs⟩ := hl
  refine ⟨c, ht, ?_⟩
  intro z hz
  have hp := usage_runs (e := ⟨P, line, []⟩) hw hu (usage_save hu)
  obtain ⟨id, h1, h2⟩ := (terminal_inv ht).holds.1 hz
  obtain ⟨t1, -⟩ := hs
  unfold Turn at t1
  rw [hp] at t1
  obtain ⟨r, hr, e⟩ := t1
  cases e
  change c.api.exec E _ = _ at hr
  simp only [exec] at hr
  rw [withSet_some h1 h2] at hr
  have hr' := congrArg Prod.snd hr
  dsimp only at hr'
  cases hsv : z.ds.saveData E.print sep with
  | error e => rw [hsv] at hr'; simp [Except.map] at hr'
  | ok t => rw [hsv] at hr'; simp [Except.map] at hr'; rw [hr']

end

/-- Rounding to six digits and then to a double. -/
theorem kept_near {rd : ℚ → ℚ} (hd : NearDouble rd) {x : ℚ} (hx : Ordinary x) : |rd (decimal 6 x) - x| ≤ 51 / 10 ^ 7 * |x| := by
  have e1 := decimal_err (n := 6) x
  rw [show (1 : ℚ) / 2 * 10 ^ (1 - ((6 : ℕ) : ℤ)) = 5 / 10 ^ 6 by norm_num] at e1
  have e2 := hd.2 _ (ordinary_decimal (p := 6) (by norm_num) hx)
  have e3 := abs_sub_le (rd (decimal 6 x)) (decimal 6 x) x
  have e4 : |decimal 6 x| ≤ |x| + |decimal 6 x - x| := by
    have := abs_add_le x (decimal 6 x - x)
    rwa [add_sub_cancel] at this
  have e5 : |decimal 6 x| / 2 ^ 52 ≤ |decimal 6 x| / 10 ^ 8 :=
    div_le_div_of_nonneg_left (abs_nonneg _) (by norm_num) (by norm_num)
  have e0 := abs_nonneg x
  have e6 : |decimal 6 x| ≤ 2 * |x| := by
    have : (5 / 10 ^ 6 : ℚ) * |x| ≤ 1 * |x| := mul_le_mul_of_nonneg_right (by norm_num) e0
    linarith
  have e7 : |decimal 6 x| / 10 ^ 8 ≤ 2 * |x| / 10 ^ 8 := div_le_div_of_nonneg_right e6 (by norm_num)
  linarith

end Genex.Spec
