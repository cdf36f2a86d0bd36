import Verif.Spec.Archives
import Verif.Lemmas.Listing
import Verif.Lemmas.MachineRun
import Verif.Lemmas.EndToEnd
import Verif.Props.Serialize

set_option linter.unusedSectionVars false

/-! Groups kept in a file between sessions (for C115). -/

namespace Genex.Spec

open Genex Genex.Cli Genex.Registry Genex.Api Manual

variable {K : Type} [Field K] [LinearOrder K] [IsStrictOrderedRing K] [HasSqrt K] [BandOps]

theorem WidthBy.loadedBy {E : Env K} {name : String} {w : ℕ} {h : List (Entered K)} {rows : List (List K)} (hw : WidthBy E name w h rows) :
    LoadedBy E name h rows := by
  induction hw with
  | load h1 h2 h3 h4 h5 h6 => exact .load h1 h2 h3 h5 h6
  | normalize h1 h2 h3 h4 h5 ih => exact .normalize ih h2 h3 h4 h5

/-- The object with the rows, and its width. -/
theorem width_data {E : Env K} {S : Screen K} (hS : S.progress = [] ∨ S.progress.getLast? = some '\n') {c : Console K}
    {h : List (Entered K)} (ht : Terminal E S Console.fresh h c) {name : String} {w : ℕ} {rows : List (List K)} (hl : WidthBy E name w h rows) :
    ∃ g, Registry.Holds c.api name g ∧ Holds g.ds (rows.map (·.map .fin)) ∧ g.ds.maxCol = w := by
  induction hl generalizing c with
  | @load h₁ h₂ e args content path sep mr sc hn rows hty hu hfile hwide hfine hkeep =>
    obtain ⟨b, hb, hr⟩ := terminal_split ht
    rw [← List.singleton_append] at hr
    obtain ⟨b', he, hr⟩ := terminal_split hr
    have hp := usage_runs hty hu (usage_load hu)
    obtain ⟨out, hst⟩ := fine_returns hS he hp hfine
    have hI := terminal_inv hb
    have hI₁ : Inv b'.api := inv_step hI hst
    obtain ⟨H', hH', hx⟩ := terminal_history hr
    change b.api.exec E _ = _ at hst
    simp only [exec] at hst
    split at hst
    · cases congrArg Prod.snd hst
    split at hst
    · cases congrArg Prod.snd hst
    · cases congrArg Prod.snd hst
    obtain ⟨ds, e1, H, -, -, -⟩ := load_holds E.parse content path mr sc sep hn (rows.map (·.map .fin))
      (by
        have := hfile.numbers
        unfold readVals
        rw [this]
        simp [List.map_map, Function.comp_def]) hfile.reach
    have hmax : ds.maxCol = w := by
      rw [loadData_maxCol _ _ _ _ _ _ _ _ _ e1, maxColumns_widest hwide]
      cases hn <;> simp [valueCol, b2i] <;> omega
    have hhold : Registry.Holds b'.api name ⟨ds, none⟩ := by
      refine (hI₁.holds).2 ⟨b.api.heap.length, ?_, ?_⟩
      · rw [← (Prod.mk.inj hst).1]
        simp [mapFind_mapSet]
      · rw [← (Prod.mk.inj hst).1, deref_some]; simp [e1]
    obtain ⟨g', hg', hd'⟩ := data_history hI₁ hH' (fun x hm => by
      obtain ⟨y, hy, hpy⟩ := hx x hm
      exact changesData_touches (T := y.text) hpy (hkeep y hy)) hhold
    exact ⟨g', hg', by rw [hd']; exact H, by rw [hd']; exact hmax⟩
  | @normalize h₁ h₂ e raw rows hb0 hty hs hfine hkeep ih =>
    obtain ⟨b, hb, hr⟩ := terminal_split ht
    rw [← List.singleton_append] at hr
    obtain ⟨b', he, hr⟩ := terminal_split hr
    have hp := usage_runs hty (.normalize name) (by simp)
    obtain ⟨out, hst⟩ := fine_returns hS he hp hfine
    have hI := terminal_inv hb
    have hI₁ : Inv b'.api := inv_step hI hst
    obtain ⟨H', hH', hx⟩ := terminal_history hr
    obtain ⟨g, hg, H, hm⟩ := ih hb
    obtain ⟨lo, hi, hlo, hhi, rfl⟩ := hs
    obtain ⟨id, k1, k2⟩ := hI.holds.1 hg
    obtain ⟨ds', lo', hi', e1, hlo', hhi', -, H1, -, -, hm'⟩ := normalize_ok H ⟨lo, hlo.1⟩
    obtain rfl := hlo.unique hlo'
    obtain rfl := hhi.unique hhi'
    change b.api.exec E _ = _ at hst
    simp only [exec] at hst
    rw [withSet_some k1 k2] at hst
    simp only [Arith.normalize, e1] at hst
    have hhold : Registry.Holds b'.api name { g with ds := ds' } := by
      rw [← (Prod.mk.inj hst).1]
      exact holds_self_store k1 k2
    obtain ⟨g', hg', hd'⟩ := data_history hI₁ hH' (fun x hm => by
      obtain ⟨y, hy, hpy⟩ := hx x hm
      exact changesData_touches (T := y.text) hpy (hkeep y hy)) hhold
    refine ⟨g', hg', ?_, by rw [hd']; exact hm'.trans hm⟩
    rw [hd']
    simpa [List.map_map, Function.comp_def, scale] using H1

/-- What `saveGroups` leaves. -/
theorem leaves_save {E : Env K} {S : Screen K} {h : List (Entered K)} {name : String} {f : List (Tok K)} (hl : Leaves E S h name f) :
    ∃ c, Terminal E S Console.fresh h c ∧ ∀ z, Registry.Holds c.api name z → z.save = (f, .ok ()) := by
  obtain ⟨c, d, P, line, path, ps, ht, hw, hs⟩ := hl
  refine ⟨c, ht, ?_⟩
  intro z hz
  have hp := usage_runs (e := ⟨P, line, []⟩) hw (.saveGroups0 name path) (by simp)
  obtain ⟨id, h1, h2⟩ := (terminal_inv ht).holds.1 hz
  obtain ⟨t1, -⟩ := hs
  unfold Turn at t1
  rw [hp] at t1
  obtain ⟨r, hr, e⟩ := t1
  cases e
  change c.api.exec E _ = _ at hr
  simp only [exec] at hr
  rw [withSet_some h1 h2] at hr
  have hr' := congrArg Prod.snd hr
  unfold GSet.saveToFile at hr'
  dsimp only at hr'
  split at hr'
  · cases hsv : z.save with
    | mk ts res =>
      rw [hsv] at hr'
      cases res with
      | error e => cases hr'
      | ok u => cases hr'; rfl
  · cases hr'

/-- An object into which they are loaded. -/
theorem load_ready {rows : List (List K)} {w : ℕ} {distance : String} {t : Dbl K} {f : List (Tok K)} {z : GSet K}
    (R : Ready (rows.map (·.map .fin)) distance t false z) (hwh : ∀ gs, z.groups = some gs → gs.whole = false) (hm : z.ds.maxCol = w)
    (hf : z.save = (f, .ok ())) {g : GSet K} (H : Holds g.ds (rows.map (·.map .fin))) (hg : g.ds.maxCol = w) :
    ∃ gs', g.load f = (⟨g.ds, some gs'⟩, .ok ()) ∧ gs'.total = z.totalGroups ∧ gs'.whole = false ∧
      Ready (rows.map (·.map .fin)) distance t false (⟨g.ds, some gs'⟩ : GSet K) := by
  obtain ⟨Hz, hmz, hpos, m, gs, SP, ABS, rfl, hgs, U⟩ := R.usable
  obtain ⟨⟨gs', SP', U', hw', -, ht, e⟩, -⟩ := U.load hmz (hwh gs hgs) Hz hpos g H (hg.trans hm.symm)
  have hs := U.save hmz (hwh gs hgs) Hz
  have hz' : z = ⟨z.ds, some gs⟩ := by rw [← hgs]
  have hs' : z.save = (tokAll z.ds gs m t ABS, .ok ()) := by rw [hz']; exact hs
  rw [hf] at hs'
  obtain ⟨rfl, -⟩ := Prod.mk.inj hs'
  refine ⟨gs', e, by rw [ht, GSet.totalGroups, hgs], hw', ?_⟩
  have := Ready.loaded z R hwh g H (hg.trans hm.symm)
  rw [hf, e] at this
  exact this

theorem restored_ready {E : Env K} {S : Screen K} (hS : S.progress = [] ∨ S.progress.getLast? = some '\n') {c : Console K}
    {h : List (Entered K)} (ht : Terminal E S Console.fresh h c) {rows : List (List K)} {w : ℕ} {distance : String} {t : Dbl K}
    {f : List (Tok K)} {z : GSet K} (R : Ready (rows.map (·.map .fin)) distance t false z)
    (hwh : ∀ gs, z.groups = some gs → gs.whole = false) (hm : z.ds.maxCol = w) (hf : z.save = (f, .ok ())) {name : String}
    (hr : RestoredBy E h name rows w f) :
    ∃ z', Registry.Holds c.api name z' ∧ Ready (rows.map (·.map .fin)) distance t false z' ∧
      (∀ gs, z'.groups = some gs → gs.whole = false) ∧ z'.ds.maxCol = w ∧ z'.totalGroups = z.totalGroups := by
  obtain ⟨h₁, h₂, e, path, rfl, hl, hty, hfile, hkeep⟩ := hr
  obtain ⟨b, hb, hr⟩ := terminal_split ht
  rw [← List.singleton_append] at hr
  obtain ⟨b', he, hr⟩ := terminal_split hr
  have hp := usage_runs hty (.loadGroups name path) (by simp)
  have hI := terminal_inv hb
  obtain ⟨g, hg, H, hmg⟩ := width_data hS hb hl
  obtain ⟨id, k1, k2⟩ := hI.holds.1 hg
  obtain ⟨gs', e1, e2, e3, e4⟩ := load_ready R hwh hm hf H hmg
  obtain ⟨-, ps, o, hs, -, -⟩ := terminal_one he
  obtain ⟨t1, -⟩ := hs
  unfold Turn at t1
  rw [hp] at t1
  obtain ⟨r, hst, -⟩ := t1
  have hI₁ : Inv b'.api := inv_step hI hst
  change b.api.exec E _ = _ at hst
  simp only [exec] at hst
  rw [withSet_some k1 k2, hfile] at hst
  simp only [GSet.loadFromFile, e1] at hst
  have hhold : Registry.Holds b'.api name ⟨g.ds, some gs'⟩ := by
    rw [← (Prod.mk.inj hst).1]
    exact holds_self_store k1 k2
  obtain ⟨H', hH', hx⟩ := terminal_history hr
  refine ⟨⟨g.ds, some gs'⟩, (kept_history hI₁ hH' (fun x hm => ?_) _).1 hhold, e4, ?_, hmg, e2⟩
  · obtain ⟨y, hy, hpy⟩ := hx x hm
    exact changes_touches (T := y.text) hpy (hkeep y hy)
  · intro gs hgs
    cases hgs
    exact e3

/-- An object with the groups that were saved. -/
theorem archived_ready {E : Env K} {S : Screen K} (hS : S.progress = [] ∨ S.progress.getLast? = some '\n') {rows : List (List K)} {w : ℕ}
    {distance : String} {t : Dbl K} {f : List (Tok K)} (ha : Archived E S rows w distance t f) :
    ∃ z : GSet K, Ready (rows.map (·.map .fin)) distance t false z ∧ (∀ gs, z.groups = some gs → gs.whole = false) ∧ z.ds.maxCol = w ∧
      z.save = (f, .ok ()) := by
  induction ha with
  | grouped hg hw hl =>
    obtain ⟨c, ht, hsv⟩ := leaves_save hl
    obtain ⟨z, hz, R, hwh⟩ := (groupedBy_grouped hS ht hg).readyWhole
    obtain ⟨g, hh, -, hm⟩ := width_data hS ht hw
    obtain ⟨i, a1, a2⟩ := (terminal_inv ht).holds.1 hz
    obtain ⟨j, b1, b2⟩ := (terminal_inv ht).holds.1 hh
    obtain rfl : i = j := by rw [a1] at b1; exact Option.some.inj b1
    obtain rfl : z = g := by rw [a2] at b2; exact Option.some.inj b2
    exact ⟨z, R, hwh, hm, hsv z hz⟩
  | again _ hr hl ih =>
    obtain ⟨c, ht, hsv⟩ := leaves_save hl
    obtain ⟨z, R, hwh, hm, hf⟩ := ih
    obtain ⟨z', hz', R', hwh', hm', -⟩ := restored_ready hS ht R hwh hm hf hr
    exact ⟨z', R', hwh', hm', hsv z' hz'⟩

end Genex.Spec
