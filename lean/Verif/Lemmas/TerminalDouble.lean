import Verif.Spec.TerminalDouble
import Verif.Lemmas.Terminal
import Verif.Props.Double

/-!
# Lemmas for `Props/TerminalDouble`
-/

set_option linter.unusedSectionVars false

namespace Genex.Spec

open Genex Genex.Cli Genex.Registry Genex.Api Genex.Manual Genex.Props

variable {K : Type} [Field K] [LinearOrder K] [IsStrictOrderedRing K] [FloorRing K] [HasSqrt K] [A : Arith K] [BandOps]

theorem servedBy_serves {E : Env K} {S : Screen K} (hS : S.progress = [] ∨ S.progress.getLast? = some '\n') {c : Console K}
    {h : List (Entered K)} (ht : Terminal E S Console.fresh h c) {name : String} {W : ℕ} {rows : List (List K)} (hl : ServedBy E name W h rows) :
    ∃ R file, R * W ≤ 2 ^ 52 ∧ Sized roundDouble (2 ^ 480) file ∧ Serves E roundDouble name R W file rows c.api := by
  induction hl generalizing c with
  | @load h₁ h₂ e args content path sep mr sc hn rows hty hu hfile hsz hw hcells hfine hkeep =>
    obtain ⟨b, hb, hr⟩ := terminal_split ht
    rw [← List.singleton_append] at hr
    obtain ⟨b', he, hr⟩ := terminal_split hr
    have hp := usage_runs hty hu (usage_load hu)
    obtain ⟨out, hst⟩ := fine_returns hS he hp hfine
    obtain ⟨H, hH, -⟩ := terminal_history hb
    obtain ⟨H', hH', hx⟩ := terminal_history hr
    refine ⟨_, rows, hcells, hsz, .loaded (s₁ := b'.api) hH hfile le_rfl hw (path := path) (o := out) hst hH' ?_⟩
    intro x hm
    obtain ⟨y, hy, hpy⟩ := hx x hm
    exact changesData_touches (T := y.text) hpy (hkeep y hy)
  | @normalize h₁ h₂ e raw rows hb0 hty hs hfine hkeep ih =>
    obtain ⟨b, hb, hr⟩ := terminal_split ht
    rw [← List.singleton_append] at hr
    obtain ⟨b', he, hr⟩ := terminal_split hr
    have hp := usage_runs hty (.normalize name) (by simp)
    obtain ⟨out, hst⟩ := fine_returns hS he hp hfine
    obtain ⟨H', hH', hx⟩ := terminal_history hr
    obtain ⟨R, file, k1, k2, k3⟩ := ih hb
    refine ⟨R, file, k1, k2, .normalised (s₁ := b'.api) k3 (o := out) hst hs hH' ?_⟩
    intro x hm
    obtain ⟨y, hy, hpy⟩ := hx x hm
    exact changesData_touches (T := y.text) hpy (hkeep y hy)

theorem servedGroups_grouped {E : Env K} {S : Screen K} (hS : S.progress = [] ∨ S.progress.getLast? = some '\n') {c : Console K}
    {h : List (Entered K)} (ht : Terminal E S Console.fresh h c) {name : String} {W : ℕ} {rows : List (List K)} {dist : String} {t : Dbl K}
    (hg : ServedGroups E h name W rows dist t) :
    ∃ R file, R * W ≤ 2 ^ 52 ∧ Sized roundDouble (2 ^ 480) file ∧
      GroupedOn E (Serves E roundDouble name R W file rows) name dist t false c.api := by
  obtain ⟨h₁, h₂, e, args, threads, rfl, hl, hty, hu, hfine, hkeep⟩ := hg
  obtain ⟨b, hb, hr⟩ := terminal_split ht
  rw [← List.singleton_append] at hr
  obtain ⟨b', he, hr⟩ := terminal_split hr
  have hp := usage_runs hty hu (usage_group hu)
  obtain ⟨out, hst⟩ := fine_returns hS he hp hfine
  obtain ⟨H', hH', hx⟩ := terminal_history hr
  obtain ⟨R, file, k1, k2, k3⟩ := servedBy_serves hS hb hl
  refine ⟨R, file, k1, k2, .mk k3 hst hH' ?_⟩
  intro x hm
  obtain ⟨y, hy, hpy⟩ := hx x hm
  exact changes_touches (T := y.text) hpy (hkeep y hy)

theorem asksServed_query (hA : A = doubleArith) {E : Env K} {S : Screen K} (hS : S.progress = [] ∨ S.progress.getLast? = some '\n')
    {c : Console K} {h : List (Entered K)} (ht : Terminal E S Console.fresh h c) {name : String} {i a b : Int} {q : List K}
    (hq : AsksServed E h name i a b q) : Query E c.api name i a b q ∧ Sized roundDouble (2 ^ 480) [q] := by
  obtain ⟨W, rows, n, r, hl, rfl, hr, hrange⟩ := hq
  obtain ⟨R, file, k1, k2, k3⟩ := servedBy_serves hS ht hl
  obtain ⟨hI, hsz, g, hg, H, -⟩ := serves_double hA k2 k1 k3
  have hrs := hsz r (List.mem_of_getElem? hr)
  rcases hrange with ⟨rfl, rfl, rfl⟩ | ⟨p, e, rfl, rfl, hpe, her, rfl⟩
  · refine ⟨?_, fun x hx => by rw [List.mem_singleton.1 hx]; exact hrs⟩
    obtain ⟨id, h1, h2⟩ := hI.holds.1 hg
    refine ⟨c.api, ?_⟩
    simp only [exec]
    rw [withSet_some h1 h2]
    have hr' : (rows.map (·.map Dbl.fin))[n]? = some (q.map .fin) := by rw [List.getElem?_map, hr]; rfl
    obtain ⟨v, hv, -, hpts⟩ := C22_whole g.ds _ H n _ hr'
    have : queryOf g n (-1) (-1) = .ok (q.map .fin) := by
      unfold queryOf
      rw [hv]
      exact hpts
    rw [this]
    rfl
  · exact C88_query hA k2 k1 k3 n p e r hr hpe her

/-- What a line that is a call says, if the reply of the call is known. -/
theorem terminal_says {E : Env K} {S : Screen K} {c d : Console K} {e : Entered K} {a : Call K} {s : Api K} {out : Out K}
    (ht : Terminal E S c [e] d) (hp : processLine e.env e.line = .run (.ok (.call (.call a))))
    (hc : c.api.exec E a = (s, .ret (.ok out))) :
    '\n' ∉ e.line.toList ∧ ∃ ps, Says E e.env c e.line d ps (.reply (.ret (.ok out))) ∧ e.text = Piece.texts S ps := by
  obtain ⟨hl, ps, o, ⟨t1, t2⟩, -, htx⟩ := terminal_one ht
  refine ⟨hl, ps, ?_, htx⟩
  have : o = .reply (.ret (.ok out)) := by
    unfold Turn at t1
    rw [hp] at t1
    obtain ⟨r', hr', rfl⟩ := t1
    have hr'' : c.api.exec E a = (d.api, r') := hr'
    rw [hc] at hr''
    exact congrArg Outcome.reply (congrArg Prod.snd hr'').symm
  rw [← this]
  exact ⟨t1, t2⟩

/-- The digits shown for a match. -/
theorem terminal_shown {E : Env K} {S : Screen K} {c : Console K} {h : List (Entered K)} (ht : Terminal E S Console.fresh h c) :
    (if c.timer then 4 else c.digits) ∈ [4, 6, 16] ∧ ((∀ l ∈ h, ¬ Starts l.line "timer") → (if c.timer then 4 else c.digits) = 4) := by
  constructor
  · split
    · decide
    · exact terminal_digits ht
  · intro hn
    rw [if_pos (terminal_timer ht hn)]

end Genex.Spec
