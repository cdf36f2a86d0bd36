import Verif.Spec.PyAnswer
import Verif.Lemmas.Py
import Verif.Lemmas.EndToEnd

/-!
# Lemmas for C90: the answers of the Python module
-/

set_option linter.unusedSectionVars false

namespace Genex.Py

open Genex.Api

variable {K : Type}

theorem withSet_ok [Field K] [LinearOrder K] [HasSqrt K] {s s' : Api K} {name : String} {f : ℕ → GSet K → Api K × Reply K} {o : Out K}
    (h : s.withSet name f = (s', .ret (.ok o))) : ∃ id g, f id g = (s', .ret (.ok o)) := by
  unfold withSet at h
  split at h
  · cases h
  split at h
  · cases h
  · exact ⟨_, _, h⟩

theorem map_ok {α β : Type} {r : Res α} {f : α → β} {b : β} (h : r.map f = .ok b) : ∃ a, f a = b := by
  cases r with
  | error => cases h
  | ok a => cases h; exact ⟨a, rfl⟩

theorem candDict_match (c : Cand K) : (candDict c).IsMatch c.dist c.view.index c.view.start c.view.stop :=
  ⟨rfl, _, rfl, rfl, rfl, rfl⟩

theorem cands_match (l : List (Cand K)) : Matches (l.map candDict) l := by
  induction l with
  | nil => exact .nil
  | cons c l ih => exact .cons (candDict_match c) ih

theorem entries_match [Zero K] (l : List (GSet.Entry K)) : Entries (l.map entryDict) l := by
  induction l with
  | nil => exact .nil
  | cons c l ih =>
    cases c with
    | cand c => exact .cand (candDict_match c) ih
    | pad => exact .pad ⟨rfl, _, rfl, rfl, rfl, rfl⟩ ih

section

variable [Field K] [LinearOrder K] [HasSqrt K] [Arith K] [BandOps]

/-- The kind of what each call returns. -/
theorem answer_ok {E : Env K} {F : Files K} {name : String} {ws : List (Val K)} {c : AnyCall K} (hM : Means F name ws c)
    {s s' : Api K} {out : Out K} (h : Api.Step E s c s' (.ret (.ok out))) : Answer c out (result c out) := by
  cases hM <;> simp only [Api.Step, GroupCall, exec] at h
  case group =>
    split at h
    · cases h.2
    split at h
    · cases h.2
    obtain ⟨_, _, _, _, h⟩ := h
    simp only [Reply.ret.injEq] at h
    obtain ⟨_, rfl⟩ := map_ok h.symm
    exact .group
  case loadDataset =>
    split at h
    · cases h
    split at h
    · cases h
    · cases h
    simp only [Prod.mk.injEq, Reply.ret.injEq] at h
    obtain ⟨m, rfl⟩ := map_ok h.2
    exact .load rfl rfl rfl
  case unloadDataset =>
    obtain ⟨id, g, h⟩ := withSet_ok h
    split at h <;> cases h
    exact .unload
  case saveDataset =>
    obtain ⟨id, g, h⟩ := withSet_ok h
    simp only [Prod.mk.injEq, Reply.ret.injEq] at h
    obtain ⟨m, rfl⟩ := map_ok h.2
    exact .save
  case saveDataset0 =>
    obtain ⟨id, g, h⟩ := withSet_ok h
    simp only [Prod.mk.injEq, Reply.ret.injEq] at h
    obtain ⟨m, rfl⟩ := map_ok h.2
    exact .save
  case normalize =>
    obtain ⟨id, g, h⟩ := withSet_ok h
    split at h <;> cases h
    exact .normalize
  case getTimeSeriesName =>
    obtain ⟨id, g, h⟩ := withSet_ok h
    simp only [Prod.mk.injEq, Reply.ret.injEq] at h
    obtain ⟨m, rfl⟩ := map_ok h.2
    exact .seriesName
  case getTimeSeriesLength =>
    obtain ⟨id, g, h⟩ := withSet_ok h
    simp only [Prod.mk.injEq, Reply.ret.injEq] at h
    obtain ⟨m, rfl⟩ := map_ok h.2
    exact .seriesLength
  case preparePAA =>
    obtain ⟨id, g, h⟩ := withSet_ok h
    split at h
    · split at h
      · cases h
      split at h
      · cases h
      simp only [Prod.mk.injEq, Reply.ret.injEq] at h
      obtain ⟨m, rfl⟩ := map_ok h.2
      exact .preparePAA
    · split at h
      · cases h
      simp only [Prod.mk.injEq, Reply.ret.injEq] at h
      obtain ⟨m, rfl⟩ := map_ok h.2
      exact .preparePAA
  case saveGroups =>
    obtain ⟨id, g, h⟩ := withSet_ok h
    simp only [Prod.mk.injEq, Reply.ret.injEq] at h
    obtain ⟨m, rfl⟩ := map_ok h.2
    exact .saveGroups
  case saveGroupsSize =>
    obtain ⟨id, g, h⟩ := withSet_ok h
    simp only [Prod.mk.injEq, Reply.ret.injEq] at h
    obtain ⟨m, rfl⟩ := map_ok h.2
    exact .saveSizes
  case loadGroups =>
    obtain ⟨id, g, h⟩ := withSet_ok h
    simp only [Prod.mk.injEq, Reply.ret.injEq] at h
    obtain ⟨m, rfl⟩ := map_ok h.2
    exact .loadGroups
  case distance =>
    obtain ⟨id, g, h1⟩ := withSet_ok h
    clear h
    obtain ⟨id', g', h⟩ := withSet_ok h1
    clear h1
    simp only [Prod.mk.injEq, Reply.ret.injEq, bind, Except.bind] at h
    replace h := h.2
    split at h
    · cases h
    split at h
    · cases h
    split at h
    · cases h
    obtain ⟨m, rfl⟩ := map_ok h
    exact .distance
  case getMatching =>
    obtain ⟨id, g, h1⟩ := withSet_ok h
    clear h
    obtain ⟨id', g', h⟩ := withSet_ok h1
    clear h1
    simp only [Prod.mk.injEq, Reply.ret.injEq, bind, Except.bind] at h
    replace h := h.2
    split at h
    · cases h
    split at h
    · cases h
    split at h
    · cases h
    split at h
    · cases h
    split at h
    · cases h
    obtain ⟨m, rfl⟩ := map_ok h
    exact .matching
  case sim =>
    obtain ⟨id, g, h1⟩ := withSet_ok h
    clear h
    obtain ⟨id', g', h⟩ := withSet_ok h1
    clear h1
    simp only [Prod.mk.injEq, Reply.ret.injEq, bind, Except.bind] at h
    replace h := h.2
    split at h
    · cases h
    obtain ⟨m, rfl⟩ := map_ok h
    exact .sim (candDict_match m)
  case ksim =>
    obtain ⟨id, g, h1⟩ := withSet_ok h
    clear h
    obtain ⟨id', g', h⟩ := withSet_ok h1
    clear h1
    simp only [Prod.mk.injEq, Reply.ret.injEq, bind, Except.bind] at h
    replace h := h.2
    split at h
    · cases h
    obtain ⟨m, rfl⟩ := map_ok h
    exact .ksim (entries_match m)
  case ksimbf =>
    obtain ⟨id, g, h1⟩ := withSet_ok h
    clear h
    obtain ⟨id', g', h⟩ := withSet_ok h1
    clear h1
    simp only [Prod.mk.injEq, Reply.ret.injEq, bind, Except.bind] at h
    replace h := h.2
    split at h
    · cases h
    obtain ⟨m, rfl⟩ := map_ok h
    exact .ksimbf (cands_match m)
  case ksimpaa =>
    obtain ⟨id, g, h1⟩ := withSet_ok h
    clear h
    obtain ⟨id', g', h⟩ := withSet_ok h1
    clear h1
    split at h
    · cases h
    split at h
    · cases h
    split at h
    · cases h
    split at h
    · cases h
    split at h
    · cases h
    simp only [Prod.mk.injEq, Reply.ret.injEq] at h
    obtain ⟨m, rfl⟩ := map_ok h.2
    exact .ksimpaa (cands_match m)
  case getTimeSeries =>
    obtain ⟨id, g, h⟩ := withSet_ok h
    simp only [Prod.mk.injEq, Reply.ret.injEq] at h
    obtain ⟨m, rfl⟩ := map_ok h.2
    exact .series
  case getAllDistances =>
    cases h
    exact .allDistances
  case setWarpingBandRatio =>
    cases h
    exact .setRatio

theorem tells_of {E : Env K} {F : Files K} {name : String} {ws : List (Val K)} {c : AnyCall K} (hM : Means F name ws c)
    {s s' : Api K} {r : Reply K} (h : Api.Step E s c s' r) : Tells c r (outcome c r) := by
  cases r with
  | dangling => exact .dangling
  | ret r =>
    cases r with
    | ok out => exact .value (answer_ok hM h)
    | error e =>
      cases e with
      | genex m => exact .genex m
      | std m => exact .std m
      | ub m => exact .ub m
      | diverge => exact .diverge

/-- A session is a history of the calls that it makes. -/
theorem session_history {E : Env K} {s s' : Api K} {l : List (Line K)} (hs : Session E s l s') :
    ∃ h, Registry.History E s h s' ∧ ∀ e ∈ h, ∃ x ∈ l, request x.1 x.2.1 x.2.2.1 x.2.2.2 = .call e.1 := by
  induction hs with
  | nil => exact ⟨[], .nil _, by simp⟩
  | @snoc _ _ l F name pos kw o h1 h2 h3 ih =>
    obtain ⟨h, hh, hl⟩ := ih
    unfold Turn at h2
    split at h2
    · obtain ⟨rfl, -⟩ := h2
      exact ⟨h, hh, fun e he => by obtain ⟨x, hx, hr⟩ := hl e he; exact ⟨x, by simp [hx], hr⟩⟩
    · obtain ⟨rfl, -⟩ := h2
      exact ⟨h, hh, fun e he => by obtain ⟨x, hx, hr⟩ := hl e he; exact ⟨x, by simp [hx], hr⟩⟩
    · obtain ⟨rfl, -⟩ := h2
      exact ⟨h, hh, fun e he => by obtain ⟨x, hx, hr⟩ := hl e he; exact ⟨x, by simp [hx], hr⟩⟩
    · rename_i c hc
      obtain ⟨r, hr, rfl⟩ := h2
      refine ⟨_, .snoc hh hr ?_, ?_⟩
      · unfold outcome at h3
        split at h3 <;> first | exact h3.elim | trivial
      · intro e he
        rcases List.mem_append.1 he with he | he
        · obtain ⟨x, hx, hr⟩ := hl e he; exact ⟨x, by simp [hx], hr⟩
        · simp only [List.mem_singleton] at he
          subst he
          exact ⟨(F, name, pos, kw), by simp, hc⟩

/-- The first parameter has no default, so it is given by position. -/
theorem first_positional {p : Par K} {ps : List (Par K)} {pos : List (Val K)} {kw : List (String × Val K)} {vals : List (Val K)}
    (B : Binds (p :: ps) pos kw vals) (hd : p.dflt = none) (hn : ∀ p' ∈ ps, p'.name ≠ p.name)
    (hopt : ∀ e ∈ kw, ∃ p' ∈ p :: ps, p'.dflt.isSome ∧ p'.name = e.1) : pos.head? = vals.head? := by
  cases pos with
  | cons v pos =>
    have := B.positional 0 (by simp)
    rw [List.head?_eq_getElem?, List.head?_eq_getElem?, this]
  | nil =>
    exfalso
    have h0 := B.rest 0 p (by simp) rfl
    rw [hd, Option.or_none] at h0
    have hlen := B.length
    cases vals with
    | nil => simp at hlen
    | cons v vals =>
      have : p.name ∈ kw.map Prod.fst := lookup_isSome.1 (by rw [← h0]; rfl)
      obtain ⟨e, he, hpe⟩ := List.mem_map.1 this
      obtain ⟨p', hp', hs, hname⟩ := hopt e he
      rcases List.mem_cons.1 hp' with rfl | hp'
      · rw [hd] at hs; cases hs
      · exact hn p' hp' (hname.trans hpe)

/-- The calls that change a dataset have its name as first argument. -/
theorem request_changes {F : Files K} {fn : String} {pos : List (Val K)} {kw : List (String × Val K)} {c : AnyCall K}
    (hk : (kw.map Prod.fst).Nodup) (hr : request F fn pos kw = .call c) {name : String}
    (hc : Registry.Changes c ∧ (name ∈ Registry.named c ∨ c = .call .unloadAll)) :
    fn ∈ ["loadDataset", "unloadDataset", "normalize", "group", "loadGroups"] ∧ pos.head? = some (.str name) ∧
      ((∃ n t d th w, c = .group n t d th w) ∨ (∃ n f, c = .call (.loadGroups n f)) ∨
        fn ∈ ["loadDataset", "unloadDataset", "normalize"]) := by
  by_cases hm : fn = "getMatching"
  · subst hm
    have hf : functions.find? (fun f : Fn K => f.name == "getMatching") = some _ := rfl
    simp only [request] at hr
    rw [hf] at hr
    simp only at hr
    split at hr
    · cases hr
    split at hr
    · cases hr
    split at hr
    · cases hr
    split at hr
    · cases hr
    rename_i hb
    split at hb
    · cases hb; cases hr; exact hc.1.elim
    · cases hb
  obtain ⟨ps, vals, ws, h1, B, FA, M, hopt⟩ := (request_iff F fn hm pos kw hk c).1 hr
  have hN := hc.2
  cases M <;> first | exact hc.1.elim | skip
  all_goals
    cases h1
    cases FA with
    | cons hf hrest =>
      cases hf
      simp [Registry.named] at hN
      subst hN
      refine ⟨by simp, ?_, by simp⟩
      rw [first_positional B rfl (by simp) hopt]
      rfl

/-- All arguments given by position. -/
theorem request_all {F : Files K} {fn : String} (hne : fn ≠ "getMatching") {ps : List (Par K)} (hs : signature fn = some ps)
    {pos ws : List (Val K)} (hl : pos.length = ps.length) {c : AnyCall K} (hf : FitsAll ps pos ws) (hM : Means F fn ws c) :
    request F fn pos [] = .call c := by
  refine (request_iff F fn hne pos [] (by simp) c).2 ⟨ps, pos, ws, hs, ⟨hl.le, hl, fun i hi => rfl, ?_, by simp⟩, hf, hM, by simp⟩
  intro i p hi hp
  rw [List.getElem?_eq_none (by omega)] at hp
  cases hp

theorem spares_keep {name : String} {l : List (Line K)} {h : List (AnyCall K × Reply K)}
    (hr : ∀ e ∈ h, ∃ x ∈ l, request x.1 x.2.1 x.2.2.1 x.2.2.2 = .call e.1)
    (hk : ∀ e ∈ l, Line.Spares ["loadDataset", "unloadDataset", "normalize"] name e) : ∀ e ∈ h, ¬ Registry.ChangesData name e.1 := by
  intro e he hch
  obtain ⟨x, hx, hq⟩ := hr e he
  obtain ⟨k1, k2⟩ := hk x hx
  have hcc := Registry.changesData_changes hch
  obtain ⟨-, k4, k5⟩ := request_changes k1 hq hcc
  rcases k5 with ⟨n, t, d, th, w, e1⟩ | ⟨n, f, e1⟩ | k5
  · rw [e1] at hch; exact hch
  · rw [e1] at hch; exact hch
  · exact k2 k5 k4

/-- What a call of `loadDataset` with all arguments does. -/
theorem turn_load {E : Env K} {F : Files K} {s s₁ : Api K} {content : Text} {name path sep : String} {mr : Int} {sc : ℕ} {hn : Bool} {o : Obj K}
    (ht : F.text path = some content)
    (hl : Turn E F s "loadDataset" [.str name, .str path, .str sep, .int mr, .int sc, .bool hn] [] s₁ (.value o)) :
    ∃ out, s.exec E (.load name (some content) path.toList sep.toList mr sc hn) = (s₁, .ret (.ok out)) := by
  unfold Turn at hl
  split at hl
  · cases hl.2
  · cases hl.2
  · cases hl.2
  rename_i c hc
  obtain ⟨r, hr, ho⟩ := hl
  have hM := (request_iff F "loadDataset" (by decide) _ _ (by simp) c).1 hc
  obtain ⟨ps, vals, ws, h1, B, FA, M, -⟩ := hM
  cases h1
  have hv : vals = [.str name, .str path, .str sep, .int mr, .int sc, .bool hn] := by
    refine List.ext_getElem? fun i => ?_
    by_cases hi : i < 6
    · exact B.positional i (by simpa using hi)
    · rw [List.getElem?_eq_none (by rw [B.length]; simp; omega), List.getElem?_eq_none (by simp; omega)]
  subst hv
  have hw : ws = [.str name, .str path, .str sep, .int mr, .int sc, .bool hn] := by
    cases FA with
    | cons a1 FA =>
    cases FA with
    | cons a2 FA =>
    cases FA with
    | cons a3 FA =>
    cases FA with
    | cons a4 FA =>
    cases FA with
    | cons a5 FA =>
    cases FA with
    | cons a6 FA =>
      cases FA
      cases a1; cases a2; cases a3; cases a4; cases a5; cases a6
      rfl
  subst hw
  have hb' := means_body M _ rfl
  cases hb'
  rw [ht] at hr hc
  cases r with
  | dangling => cases ho
  | ret r =>
    cases r with
    | error e => cases e <;> cases ho
    | ok out => exact ⟨out, hr⟩

theorem turn_normalize {E : Env K} {F : Files K} {s s₁ : Api K} {name : String} {o : Obj K}
    (hn : Turn E F s "normalize" [.str name] [] s₁ (.value o)) : ∃ out, s.exec E (.normalize name) = (s₁, .ret (.ok out)) := by
  unfold Turn at hn
  rw [request_all (ps := [⟨"name", .str, none⟩]) (ws := [.str name]) (c := .call (.normalize name)) (by decide) rfl rfl (.cons (.str _) .nil)
    (.normalize name)] at hn
  obtain ⟨r, hr, ho⟩ := hn
  cases r with
  | dangling => cases ho
  | ret r =>
    cases r with
    | error e => cases e <;> cases ho
    | ok out => exact ⟨out, hr⟩

theorem turn_group {E : Env K} {F : Files K} {s s₁ : Api K} {name d : String} {t : Dbl K} {nt : Int} {w : Bool} {o : Obj K}
    (hg : Turn E F s "group" [.str name, .float t, .str d, .int nt, .bool w] [] s₁ (.value o)) :
    ∃ out, Api.Step E s (.group name t d nt w) s₁ (.ret (.ok out)) := by
  unfold Turn at hg
  split at hg
  · cases hg.2
  · cases hg.2
  · cases hg.2
  rename_i c hc
  obtain ⟨r, hr, ho⟩ := hg
  have hM := (request_iff F "group" (by decide) _ _ (by simp) c).1 hc
  obtain ⟨ps, vals, ws, h1, B, FA, M, -⟩ := hM
  cases h1
  have hv : vals = [.str name, .float t, .str d, .int nt, .bool w] := by
    refine List.ext_getElem? fun i => ?_
    by_cases hi : i < 5
    · exact B.positional i (by simpa using hi)
    · rw [List.getElem?_eq_none (by rw [B.length]; simp; omega), List.getElem?_eq_none (by simp; omega)]
  subst hv
  have hw : ws = [.str name, .float t, .str d, .int nt, .bool w] := by
    cases FA with
    | cons a1 FA =>
    cases FA with
    | cons a2 FA =>
    cases FA with
    | cons a3 FA =>
    cases FA with
    | cons a4 FA =>
    cases FA with
    | cons a5 FA =>
      cases FA
      cases a1; cases a2; cases a3; cases a4; cases a5
      rfl
  subst hw
  have hb' := means_body M _ rfl
  cases hb'
  cases r with
  | dangling => cases ho
  | ret r =>
    cases r with
    | error e => cases e <;> cases ho
    | ok out => exact ⟨out, hr⟩

/-- Calls that spare the name do not change its groups. -/
theorem spares_groups {name : String} {l : List (Line K)} {h : List (AnyCall K × Reply K)}
    (hr : ∀ e ∈ h, ∃ x ∈ l, request x.1 x.2.1 x.2.2.1 x.2.2.2 = .call e.1)
    (hk : ∀ e ∈ l, Line.Spares ["loadDataset", "unloadDataset", "normalize", "group", "loadGroups"] name e) :
    ∀ e ∈ h, ¬ (Registry.Changes e.1 ∧ (name ∈ Registry.named e.1 ∨ e.1 = .call .unloadAll)) := by
  intro e he hcc
  obtain ⟨x, hx, hq⟩ := hr e he
  obtain ⟨k1, k2⟩ := hk x hx
  obtain ⟨k3, k4, -⟩ := request_changes k1 hq hcc
  exact k2 k3 k4

theorem PyLoaded.loaded {E : Env K} {name : String} {rows : List (List K)} {s : Api K} (h : PyLoaded E name rows s) :
    Registry.Loaded E name rows s := by
  induction h with
  | @mk l l' s s₁ s' F content path sep mr sc hn rows o hb ht hf hl ha hk =>
    obtain ⟨h, hh, -⟩ := session_history hb
    obtain ⟨h', hh', hr'⟩ := session_history ha
    obtain ⟨out, hr⟩ := turn_load ht hl
    exact .mk hh hf hr hh' (spares_keep hr' hk)
  | @normalised l s s₁ s' F raw rows o _ hs hn ha hk ih =>
    obtain ⟨h', hh', hr'⟩ := session_history ha
    obtain ⟨out, hr⟩ := turn_normalize hn
    exact .normalised ih hs hr hh' (spares_keep hr' hk)

theorem PyGrouped.grouped {E : Env K} {name : String} {rows : List (List K)} {d : String} {t : Dbl K} {w : Bool} {s : Api K}
    (h : PyGrouped E name rows d t w s) : Registry.Grouped E name rows d t w s := by
  obtain @⟨l, s, s₁, s', F, nt, o, hl, hg, ha, hk⟩ := h
  obtain ⟨h', hh', hr'⟩ := session_history ha
  obtain ⟨out, hr⟩ := turn_group hg
  exact .mk hl.loaded hr hh' (spares_groups hr' hk)

theorem session_trans {E : Env K} {s t u : Api K} {l l' : List (Line K)} (h1 : Session E s l t) (h2 : Session E t l' u) :
    Session E s (l ++ l') u := by
  induction h2 with
  | nil => simpa using h1
  | snoc _ ht hg ih => rw [← List.append_assoc]; exact .snoc ih ht hg

theorem PyGrouped.pyLoaded {E : Env K} {name : String} {rows : List (List K)} {d : String} {t : Dbl K} {w : Bool} {s : Api K}
    (h : PyGrouped E name rows d t w s) : PyLoaded E name rows s := by
  obtain ⟨hL, hg, ha', hk'⟩ := h
  cases hL with
  | mk hb ht hf hl ha hk =>
    refine .mk hb ht hf hl (session_trans (session_trans ha (.snoc (.nil _) hg trivial)) ha') ?_
    intro e he
    simp only [List.nil_append, List.mem_append, List.mem_singleton] at he
    rcases he with (he | rfl) | he
    · exact hk e he
    · exact ⟨by simp, by simp⟩
    · exact ⟨(hk' e he).1, fun h => (hk' e he).2 (by simp at h ⊢; tauto)⟩
  | normalised hb hs hn ha hk =>
    refine .normalised hb hs hn (session_trans (session_trans ha (.snoc (.nil _) hg trivial)) ha') ?_
    intro e he
    simp only [List.nil_append, List.mem_append, List.mem_singleton] at he
    rcases he with (he | rfl) | he
    · exact hk e he
    · exact ⟨by simp, by simp⟩
    · exact ⟨(hk' e he).1, fun h => (hk' e he).2 (by simp at h ⊢; tauto)⟩

/-- An `int` of C++. -/
def IntSized (z : Int) : Prop := -2 ^ 31 ≤ z ∧ z < 2 ^ 31

theorem request_sim {F : Files K} {t q : String} {i a b : Int} {c : AnyCall K}
    (h : request F "sim" [.str t, .str q, .int i, .int a, .int b] [] = .call c) : c = .call (.bestMatch t q i a b) := by
  obtain ⟨ps, vals, ws, h1, B, FA, M, -⟩ := (request_iff F "sim" (by decide) _ _ (by simp) c).1 h
  cases h1
  have hv : vals = [.str t, .str q, .int i, .int a, .int b] := by
    refine List.ext_getElem? fun i => ?_
    by_cases hi : i < 5
    · exact B.positional i (by simpa using hi)
    · rw [List.getElem?_eq_none (by rw [B.length]; simp; omega), List.getElem?_eq_none (by simp; omega)]
  subst hv
  have hw : ws = [.str t, .str q, .int i, .int a, .int b] := by
    cases FA with
    | cons a1 FA =>
    cases FA with
    | cons a2 FA =>
    cases FA with
    | cons a3 FA =>
    cases FA with
    | cons a4 FA =>
    cases FA with
    | cons a5 FA =>
      cases FA
      cases a1; cases a2; cases a3; cases a4; cases a5
      rfl
  subst hw
  have hb' := means_body M _ rfl
  cases hb'
  rfl

theorem request_sim_small {F : Files K} {t q : String} {i a b : Int} (hi : IntSized i) (ha : IntSized a) (hb : IntSized b) :
    request F "sim" [.str t, .str q, .int i, .int a, .int b] [] = .call (.call (.bestMatch t q i a b)) :=
  request_all (by decide) rfl rfl (.cons (.str _) (.cons (.str _) (.cons (.int hi.1 hi.2) (.cons (.int ha.1 ha.2)
    (.cons (.int hb.1 hb.2) .nil))))) (.sim t q i a b)

theorem request_series {F : Files K} {t : String} {i a b : Int} {c : AnyCall K}
    (h : request F "getTimeSeries" [.str t, .int i, .int a, .int b] [] = .call c) :
    c = .call (.series t i a b) ∧ IntSized i ∧ IntSized a ∧ IntSized b := by
  obtain ⟨ps, vals, ws, h1, B, FA, M, -⟩ := (request_iff F "getTimeSeries" (by decide) _ _ (by simp) c).1 h
  cases h1
  have hv : vals = [.str t, .int i, .int a, .int b] := by
    refine List.ext_getElem? fun i => ?_
    by_cases hi : i < 4
    · exact B.positional i (by simpa using hi)
    · rw [List.getElem?_eq_none (by rw [B.length]; simp; omega), List.getElem?_eq_none (by simp; omega)]
  subst hv
  have hw : ws = [.str t, .int i, .int a, .int b] ∧ IntSized i ∧ IntSized a ∧ IntSized b := by
    cases FA with
    | cons a1 FA =>
    cases FA with
    | cons a2 FA =>
    cases FA with
    | cons a3 FA =>
    cases FA with
    | cons a4 FA =>
      cases FA
      cases a1
      cases a2 with
      | int x1 x2 =>
      cases a3 with
      | int y1 y2 =>
      cases a4 with
      | int z1 z2 =>
      exact ⟨rfl, ⟨x1, x2⟩, ⟨y1, y2⟩, z1, z2⟩
  obtain ⟨rfl, hw⟩ := hw
  have hb' := means_body M _ rfl
  cases hb'
  exact ⟨rfl, hw⟩

theorem request_series_small {F : Files K} {t : String} {i a b : Int} (hi : IntSized i) (ha : IntSized a) (hb : IntSized b) :
    request F "getTimeSeries" [.str t, .int i, .int a, .int b] [] = .call (.call (.series t i a b)) :=
  request_all (by decide) rfl rfl (.cons (.str _) (.cons (.int hi.1 hi.2) (.cons (.int ha.1 ha.2)
    (.cons (.int hb.1 hb.2) .nil)))) (.getTimeSeries t i a b)

theorem request_distance_small {F : Files K} {n₁ n₂ d : String} {i₁ s₁ e₁ i₂ s₂ e₂ : Int} (h1 : IntSized i₁) (h2 : IntSized s₁) (h3 : IntSized e₁)
    (h4 : IntSized i₂) (h5 : IntSized s₂) (h6 : IntSized e₂) :
    request F "distance" [.str n₁, .int i₁, .int s₁, .int e₁, .str n₂, .int i₂, .int s₂, .int e₂, .str d] [] =
      .call (.call (.distance n₁ i₁ s₁ e₁ n₂ i₂ s₂ e₂ d)) :=
  request_all (by decide) rfl rfl (.cons (.str _) (.cons (.int h1.1 h1.2) (.cons (.int h2.1 h2.2) (.cons (.int h3.1 h3.2)
    (.cons (.str _) (.cons (.int h4.1 h4.2) (.cons (.int h5.1 h5.2) (.cons (.int h6.1 h6.2) (.cons (.str _) .nil)))))))))
    (.distance n₁ n₂ d i₁ s₁ e₁ i₂ s₂ e₂)

theorem request_ksim_small {F : Files K} {k ke : Int} {t q : String} {i a b : Int} (hk : IntSized k) (hke : IntSized ke) (hi : IntSized i)
    (ha : IntSized a) (hb : IntSized b) :
    request F "ksim" [.int k, .int ke, .str t, .str q, .int i, .int a, .int b] [] = .call (.call (.kBest k ke t q i a b)) :=
  request_all (by decide) rfl rfl (.cons (.int hk.1 hk.2) (.cons (.int hke.1 hke.2) (.cons (.str _) (.cons (.str _)
    (.cons (.int hi.1 hi.2) (.cons (.int ha.1 ha.2) (.cons (.int hb.1 hb.2) .nil))))))) (.ksim t q k ke i a b)

theorem request_ksimbf_small {F : Files K} {k : Int} {t q d : String} {i a b : Int} (hk : IntSized k) (hi : IntSized i)
    (ha : IntSized a) (hb : IntSized b) :
    request F "ksimbf" [.int k, .str t, .str q, .int i, .int a, .int b, .str d] [] = .call (.call (.bruteForce k t q i a b d)) :=
  request_all (by decide) rfl rfl (.cons (.int hk.1 hk.2) (.cons (.str _) (.cons (.str _)
    (.cons (.int hi.1 hi.2) (.cons (.int ha.1 ha.2) (.cons (.int hb.1 hb.2) (.cons (.str _) .nil))))))) (.ksimbf t q d k i a b)

theorem request_normalize {F : Files K} {t : String} :
    request F "normalize" [.str t] [] = .call (.call (.normalize t)) :=
  request_all (by decide) rfl rfl (.cons (.str _) .nil) (.normalize t)

theorem map_float_inj {l : List (Dbl K)} {q : List K}
    (h : l.map (fun x => (.float x : Obj K)) = q.map (fun x => .float (.fin x))) : l = q.map .fin := by
  induction l generalizing q with
  | nil => cases q with
    | nil => rfl
    | cons => cases h
  | cons x l ih => cases q with
    | nil => cases h
    | cons y q =>
      simp only [List.map_cons, List.cons.injEq, Obj.float.injEq] at h
      simp [h.1, ih h.2]

/-- What is read is the query of the interface. -/
theorem Reads.query {E : Env K} {F : Files K} {s : Api K} {name : String} {i a b : Int} {q : List K} (h : Reads E F s name i a b q) :
    Registry.Query E s name i a b q ∧ IntSized i ∧ IntSized a ∧ IntSized b := by
  obtain ⟨s', h⟩ := h
  unfold Turn at h
  split at h
  · cases h.2
  · cases h.2
  · cases h.2
  rename_i c hc
  obtain ⟨r, hr, ho⟩ := h
  obtain ⟨rfl, hsm⟩ := request_series hc
  refine ⟨⟨s', ?_⟩, hsm⟩
  simp only [Api.Step] at hr
  cases r with
  | dangling => cases ho
  | ret r =>
    cases r with
    | error e => cases e <;> cases ho
    | ok out =>
      have := hr
      simp only [exec] at this
      obtain ⟨id, g, h⟩ := withSet_ok this
      simp only [Prod.mk.injEq, Reply.ret.injEq] at h
      obtain ⟨m, rfl⟩ := map_ok h.2
      simp only [outcome, result, toObj, Outcome.value.injEq, Obj.list.injEq] at ho
      rw [hr, map_float_inj ho.symm]

/-- And the other way round. -/
theorem reads_of {E : Env K} {F : Files K} {s : Api K} {name : String} {i a b : Int} {q : List K}
    (h : Registry.Query E s name i a b q) (hi : IntSized i) (ha : IntSized a) (hb : IntSized b) : Reads E F s name i a b q := by
  obtain ⟨s', h⟩ := h
  refine ⟨s', ?_⟩
  unfold Turn
  rw [request_series_small hi ha hb]
  refine ⟨_, h, ?_⟩
  simp only [outcome, result, toObj, List.map_map]
  rfl

end

end Genex.Py
