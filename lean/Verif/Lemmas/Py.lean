import Mathlib.Data.List.Perm.Subperm
import Mathlib.Data.List.Nodup
import Verif.Spec.Py

/-!
# Lemmas: the Python module
-/

set_option linter.unusedSectionVars false

namespace Genex.Py

variable {K : Type}

/-! ## Binding -/

/-- The name and default of a parameter, if it has a default. -/
def Par.out (p : Par K) : Option (String × Val K) := p.dflt.map (fun d => (p.name, d))

/-- The parameters of a function are those of a signature. -/
structure Agrees (types : List Ty) (kws : List (String × Val K)) (ps : List (Par K)) : Prop where
  le : kws.length ≤ types.length
  tys : ps.map Par.ty = types
  pars : params types kws = ps.map Par.out

theorem params_length {types : List Ty} {kws : List (String × Val K)} (h : kws.length ≤ types.length) :
    (params types kws).length = types.length := by
  simp [params]; omega

theorem lookup_isSome {kw : List (String × Val K)} {k : String} : (kw.lookup k).isSome ↔ k ∈ kw.map Prod.fst := by
  induction kw with
  | nil => simp
  | cons e l ih =>
    rw [List.lookup_cons]
    by_cases h : k = e.1
    · simp [h]
    · simp [h, beq_eq_false_iff_ne.2 h, ih]

/-- The names in a list of parameters. -/
def nms (l : List (Option (String × Val K))) : List String := l.filterMap (Option.map Prod.fst)

theorem used_eq (kw : List (String × Val K)) (l : List (Option (String × Val K))) :
    used kw l = ((nms l).filter (fun n => n ∈ kw.map Prod.fst)).length := by
  unfold used nms
  induction l with
  | nil => rfl
  | cons p l ih =>
    cases p with
    | none => simpa [List.filter_cons] using ih
    | some p =>
      have : (kw.lookup p.1).isSome = decide (p.1 ∈ kw.map Prod.fst) := by
        rw [Bool.eq_iff_iff, decide_eq_true_iff]; exact lookup_isSome
      simp only [List.filter_cons, List.filterMap_cons, Option.map_some, this]
      split <;> simp_all

theorem used_ge {kw : List (String × Val K)} {l : List (Option (String × Val K))} (hk : (kw.map Prod.fst).Nodup)
    (hn : (nms l).Nodup) : ¬ used kw l < kw.length ↔ ∀ e ∈ kw, e.1 ∈ nms l := by
  rw [used_eq, Nat.not_lt]
  constructor
  · intro h e he
    have hs : ((nms l).filter (fun n => n ∈ kw.map Prod.fst)).Subperm (kw.map Prod.fst) :=
      List.subperm_of_subset (hn.filter _) (fun x hx => by simpa using (List.mem_filter.1 hx).2)
    have hp := hs.perm_of_length_le (by simpa using h)
    have : e.1 ∈ (nms l).filter (fun n => n ∈ kw.map Prod.fst) := hp.mem_iff.2 (List.mem_map_of_mem he)
    exact (List.mem_filter.1 this).1
  · intro h
    have hs : (kw.map Prod.fst).Subperm ((nms l).filter (fun n => n ∈ kw.map Prod.fst)) :=
      List.subperm_of_subset hk (fun x hx => by
        obtain ⟨e, he, rfl⟩ := List.mem_map.1 hx
        exact List.mem_filter.2 ⟨h e he, by simpa using ⟨e.2, he⟩⟩)
    simpa using hs.length_le

theorem mapM_some_iff {α β : Type} {f : α → Option β} {l : List α} {r : List β} :
    l.mapM f = some r ↔ r.length = l.length ∧ ∀ (i : ℕ) (a : α), l[i]? = some a → f a = r[i]? := by
  induction l generalizing r with
  | nil => cases r <;> simp [eq_comm]
  | cons a l ih =>
    rw [List.mapM_cons]
    cases r with
    | nil =>
      simp only [List.length_nil, List.length_cons]
      cases f a <;> simp
      cases l.mapM f <;> simp
    | cons b r =>
      constructor
      · intro h
        simp only [Option.bind_eq_bind, Option.bind_eq_some_iff, Option.pure_def, Option.some.injEq, List.cons.injEq] at h
        obtain ⟨x, hx, y, hy, rfl, rfl⟩ := h
        obtain ⟨h1, h2⟩ := ih.1 hy
        refine ⟨by simp [h1], ?_⟩
        intro i c hc
        cases i with
        | zero => simp at hc; subst hc; simpa using hx
        | succ i => simpa using h2 i c (by simpa using hc)
      · rintro ⟨h1, h2⟩
        have ha := h2 0 a (by simp)
        have hr : l.mapM f = some r := ih.2 ⟨by simpa using h1, fun i c hc => by simpa using h2 (i + 1) c (by simpa using hc)⟩
        simp at ha
        simp [ha, hr]

theorem nms_out (ps : List (Par K)) : nms (ps.map Par.out) = (ps.filter (fun p => p.dflt.isSome)).map Par.name := by
  unfold nms
  induction ps with
  | nil => rfl
  | cons p ps ih =>
    simp only [List.map_cons, List.filterMap_cons, List.filter_cons]
    cases hd : p.dflt with
    | none => simpa [Par.out, hd] using ih
    | some d => simpa [Par.out, hd] using ih

theorem nms_params (types : List Ty) (kws : List (String × Val K)) : nms (params types kws) = kws.map Prod.fst := by
  unfold nms params
  rw [List.filterMap_append, List.filterMap_map]
  have : List.filterMap (Option.map Prod.fst) (List.replicate (types.length - kws.length) (none : Option (String × Val K))) = [] := by
    rw [List.filterMap_eq_nil_iff]
    intro a ha
    rw [(List.mem_replicate.1 ha).2]; rfl
  rw [this]
  simp

theorem nms_mem {ps : List (Par K)} {k : String} :
    k ∈ nms (ps.map Par.out) ↔ ∃ p ∈ ps, p.dflt.isSome ∧ p.name = k := by
  rw [nms_out]; simp [and_assoc]

theorem name_inj {ps : List (Par K)} (hn : (ps.map Par.name).Nodup) {i j : ℕ} {p q : Par K} (hi : ps[i]? = some p)
    (hj : ps[j]? = some q) (h : p.name = q.name) : i = j := by
  have h1 : (ps.map Par.name)[i]? = some p.name := by simp [hi]
  have h2 : (ps.map Par.name)[j]? = some p.name := by simp [hj, h]
  have hl : i < (ps.map Par.name).length := by
    rw [List.getElem?_eq_some_iff] at h1; exact h1.1
  exact (List.getElem?_inj hl hn).1 (h1.trans h2.symm)

/-- The binding of Boost.Python is that of Python, for keyword arguments that name optional parameters. -/
theorem bindArgs_iff {types : List Ty} {kws : List (String × Val K)} {ps : List (Par K)} (A : Agrees types kws ps)
    (hn : (ps.map Par.name).Nodup) {pos : List (Val K)} {kw : List (String × Val K)} (hk : (kw.map Prod.fst).Nodup)
    (vals : List (Val K)) :
    bindArgs types kws pos kw = some vals ↔ Binds ps pos kw vals ∧ ∀ e ∈ kw, e.1 ∈ kws.map Prod.fst := by
  have hlen : ps.length = types.length := by rw [← A.tys]; simp
  have hkeys : kws.map Prod.fst = nms (ps.map Par.out) := by rw [← A.pars, nms_params]
  have hrn : (nms ((ps.map Par.out).drop pos.length)).Nodup := by
    rw [← List.map_drop, nms_out]
    exact hn.sublist ((List.filter_sublist.trans (List.drop_sublist _ _)).map _)
  -- the parameters that remain
  have hrest : ∀ e : String × Val K, e.1 ∈ nms ((ps.map Par.out).drop pos.length) ↔
      ∃ (i : ℕ) (p : Par K), pos.length ≤ i ∧ ps[i]? = some p ∧ p.dflt.isSome ∧ p.name = e.1 := by
    intro e
    rw [← List.map_drop, nms_mem]
    constructor
    · rintro ⟨p, hp, h1, h2⟩
      obtain ⟨i, hi⟩ := List.mem_iff_getElem?.1 hp
      rw [List.getElem?_drop] at hi
      exact ⟨pos.length + i, p, by omega, hi, h1, h2⟩
    · rintro ⟨i, p, hi, hp, h1, h2⟩
      refine ⟨p, List.mem_iff_getElem?.2 ⟨i - pos.length, ?_⟩, h1, h2⟩
      rw [List.getElem?_drop, show pos.length + (i - pos.length) = i by omega, hp]
  have hlook : ∀ (i : ℕ) (p : Par K), ps[i]? = some p → (∀ e ∈ kw, e.1 ∈ kws.map Prod.fst) →
      named kw p.out = (kw.lookup p.name).or p.dflt := by
    intro i p hp hopt
    cases hd : p.dflt with
    | some d =>
      simp only [named, Par.out, hd, Option.map_some]
    | none =>
      simp only [named, Par.out, hd, Option.map_none]
      have : kw.lookup p.name = none := by
        by_contra hne
        have hs : (kw.lookup p.name).isSome := Option.isSome_iff_ne_none.2 hne
        rw [lookup_isSome] at hs
        obtain ⟨e, he, hee⟩ := List.mem_map.1 hs
        have := hopt e he
        rw [hkeys, nms_mem] at this
        obtain ⟨q, hq, hqd, hqn⟩ := this
        obtain ⟨j, hj⟩ := List.mem_iff_getElem?.1 hq
        have := name_inj hn hj hp (hqn.trans hee)
        subst this
        rw [hj] at hp; cases hp
        rw [hd] at hqd; cases hqd
      rw [this]; rfl
  unfold bindArgs
  constructor
  · intro h
    split at h
    · cases h
    rename_i hc
    split at h
    · rename_i h0
      cases h
      obtain ⟨rfl, hp⟩ := h0
      refine ⟨⟨by omega, by omega, fun _ _ => rfl, ?_, by simp⟩, by simp⟩
      intro i p hi hip
      rw [List.getElem?_eq_some_iff] at hip
      obtain ⟨hip, -⟩ := hip
      omega
    split at h
    · cases h
    rename_i hc' h0
    simp only [A.pars] at h
    cases hm : ((ps.map Par.out).drop pos.length).mapM (named kw) with
    | none => rw [hm] at h; cases h
    | some vs =>
      rw [hm] at h
      simp only at h
      split at h
      · cases h
      rename_i hu
      cases h
      rw [used_ge hk hrn] at hu
      obtain ⟨hl, hv⟩ := mapM_some_iff.1 hm
      have hopt : ∀ e ∈ kw, e.1 ∈ kws.map Prod.fst := by
        intro e he
        obtain ⟨i, p, hi, hp, h1, h2⟩ := (hrest e).1 (hu e he)
        rw [hkeys, nms_mem]
        exact ⟨p, List.mem_of_getElem? hp, h1, h2⟩
      simp only [List.length_drop, List.length_map] at hl
      refine ⟨⟨by omega, by simp [hl]; omega, fun i hi => List.getElem?_append_left hi, ?_, ?_⟩, hopt⟩
      · intro i p hi hp
        rw [List.getElem?_append_right hi, ← hlook i p hp hopt]
        symm
        apply hv
        rw [List.getElem?_drop, show pos.length + (i - pos.length) = i by omega]
        simp [hp]
      · intro e he
        obtain ⟨i, p, hi, hp, h1, h2⟩ := (hrest e).1 (hu e he)
        exact ⟨i, p, hi, hp, h2⟩
  · rintro ⟨B, hopt⟩
    have hu : ¬ used kw ((ps.map Par.out).drop pos.length) < kw.length := by
      rw [used_ge hk hrn]
      intro e he
      rw [hrest]
      obtain ⟨i, p, hi, hp, h1⟩ := B.known e he
      refine ⟨i, p, hi, hp, ?_, h1⟩
      have := hopt e he
      rw [hkeys, nms_mem] at this
      obtain ⟨q, hq, hqd, hqn⟩ := this
      obtain ⟨j, hj⟩ := List.mem_iff_getElem?.1 hq
      have := name_inj hn hj hp (hqn.trans h1.symm)
      subst this
      rw [hj] at hp; cases hp
      exact hqd
    have hm : ((ps.map Par.out).drop pos.length).mapM (named kw) = some (vals.drop pos.length) := by
      rw [mapM_some_iff]
      refine ⟨by simp [B.length], ?_⟩
      intro i a ha
      rw [List.getElem?_drop] at ha ⊢
      simp only [List.getElem?_map, Option.map_eq_some_iff] at ha
      obtain ⟨p, hp, rfl⟩ := ha
      rw [hlook _ p hp hopt, B.rest _ p (by omega) hp]
    have hvals : pos ++ vals.drop pos.length = vals := by
      apply List.ext_getElem?
      intro i
      by_cases hi : i < pos.length
      · rw [List.getElem?_append_left hi, B.positional i hi]
      · rw [List.getElem?_append_right (by omega), List.getElem?_drop,
          show pos.length + (i - pos.length) = i by omega]
    have hfew := B.few
    have h1 : kw.length ≤ types.length - pos.length := by
      rw [used_eq, Nat.not_lt] at hu
      refine hu.trans ((List.length_filter_le _ _).trans ?_)
      rw [← List.map_drop, nms_out, List.length_map]
      refine (List.length_filter_le _ _).trans ?_
      simp [hlen]
    have h2 : types.length - kws.length ≤ pos.length := by
      by_contra hc
      have hlt : pos.length < ps.length := by omega
      have hp : ps[pos.length]? = some ps[pos.length] := List.getElem?_eq_getElem hlt
      have hv := B.rest _ _ le_rfl hp
      rw [← hlook _ _ hp hopt] at hv
      have : (params types kws)[pos.length]? = some none := by
        unfold params
        rw [List.getElem?_append_left (by simp; omega)]
        simp [List.getElem?_replicate]; omega
      rw [A.pars] at this
      simp only [List.getElem?_map, hp, Option.map_some, Option.some.injEq] at this
      rw [this] at hv
      simp only [named] at hv
      rw [List.getElem?_eq_none_iff, B.length] at hv
      omega
    rw [if_neg (by omega)]
    split
    · rename_i h0
      obtain ⟨rfl, hp⟩ := h0
      have : vals.drop pos.length = [] := by
        rw [List.drop_eq_nil_iff, B.length]; omega
      rw [this] at hvals
      simpa using hvals
    rename_i h0
    rw [if_neg (by
      rintro ⟨hne, rfl⟩
      obtain ⟨e, he⟩ := List.exists_mem_of_ne_nil _ hne
      simpa using hopt e he)]
    simp only [A.pars, hm, if_neg hu, hvals]

/-! ## Conversion -/

theorem convert_fits [IntCast K] {t : Ty} {v w : Val K} : (convertible t v = true ∧ convert t v = some w) ↔ Fits t v w := by
  constructor
  · rintro ⟨h1, h2⟩
    cases t <;> cases v <;> simp only [convertible, Bool.false_eq_true] at h1 <;> simp only [convert] at h2
    · split at h2
      · rename_i h
        cases h2
        exact .int (by norm_num; exact h.1) (by norm_num; omega)
      · cases h2
    · cases h2; exact .intBool _
    · cases h2; exact .boolNone
    · cases h2
      rename_i z
      have : (z != 0) = decide (z ≠ 0) := by by_cases hz : z = 0 <;> simp [hz]
      rw [this]
      exact .boolInt z
    · cases h2; exact .bool _
    · cases h2; exact .floatInt _
    · cases h2; exact .floatBool _
    · cases h2; exact .float _
    · cases h2; exact .str _
  · intro h
    cases h with
    | int h1 h2 => exact ⟨rfl, by simp only [convert]; rw [if_pos ⟨by norm_num at h1; exact h1, by norm_num at h2; omega⟩]⟩
    | boolInt z =>
      refine ⟨rfl, ?_⟩
      by_cases hz : z = 0 <;> simp [convert, hz]
    | _ => exact ⟨rfl, rfl⟩

theorem fitsAll_iff [IntCast K] {ps : List (Par K)} {vs ws : List (Val K)} (hl : vs.length = ps.length) :
    FitsAll ps vs ws ↔ (((ps.map Par.ty).zip vs).all (fun x => convertible x.1 x.2) = true ∧
      ((ps.map Par.ty).zip vs).mapM (fun x => convert x.1 x.2) = some ws) := by
  induction ps generalizing vs ws with
  | nil =>
    cases vs with
    | nil =>
      simp only [List.map_nil, List.zip_nil_right, List.all_nil, List.mapM_nil, Option.pure_def, Option.some.injEq, true_and]
      constructor
      · intro h; cases h; rfl
      · intro h; subst h; exact .nil
    | cons v vs => simp at hl
  | cons p ps ih =>
    cases vs with
    | nil => simp at hl
    | cons v vs =>
      have hl : vs.length = ps.length := by simpa using hl
      simp only [List.map_cons, List.zip_cons_cons, List.all_cons, List.mapM_cons, Bool.and_eq_true]
      constructor
      · intro h
        cases h with
        | cons h1 h2 =>
          obtain ⟨a, b⟩ := convert_fits.2 h1
          obtain ⟨c, d⟩ := (ih hl).1 h2
          exact ⟨⟨a, c⟩, by rw [b, d]; rfl⟩
      · rintro ⟨⟨a, c⟩, h⟩
        cases hb : convert p.ty v with
        | none => rw [hb] at h; cases h
        | some w =>
          cases hd : ((ps.map Par.ty).zip vs).mapM (fun x => convert x.1 x.2) with
          | none => rw [hb, hd] at h; cases h
          | some ws' =>
            rw [hb, hd] at h
            cases h
            exact .cons (convert_fits.1 ⟨a, hb⟩) ((ih hl).2 ⟨c, hd⟩)

/-! ## The functions -/

theorem means_body {F : Files K} {name : String} {ws : List (Val K)} {c : Api.AnyCall K} (h : Means F name ws c) (f : Fn K)
    (hf : functions.find? (fun f : Fn K => f.name == name) = some f) : f.body F ws = some c := by
  cases h <;> (have hf := Option.some.inj hf; subst hf; first | rfl | simp)

theorem table (name : String) (hne : name ≠ "getMatching") :
    (functions.find? (fun f : Fn K => f.name == name) = none ∧ (signature name : Option (List (Par K))) = none) ∨
    ∃ (f : Fn K) (ps : List (Par K)), functions.find? (fun f : Fn K => f.name == name) = some f ∧ signature name = some ps ∧
      Agrees f.types f.kws ps ∧ (ps.map Par.name).Nodup ∧ ∀ F ws c, f.body F ws = some c ↔ Means F name ws c := by
  unfold signature
  split
  case h_13 => exact absurd rfl hne
  case h_21 =>
    left
    refine ⟨?_, rfl⟩
    rw [List.find?_eq_none]
    intro f hf
    simp only [functions, List.mem_cons, List.not_mem_nil, or_false] at hf
    simp only [beq_iff_eq]
    rintro rfl
    rcases hf with rfl | rfl | rfl | rfl | rfl | rfl | rfl | rfl | rfl | rfl | rfl | rfl | rfl | rfl | rfl | rfl | rfl | rfl |
      rfl | rfl <;> simp_all
  case h_3 =>
    right
    refine ⟨_, _, rfl, rfl, ⟨by simp, rfl, rfl⟩, by simp, ?_⟩
    intro F ws c
    constructor
    · intro h
      simp only at h
      split at h
      · rename_i n p sep
        cases h
        cases hs : sep.toList with
        | nil =>
          have : sep = "" := by rw [← String.toList_inj, hs]; rfl
          subst this
          exact .saveDataset0 _ _
        | cons a l =>
          have : sep = String.ofList (a :: l) := by rw [← hs, String.ofList_toList]
          subst this
          exact .saveDataset _ _ _ _
      · cases h
    · intro h; exact means_body h _ rfl
  all_goals
    right
    refine ⟨_, _, rfl, rfl, ⟨by simp, rfl, rfl⟩, by simp, ?_⟩
    intro F ws c
    constructor
    · intro h
      simp only at h
      split at h
      · cases h; constructor
      · cases h
    · intro h; exact means_body h _ rfl

theorem request_iff [IntCast K] (F : Files K) (name : String) (hne : name ≠ "getMatching") (pos : List (Val K))
    (kw : List (String × Val K)) (hk : (kw.map Prod.fst).Nodup) (c : Api.AnyCall K) :
    request F name pos kw = .call c ↔
      ∃ ps vals ws, signature name = some ps ∧ Binds ps pos kw vals ∧ FitsAll ps vals ws ∧ Means F name ws c ∧
        ∀ e ∈ kw, ∃ p ∈ ps, p.dflt.isSome ∧ p.name = e.1 := by
  rcases table (K := K) name hne with ⟨hf, hs⟩ | ⟨f, ps, hf, hs, A, hn, hb⟩
  · unfold request
    rw [hf]
    constructor
    · intro h; cases h
    · rintro ⟨ps, -, -, h, -⟩
      rw [hs] at h; cases h
  have hkeys : f.kws.map Prod.fst = nms (ps.map Par.out) := by rw [← A.pars, nms_params]
  have key : (∀ e ∈ kw, ∃ p ∈ ps, p.dflt.isSome ∧ p.name = e.1) ↔ ∀ e ∈ kw, e.1 ∈ f.kws.map Prod.fst := by
    rw [hkeys]
    exact forall₂_congr fun e _ => nms_mem.symm
  unfold request
  rw [hf]
  simp only
  constructor
  · intro h
    cases hv : bindArgs f.types f.kws pos kw with
    | none => rw [hv] at h; cases h
    | some vs =>
      rw [hv] at h
      simp only at h
      obtain ⟨B, hopt⟩ := (bindArgs_iff A hn hk vs).1 hv
      rw [← A.tys] at h
      split at h
      · cases h
      rename_i hc
      rw [Bool.not_eq_false] at hc
      cases hw : ((ps.map Par.ty).zip vs).mapM (fun x => convert x.1 x.2) with
      | none => rw [hw] at h; cases h
      | some ws =>
        rw [hw] at h
        simp only at h
        cases hx : f.body F ws with
        | none => rw [hx] at h; cases h
        | some c' =>
          rw [hx] at h
          cases h
          exact ⟨ps, vs, ws, hs, B, (fitsAll_iff B.length).2 ⟨hc, hw⟩, (hb F ws c).1 hx, key.2 hopt⟩
  · rintro ⟨ps', vals, ws, hs', B, FA, M, hopt⟩
    rw [hs] at hs'
    cases hs'
    rw [(bindArgs_iff A hn hk vals).2 ⟨B, key.1 hopt⟩]
    obtain ⟨h1, h2⟩ := (fitsAll_iff B.length).1 FA
    simp only [← A.tys, h1, h2, (hb F ws c).2 M, Bool.true_eq_false, if_false]

theorem convertible_iff [IntCast K] {t : Ty} {v : Val K} : convertible t v = true ↔ (∃ w, Fits t v w) ∨ TooBig t v := by
  constructor
  · intro h
    cases hc : convert t v with
    | some w => exact Or.inl ⟨w, convert_fits.1 ⟨h, hc⟩⟩
    | none =>
      right
      cases t <;> cases v <;> simp only [convert, reduceCtorEq] at hc
      rename_i z
      split at hc
      · cases hc
      · simp only [TooBig]; norm_num; omega
  · rintro (⟨w, h⟩ | h)
    · exact (convert_fits.2 h).1
    · cases t <;> cases v <;> simp only [TooBig] at h
      rfl

theorem convert_none [IntCast K] {t : Ty} {v : Val K} : convert t v = none ↔ TooBig t v := by
  constructor
  · intro hc
    cases t <;> cases v <;> simp only [convert, reduceCtorEq] at hc
    rename_i z
    split at hc
    · cases hc
    · simp only [TooBig]; norm_num; omega
  · intro h
    cases t <;> cases v <;> simp only [TooBig] at h
    rename_i z
    norm_num at h
    simp only [convert]
    rw [if_neg (by omega)]

theorem mapM_none_iff {α β : Type} {f : α → Option β} {l : List α} : l.mapM f = none ↔ ∃ a ∈ l, f a = none := by
  induction l with
  | nil => simp
  | cons a l ih =>
    rw [List.mapM_cons]
    cases h : f a with
    | none => simp [h]
    | some b =>
      cases h' : l.mapM f with
      | none => rw [h'] at ih; simpa [h] using ih
      | some bs => rw [h'] at ih; simpa [h] using ih

theorem overflows_iff [IntCast K] {ps : List (Par K)} {vs : List (Val K)} :
    Overflows ps vs ↔ (((ps.map Par.ty).zip vs).all (fun x => convertible x.1 x.2) = true ∧
      ((ps.map Par.ty).zip vs).mapM (fun x => convert x.1 x.2) = none) := by
  have hz : ∀ (t : Ty) (v : Val K), (t, v) ∈ (ps.map Par.ty).zip vs ↔ ∃ (i : ℕ) (p : Par K), ps[i]? = some p ∧ vs[i]? = some v ∧ p.ty = t := by
    intro t v
    rw [List.mem_iff_getElem?]
    constructor
    · rintro ⟨i, h⟩
      rw [List.getElem?_zip_eq_some, List.getElem?_map, Option.map_eq_some_iff] at h
      obtain ⟨⟨p, h1, h2⟩, h3⟩ := h
      exact ⟨i, p, h1, h3, h2⟩
    · rintro ⟨i, p, h1, h2, rfl⟩
      exact ⟨i, by rw [List.getElem?_zip_eq_some, List.getElem?_map, h1]; exact ⟨rfl, h2⟩⟩
  rw [List.all_eq_true, mapM_none_iff]
  constructor
  · rintro ⟨h1, i, p, v, e1, e2, h2⟩
    refine ⟨?_, (p.ty, v), (hz _ _).2 ⟨i, p, e1, e2, rfl⟩, convert_none.2 h2⟩
    rintro ⟨t, v⟩ hx
    obtain ⟨i, p, e1, e2, rfl⟩ := (hz t v).1 hx
    exact convertible_iff.2 (h1 i p v e1 e2)
  · rintro ⟨h1, ⟨t, v⟩, hx, h2⟩
    refine ⟨fun i p v e1 e2 => convertible_iff.1 (h1 (p.ty, v) ((hz _ _).2 ⟨i, p, e1, e2, rfl⟩)), ?_⟩
    obtain ⟨i, p, e1, e2, rfl⟩ := (hz t v).1 hx
    exact ⟨i, p, v, e1, e2, convert_none.1 h2⟩

/-- When a number is too large. -/
theorem request_overflow [IntCast K] (F : Files K) (name : String) (hne : name ≠ "getMatching") (pos : List (Val K))
    (kw : List (String × Val K)) (hk : (kw.map Prod.fst).Nodup) :
    request F name pos kw = .overflow ↔
      ∃ ps vals, signature name = some ps ∧ Binds ps pos kw vals ∧ (∀ e ∈ kw, ∃ p ∈ ps, p.dflt.isSome ∧ p.name = e.1) ∧ Overflows ps vals := by
  rcases table (K := K) name hne with ⟨hf, hs⟩ | ⟨f, ps, hf, hs, A, hn, hb⟩
  · unfold request
    rw [hf]
    constructor
    · intro h; cases h
    · rintro ⟨ps, -, h, -⟩
      rw [hs] at h; cases h
  have hkeys : f.kws.map Prod.fst = nms (ps.map Par.out) := by rw [← A.pars, nms_params]
  have key : (∀ e ∈ kw, ∃ p ∈ ps, p.dflt.isSome ∧ p.name = e.1) ↔ ∀ e ∈ kw, e.1 ∈ f.kws.map Prod.fst := by
    rw [hkeys]
    exact forall₂_congr fun e _ => nms_mem.symm
  unfold request
  rw [hf]
  simp only
  constructor
  · intro h
    cases hv : bindArgs f.types f.kws pos kw with
    | none => rw [hv] at h; cases h
    | some vs =>
      rw [hv] at h
      simp only at h
      obtain ⟨B, hopt⟩ := (bindArgs_iff A hn hk vs).1 hv
      rw [← A.tys] at h
      split at h
      · cases h
      rename_i hc
      rw [Bool.not_eq_false] at hc
      cases hw : ((ps.map Par.ty).zip vs).mapM (fun x => convert x.1 x.2) with
      | none => exact ⟨ps, vs, hs, B, key.2 hopt, overflows_iff.2 ⟨hc, hw⟩⟩
      | some ws =>
        rw [hw] at h
        simp only at h
        split at h <;> cases h
  · rintro ⟨ps', vals, hs', B, hopt, O⟩
    rw [hs] at hs'
    cases hs'
    rw [(bindArgs_iff A hn hk vals).2 ⟨B, key.1 hopt⟩]
    obtain ⟨h1, h2⟩ := overflows_iff.1 O
    simp only [← A.tys, h1, h2, Bool.true_eq_false, if_false]

end Genex.Py
