import Verif.Model.Scripts
import Verif.Spec.Scripts
import Verif.Lemmas.Dbl
import Mathlib.Tactic.Linarith
import Mathlib.Tactic.NormNum
import Mathlib.Tactic.Ring
import Mathlib.Algebra.Order.BigOperators.Group.List
import Mathlib.Data.Nat.Choose.Sum
import Mathlib.Algebra.BigOperators.Intervals

/-!
# C105: the experiment scripts (scripts/*.py)
-/

set_option linter.unusedSectionVars false

namespace Genex.Props

open Spec Scripts

/-! ## Random queries -/

/-- What the generator of random numbers may give: `n` draws in each round, in range. -/
def DrawsOk (n count length : ℕ) (draws : ℕ → List Draw) : Prop :=
  ∀ r, (draws r).length = n ∧ ∀ d ∈ draws r, d.index < count ∧ d.sub.1 < length ∧ d.sub.2 < length

theorem keep_mem {o : ℕ} {ds : List Draw} {q : Query} (h : q ∈ keep o ds) :
    q.outside = o ∧ q.start + 2 ≤ q.stop ∧ ∃ d ∈ ds, q.index = d.index ∧ q.stop = max d.sub.1 d.sub.2 := by
  obtain ⟨h1, h2⟩ := List.mem_filter.1 h
  obtain ⟨d, hd, rfl⟩ := List.mem_map.1 h1
  have := of_decide_eq_true h2
  exact ⟨rfl, by simp only at this ⊢; omega, d, hd, rfl, rfl⟩

theorem drawLoop_sound {n o : ℕ} {draws : ℕ → List Draw} {P : Query → Prop} (hP : ∀ r, ∀ q ∈ keep o (draws r), P q) :
    ∀ (fuel r : ℕ) (qs : Option (List Query)) (out : List Query), (∀ l, qs = some l → ∀ q ∈ l, P q) → drawLoop n o draws fuel r qs = .ok out → out.length = n ∧ ∀ q ∈ out, P q := by
  intro fuel
  induction fuel with
  | zero => intro r qs out _ h; cases h
  | succ fuel ih =>
    intro r qs out hq h
    cases qs with
    | none =>
      refine ih (r + 1) _ out ?_ h
      intro l hl
      injection hl with hl
      exact hl ▸ hP r
    | some l =>
      simp only [drawLoop] at h
      split_ifs at h with hlt
      · refine ih (r + 1) _ out ?_ h
        intro l' hl' q hq'
        injection hl' with hl'
        rw [← hl'] at hq'
        rcases List.mem_append.1 hq' with h1 | h1
        · exact hq l rfl q h1
        · exact hP r q h1
      · injection h with h
        subst h
        refine ⟨by rw [List.length_take]; omega, fun q hq' => hq l rfl q (List.mem_of_mem_take hq')⟩

/-- C105.  If the script gets past the generation of queries, there are as many as asked for, and each names a series of the data set and a part of it of at least two points. -/
theorem C105_queries (fuel n count length o : ℕ) (draws : ℕ → List Draw) (hd : DrawsOk n count length draws) (out : List Query)
    (h : generate fuel n count length o draws = .ok out) :
    out.length = n ∧ ∀ q ∈ out, q.index < count ∧ q.start + 2 ≤ q.stop ∧ q.stop < length ∧ q.outside = o := by
  unfold generate at h
  split_ifs at h
  refine drawLoop_sound (P := fun q => q.index < count ∧ q.start + 2 ≤ q.stop ∧ q.stop < length ∧ q.outside = o) ?_ fuel 0 none out (by intro l hl; cases hl) h
  intro r q hq
  obtain ⟨h1, h2, d, hdm, h3, h4⟩ := keep_mem hq
  obtain ⟨h5, h6, h7⟩ := (hd r).2 d hdm
  exact ⟨h3 ▸ h5, h2, by rw [h4]; omega, h1⟩

/-- C105.  No query contains the last point of its series: `end` is drawn from the points, but is one after the last point used. -/
theorem C105_last_false (fuel n count length o : ℕ) (draws : ℕ → List Draw) (hd : DrawsOk n count length draws) (out : List Query)
    (h : generate fuel n count length o draws = .ok out) (q : Query) (hq : q ∈ out) : ¬ (q.start ≤ length - 1 ∧ length - 1 < q.stop) := by
  have := (C105_queries fuel n count length o draws hd out h).2 q hq
  omega

theorem drawLoop_stops {n o : ℕ} {draws : ℕ → List Draw} (hgood : ∀ r, ∃ r', r ≤ r' ∧ keep o (draws r') ≠ []) :
    ∀ (m : ℕ) (r : ℕ) (l : List Query), n ≤ l.length + m → ∃ fuel out, drawLoop n o draws fuel r (some l) = .ok out := by
  intro m
  induction m with
  | zero =>
    intro r l hl
    exact ⟨1, l.take n, by simp only [drawLoop]; rw [if_neg (by omega)]⟩
  | succ m ih =>
    have hskip : ∀ (k r : ℕ) (l : List Query), n ≤ l.length + (m + 1) → keep o (draws (r + k)) ≠ [] → ∃ fuel out, drawLoop n o draws fuel r (some l) = .ok out := by
      intro k
      induction k with
      | zero =>
        intro r l hl hk
        by_cases hlt : l.length < n
        · have := List.length_pos_iff.2 hk
          obtain ⟨fuel, out, e⟩ := ih (r + 1) (l ++ keep o (draws r)) (by rw [List.length_append]; simp only [Nat.add_zero] at this; omega)
          exact ⟨fuel + 1, out, by simp only [drawLoop]; rw [if_pos hlt, e]⟩
        · exact ⟨1, l.take n, by simp only [drawLoop]; rw [if_neg hlt]⟩
      | succ k ihk =>
        intro r l hl hk
        by_cases hlt : l.length < n
        · obtain ⟨fuel, out, e⟩ := ihk (r + 1) (l ++ keep o (draws r)) (by rw [List.length_append]; omega) (by rw [show r + 1 + k = r + (k + 1) by omega]; exact hk)
          exact ⟨fuel + 1, out, by simp only [drawLoop]; rw [if_pos hlt, e]⟩
        · exact ⟨1, l.take n, by simp only [drawLoop]; rw [if_neg hlt]⟩
    intro r l hl
    obtain ⟨r', hr, hk⟩ := hgood r
    exact hskip (r' - r) r l hl (by rw [show r + (r' - r) = r' by omega]; exact hk)

/-- C105.  The generation ends if two numbers more than one apart are drawn again and again. -/
theorem C105_queries_end (n count length o : ℕ) (draws : ℕ → List Draw) (hc : 0 < count) (hl : 0 < length)
    (hgood : ∀ r, ∃ r', r ≤ r' ∧ ∃ d ∈ draws r', d.sub.1 + 2 ≤ d.sub.2 ∨ d.sub.2 + 2 ≤ d.sub.1) :
    ∃ fuel out, generate fuel n count length o draws = .ok out := by
  have hk : ∀ r, ∃ r', r ≤ r' ∧ keep o (draws r') ≠ [] := by
    intro r
    obtain ⟨r', hr, d, hd, h⟩ := hgood r
    refine ⟨r', hr, List.ne_nil_of_mem (a := ⟨d.index, min d.sub.1 d.sub.2, max d.sub.1 d.sub.2, o⟩) ?_⟩
    exact List.mem_filter.2 ⟨List.mem_map.2 ⟨d, hd, rfl⟩, decide_eq_true (by simp only; omega)⟩
  obtain ⟨fuel, out, e⟩ := drawLoop_stops (n := n) hk n 1 (keep o (draws 0)) (by omega)
  refine ⟨fuel + 1, out, ?_⟩
  unfold generate
  rw [if_neg (by omega)]
  exact e

/-- C105.  For series of one or two points it never ends, whatever is drawn. -/
theorem C105_short_false (fuel n count length o : ℕ) (draws : ℕ → List Draw) (hn : 0 < n) (hc : 0 < count) (hl : 0 < length) (h2 : length ≤ 2)
    (hd : DrawsOk n count length draws) : generate fuel n count length o draws = .error .diverge := by
  have hk : ∀ r, keep o (draws r) = [] := by
    intro r
    rw [List.eq_nil_iff_forall_not_mem]
    intro q hq
    obtain ⟨-, h, d, hdm, -, h4⟩ := keep_mem hq
    have := (hd r).2 d hdm
    omega
  have hloop : ∀ fuel r, drawLoop n o draws fuel r (some []) = .error .diverge := by
    intro fuel
    induction fuel with
    | zero => intro r; rfl
    | succ fuel ih =>
      intro r
      simp only [drawLoop, List.length_nil, if_pos hn, hk, List.append_nil]
      exact ih (r + 1)
  unfold generate
  rw [if_neg (by omega)]
  cases fuel with
  | zero => rfl
  | succ fuel =>
    simp only [drawLoop, hk]
    exact hloop fuel 1

/-- C105.  The table of queries: `nquery` rows, the first half from the data set itself, the others from the other data set. -/
theorem C105_table (fuel nquery c1 l1 c2 l2 : ℕ) (d1 d2 : ℕ → List Draw) (h1 : DrawsOk (nquery / 2) c1 l1 d1) (h2 : DrawsOk (nquery - nquery / 2) c2 l2 d2)
    (out : List Query) (h : getQueries fuel nquery c1 l1 c2 l2 d1 d2 = .ok out) :
    out.length = nquery ∧ (∀ q ∈ out.take (nquery / 2), q.outside = 0 ∧ q.index < c1 ∧ q.start + 2 ≤ q.stop ∧ q.stop < l1) ∧
      ∀ q ∈ out.drop (nquery / 2), q.outside = 1 ∧ q.index < c2 ∧ q.start + 2 ≤ q.stop ∧ q.stop < l2 := by
  unfold getQueries at h
  simp only [bind, Except.bind] at h
  cases ha : generate fuel (nquery / 2) c1 l1 0 d1 with
  | error f => rw [ha] at h; cases h
  | ok a =>
    rw [ha] at h
    cases hb : generate fuel (nquery - nquery / 2) c2 l2 1 d2 with
    | error f => simp only [hb] at h; cases h
    | ok b =>
      simp only [hb] at h
      injection h with h
      subst h
      obtain ⟨la, pa⟩ := C105_queries _ _ _ _ _ _ h1 _ ha
      obtain ⟨lb, pb⟩ := C105_queries _ _ _ _ _ _ h2 _ hb
      rw [← la, List.take_left, List.drop_left]
      refine ⟨by rw [List.length_append]; omega, fun q hq => ?_, fun q hq => ?_⟩
      · obtain ⟨x, y, z, w⟩ := pa q hq; exact ⟨w, x, y, z⟩
      · obtain ⟨x, y, z, w⟩ := pb q hq; exact ⟨w, x, y, z⟩

/-! Three queries on two series of five points; one draw in three is rejected. -/
def exDraws (r : ℕ) : List Draw := [⟨r % 2, (1, 4)⟩, ⟨1, (2, 1)⟩, ⟨0, (3, 0)⟩]

example : DrawsOk 3 2 5 exDraws := by
  intro r
  refine ⟨rfl, fun d hd => ?_⟩
  simp only [exDraws, List.mem_cons, List.not_mem_nil, or_false] at hd
  rcases hd with rfl | rfl | rfl <;> simp only <;> omega
example : generate 10 3 2 5 0 exDraws = .ok [⟨0, 1, 4, 0⟩, ⟨0, 0, 3, 0⟩, ⟨1, 1, 4, 0⟩] := by decide +kernel
example : ∀ r, ∃ r', r ≤ r' ∧ ∃ d ∈ exDraws r', d.sub.1 + 2 ≤ d.sub.2 ∨ d.sub.2 + 2 ≤ d.sub.1 := fun r => ⟨r, le_rfl, ⟨0, (3, 0)⟩, by simp [exDraws], by simp⟩
example : DrawsOk 2 1 2 fun _ => [⟨0, (0, 1)⟩, ⟨0, (1, 1)⟩] := fun r => ⟨rfl, by simp⟩

/-! ## Bookkeeping of data sets -/

/-- C105.  The two limits given on the command line: a negative one does not apply. -/
theorem C105_range (subseq : ℕ) (lo hi : Int) : checkSubseqRange subseq lo hi = true ↔ Within lo hi subseq := by
  unfold checkSubseqRange Within
  simp only [Bool.or_eq_true, Bool.and_eq_true, decide_eq_true_eq]
  omega

theorem subs_card_one (length : ℕ) :
    ((Finset.range (length + 1) ×ˢ Finset.range (length + 1)).filter fun t : ℕ × ℕ => t.1 + 2 ≤ t.2).card * 2 = length * (length - 1) := by
  induction length with
  | zero => decide
  | succ n ih =>
    have hsplit : ((Finset.range (n + 1 + 1) ×ˢ Finset.range (n + 1 + 1)).filter fun t : ℕ × ℕ => t.1 + 2 ≤ t.2) =
        ((Finset.range (n + 1) ×ˢ Finset.range (n + 1)).filter fun t : ℕ × ℕ => t.1 + 2 ≤ t.2) ∪ (Finset.range n).image fun i => (i, n + 1) := by
      ext ⟨a, b⟩
      simp only [Finset.mem_filter, Finset.mem_product, Finset.mem_range, Finset.mem_union, Finset.mem_image, Prod.mk.injEq]
      constructor
      · rintro ⟨⟨h1, h2⟩, h3⟩
        by_cases hb : b = n + 1
        · exact .inr ⟨a, by omega, rfl, hb.symm⟩
        · exact .inl ⟨⟨by omega, by omega⟩, h3⟩
      · rintro (⟨⟨h1, h2⟩, h3⟩ | ⟨i, hi, rfl, rfl⟩)
        · exact ⟨⟨by omega, by omega⟩, h3⟩
        · exact ⟨⟨by omega, by omega⟩, by omega⟩
    rw [hsplit, Finset.card_union_of_disjoint, add_mul, ih, Finset.card_image_of_injective, Finset.card_range]
    · cases n with
      | zero => rfl
      | succ m => simp only [Nat.add_sub_cancel]; ring
    · intro i j h; exact (Prod.mk.inj h).1
    · rw [Finset.disjoint_left]
      rintro ⟨a, b⟩ h1 h2
      simp only [Finset.mem_filter, Finset.mem_product, Finset.mem_range, Finset.mem_image, Prod.mk.injEq] at h1 h2
      obtain ⟨i, -, -, h⟩ := h2
      omega

/-- C105.  The number written into the file of records is the number of subsequences of at least two points of `count` series of `length` points. -/
theorem C105_count (count length : ℕ) : subseqCount count length = (subsequences count length).card := by
  have h : (subsequences count length) = Finset.range count ×ˢ ((Finset.range (length + 1) ×ˢ Finset.range (length + 1)).filter fun t : ℕ × ℕ => t.1 + 2 ≤ t.2) := by
    ext t
    simp only [subsequences, Finset.mem_filter, Finset.mem_product, and_assoc]
  rw [h, Finset.card_product, Finset.card_range]
  unfold subseqCount
  rw [mul_assoc, ← subs_card_one length, ← mul_assoc, Nat.mul_div_cancel _ (by norm_num)]

theorem strLe_total (a b : List Char) : strLe a b || strLe b a := by
  induction a generalizing b with
  | nil => simp [strLe]
  | cons x a ih =>
    cases b with
    | nil => simp [strLe]
    | cons y b =>
      have := ih b
      unfold strLe
      rcases lt_trichotomy x.toNat y.toNat with h | h | h
      · simp [h]
      · simp [h, this]
      · simp [h]

theorem strLe_trans (a b c : List Char) : strLe a b → strLe b c → strLe a c := by
  induction a generalizing b c with
  | nil => simp [strLe]
  | cons x a ih =>
    cases b with
    | nil => simp [strLe]
    | cons y b =>
      cases c with
      | nil => simp [strLe]
      | cons z c =>
        have := ih b c
        simp only [strLe]
        split_ifs <;> first | omega | simp_all

theorem infoLe_total (a b : Info) : infoLe a b || infoLe b a := by
  unfold infoLe
  have := strLe_total a.name b.name
  rcases lt_trichotomy a.subseq b.subseq with h | h | h
  · simp [h]
  · simp [h, this]
  · simp [h]

theorem infoLe_trans (a b c : Info) : infoLe a b → infoLe b c → infoLe a c := by
  unfold infoLe
  have := strLe_trans a.name b.name c.name
  split_ifs <;> first | omega | simp_all

/-- C105.  The order in which the data sets are treated: all those whose names do not end in `_out`, each as often as it is listed, those with fewer subsequences first. -/
theorem C105_order (info : List Info) (out : List (List Char)) (h : getDatasetOrder info = .ok out) :
    ∃ l : List Info, out = l.map Info.name ∧ l.Perm (info.filter fun ds => !isOut ds.name) ∧ l.Pairwise fun a b => a.subseq ≤ b.subseq := by
  unfold getDatasetOrder at h
  simp only at h
  split_ifs at h
  injection h with h
  haveI : Std.Total fun a b : Info => infoLe a b = true := ⟨fun a b => by simpa using infoLe_total a b⟩
  haveI : IsTrans Info fun a b => infoLe a b = true := ⟨infoLe_trans⟩
  refine ⟨_, h.symm, List.perm_insertionSort _ _, ?_⟩
  refine (List.pairwise_insertionSort (fun a b : Info => infoLe a b = true) _).imp ?_
  intro a b hab
  unfold infoLe at hab
  by_contra hlt
  rw [if_neg (by omega), if_pos (by omega)] at hab
  cases hab

/-- C105.  No data set (or only such names): the script ends with an exception. -/
theorem C105_order_none (info : List Info) (h : ∀ ds ∈ info, isOut ds.name = true) : ∃ msg, getDatasetOrder info = .error (.std msg) := by
  have : (info.filter fun ds => !isOut ds.name) = [] := by
    rw [List.filter_eq_nil_iff]
    intro ds hds
    simp [h ds hds]
  refine ⟨"IndexError: list index out of range", ?_⟩
  unfold getDatasetOrder
  rw [this]
  simp

def exInfo : List Info := [⟨"Wine".toList, 300⟩, ⟨"Wine_out".toList, 20⟩, ⟨"Coffee".toList, 120⟩, ⟨"Coffee_out".toList, 25⟩]

example : getDatasetOrder exInfo = .ok ["Coffee".toList, "Wine".toList] := by decide +kernel

/-- C105.  A data set whose own name ends in `_out` is left out silently. -/
theorem C105_order_false : ∃ (info : List Info) (ds : Info) (out : List (List Char)), ds ∈ info ∧ ⟨ds.name ++ "_out".toList, 3⟩ ∈ info ∧ getDatasetOrder info = .ok out ∧ ds.name ∉ out :=
  ⟨[⟨"Fade_out".toList, 10⟩, ⟨"Fade_out_out".toList, 3⟩, ⟨"Wine".toList, 300⟩, ⟨"Wine_out".toList, 20⟩], ⟨"Fade_out".toList, 10⟩, ["Wine".toList], by decide, by decide, by decide +kernel,
    by decide⟩

/-! ## Running the queries -/

section
variable {R : Type}

theorem known_iff {m : String} {rs : List (Rec R)} {q : Query} : known m rs q = true ↔ ∃ o ∈ rs, o.method = m ∧ o.query = q := by
  simp [known]

theorem known_append {m : String} {rs new : List (Rec R)} {q : Query} (h : known m rs q = true) : known m (rs ++ new) q = true := by
  rw [known_iff] at *
  obtain ⟨o, ho, h⟩ := h
  exact ⟨o, List.mem_append_left _ ho, h⟩

/-- C105.  A run of a method only appends records.  Each is of this method, for a query of the table that had no record before, with the answer to that query; no query gets two.
If the run ends without an exception and is no dry run, every query of the table has a record. -/
theorem C105_run (m : String) (dry : Bool) (ans : Query → Res R) (qs : List Query) (rs out : List (Rec R)) (e : Res Unit) (h : runMethod m dry ans qs rs = (out, e)) :
    ∃ new, out = rs ++ new ∧ (new.map Rec.query).Nodup ∧
      (∀ o ∈ new, dry = false ∧ o.method = m ∧ o.query ∈ qs ∧ ans o.query = .ok o.result ∧ ¬ ∃ p ∈ rs, p.method = m ∧ p.query = o.query) ∧
      (e = .ok () → dry = false → ∀ q ∈ qs, ∃ o ∈ out, o.method = m ∧ o.query = q) := by
  induction qs generalizing rs with
  | nil =>
    simp only [runMethod, Prod.mk.injEq] at h
    exact ⟨[], by rw [List.append_nil, h.1], List.nodup_nil, by simp, by simp⟩
  | cons q qs ih =>
    simp only [runMethod] at h
    split_ifs at h with hk hd
    · obtain ⟨new, e1, e2, e3, e4⟩ := ih rs h
      refine ⟨new, e1, e2, fun o ho => ?_, fun he hdry q' hq' => ?_⟩
      · obtain ⟨a, b, c, d⟩ := e3 o ho
        exact ⟨a, b, List.mem_cons_of_mem _ c, d⟩
      · rcases List.mem_cons.1 hq' with rfl | hq'
        · rw [e1]; exact known_iff.1 (known_append hk)
        · exact e4 he hdry q' hq'
    · obtain ⟨new, e1, e2, e3, e4⟩ := ih rs h
      refine ⟨new, e1, e2, fun o ho => ?_, fun he hdry => absurd hd (by simp [hdry])⟩
      obtain ⟨a, b, c, d⟩ := e3 o ho
      exact ⟨a, b, List.mem_cons_of_mem _ c, d⟩
    · cases ha : ans q with
      | error f =>
        simp only [ha, Prod.mk.injEq] at h
        exact ⟨[], by rw [List.append_nil, h.1], List.nodup_nil, by simp, fun he => by rw [← h.2] at he; cases he⟩
      | ok r =>
        simp only [ha] at h
        obtain ⟨new, e1, e2, e3, e4⟩ := ih _ h
        have hq : ¬ ∃ p ∈ rs, p.method = m ∧ p.query = q := fun hp => hk (known_iff.2 hp)
        refine ⟨⟨q, m, r⟩ :: new, by rw [e1, List.append_assoc]; rfl, ?_, fun o ho => ?_, fun he hdry q' hq' => ?_⟩
        · rw [List.map_cons, List.nodup_cons]
          refine ⟨fun hmem => ?_, e2⟩
          obtain ⟨o, ho, hoq⟩ := List.mem_map.1 hmem
          exact (e3 o ho).2.2.2.2 ⟨⟨q, m, r⟩, by simp, rfl, hoq.symm⟩
        · rcases List.mem_cons.1 ho with rfl | ho
          · exact ⟨by simpa using hd, rfl, by simp, ha, hq⟩
          · obtain ⟨a, b, c, d, hno⟩ := e3 o ho
            exact ⟨a, b, List.mem_cons_of_mem _ c, d, fun ⟨p, hp, hpp⟩ => hno ⟨p, List.mem_append_left _ hp, hpp⟩⟩
        · rcases List.mem_cons.1 hq' with rfl | hq'
          · exact ⟨⟨q', m, r⟩, by rw [e1]; simp, rfl, rfl⟩
          · exact e4 he hdry q' hq'

theorem runMethod_known {m : String} {dry : Bool} {ans : Query → Res R} {qs : List Query} {rs : List (Rec R)} (h : ∀ q ∈ qs, known m rs q = true) :
    runMethod m dry ans qs rs = (rs, .ok ()) := by
  induction qs with
  | nil => rfl
  | cons q qs ih =>
    simp only [runMethod, h q (by simp), if_true]
    exact ih fun q' hq' => h q' (by simp [hq'])

/-- C105.  A second run asks nothing and changes nothing, whatever would be answered now. -/
theorem C105_again (m : String) (ans ans' : Query → Res R) (dry : Bool) (qs : List Query) (rs out : List (Rec R)) (h : runMethod m false ans qs rs = (out, .ok ())) :
    runMethod m dry ans' qs out = (out, .ok ()) := by
  obtain ⟨-, -, -, -, h4⟩ := C105_run _ _ _ _ _ _ _ h
  exact runMethod_known fun q hq => known_iff.2 (h4 rfl rfl q hq)

theorem runMethod_append (m : String) (dry : Bool) (ans : Query → Res R) (a b : List Query) (rs out : List (Rec R)) (h : runMethod m dry ans a rs = (out, .ok ())) :
    runMethod m dry ans (a ++ b) rs = runMethod m dry ans b out := by
  induction a generalizing rs with
  | nil =>
    simp only [runMethod, Prod.mk.injEq] at h
    rw [List.nil_append, h.1]
  | cons q a ih =>
    simp only [runMethod, List.cons_append] at h ⊢
    split_ifs at h ⊢ with hk hd
    · exact ih rs h
    · exact ih rs h
    · cases ha : ans q with
      | error f => simp only [ha, Prod.mk.injEq] at h; cases h.2
      | ok r => simp only [ha] at h ⊢; exact ih _ h

/-- C105.  A run that was stopped by an exception, or killed, can be taken up again: the records then are those of one run without the interruption. -/
theorem C105_resume (m : String) (ans ans' : Query → Res R) (hans : ∀ q r, ans q = .ok r → ans' q = .ok r) (qs : List Query) (rs out : List (Rec R)) (e : Res Unit)
    (k : ℕ) (h : runMethod m false ans (qs.take k) rs = (out, e)) : runMethod m false ans' qs out = runMethod m false ans' qs rs := by
  have key : ∀ (a b : List Query) (rs out : List (Rec R)) (e : Res Unit), runMethod m false ans a rs = (out, e) →
      runMethod m false ans' (a ++ b) out = runMethod m false ans' (a ++ b) rs := by
    intro a
    induction a with
    | nil =>
      intro b rs out e h
      simp only [runMethod, Prod.mk.injEq] at h
      rw [h.1]
    | cons q a ih =>
      intro b rs out e h
      obtain ⟨new, e1, -, -, -⟩ := C105_run _ _ _ _ _ _ _ h
      simp only [runMethod, List.cons_append, Bool.false_eq_true, if_false] at h ⊢
      split_ifs at h with hk
      · rw [if_pos hk, if_pos (by rw [e1]; exact known_append hk)]
        exact ih b rs out e h
      · rw [if_neg hk]
        cases ha : ans q with
        | error f =>
          simp only [ha, Prod.mk.injEq] at h
          rw [← h.1, if_neg hk]
        | ok r =>
          simp only [ha] at h
          obtain ⟨new', e1', -, -, -⟩ := C105_run _ _ _ _ _ _ _ h
          have hk' : known m out q = true := by
            rw [e1']; exact known_append (known_iff.2 ⟨⟨q, m, r⟩, by simp, rfl, rfl⟩)
          rw [if_pos hk']
          simp only [hans q r ha]
          exact ih b _ out e h
  have := key (qs.take k) (qs.drop k) rs out e h
  rwa [List.take_append_drop] at this

/-- C105.  A dry run changes nothing and asks nothing. -/
theorem C105_dry (m : String) (ans : Query → Res R) (qs : List Query) (rs : List (Rec R)) : runMethod m true ans qs rs = (rs, .ok ()) := by
  induction qs with
  | nil => rfl
  | cons q qs ih => simp only [runMethod, if_true, ih, ite_self]

end

def exQs : List Query := [⟨0, 1, 4, 0⟩, ⟨1, 0, 3, 0⟩, ⟨0, 1, 4, 0⟩, ⟨2, 2, 5, 1⟩]
/-- Answers: the index and length of the query. -/
def exAns (k : ℕ) (q : Query) : Res (List ℕ) := .ok (List.replicate k (q.stop - q.start))

example : runMethod "bf" false (exAns 2) exQs [] = ([⟨⟨0, 1, 4, 0⟩, "bf", [3, 3]⟩, ⟨⟨1, 0, 3, 0⟩, "bf", [3, 3]⟩, ⟨⟨2, 2, 5, 1⟩, "bf", [3, 3]⟩], .ok ()) := by decide +kernel
example : runMethod "bf" false (fun q => if q.index = 1 then .error (.genex "x") else exAns 2 q) exQs [] = ([⟨⟨0, 1, 4, 0⟩, "bf", [3, 3]⟩], .error (.genex "x")) := by decide +kernel

/-- C105.  The number of matches asked for is not recorded: after a run with one number, a run with another keeps the answers of the first. -/
theorem C105_k_false : ∃ (qs : List Query) (out : List (Rec (List ℕ))), runMethod "bf" false (exAns 1) qs [] = (out, .ok ()) ∧ runMethod "bf" false (exAns 15) qs out = (out, .ok ()) ∧
    ∃ o ∈ out, exAns 15 o.query ≠ .ok o.result :=
  ⟨exQs, [⟨⟨0, 1, 4, 0⟩, "bf", [3]⟩, ⟨⟨1, 0, 3, 0⟩, "bf", [3]⟩, ⟨⟨2, 2, 5, 1⟩, "bf", [3]⟩], by decide +kernel, by decide +kernel, ⟨⟨0, 1, 4, 0⟩, "bf", [3]⟩, by simp, by decide +kernel⟩

/-! ## Errors -/

section
variable {K : Type} [Field K] [LinearOrder K] [IsStrictOrderedRing K]

/-- C105.  If every distance found is at least the least possible one at its place, then an error below `ε` means that each distance exceeds the least possible one by less than
`k ε`, for `k` results. -/
theorem C105_error (a b : List K) (hne : a ≠ []) (h : List.Forall₂ (fun x y => y ≤ x) a b) (ε : K) :
    ∃ v : K, computeRelError a b = .ok (.fin v) ∧ 0 ≤ v ∧ (v < ε → List.Forall₂ (fun x y => x - y < a.length * ε) a b) ∧ (v = 0 ↔ a = b) := by
  have hlen := h.length_eq
  have hz : (List.zipWith (· - ·) a b).length = a.length := by rw [List.length_zipWith]; omega
  have hn : (0 : K) < a.length := by exact_mod_cast List.length_pos_iff.2 hne
  have hnn : ∀ {a b : List K}, List.Forall₂ (fun x y => y ≤ x) a b → 0 ≤ (List.zipWith (· - ·) a b).sum := by
    intro a b h
    induction h with
    | nil => simp
    | cons hxy _ ih => simp only [List.zipWith_cons_cons, List.sum_cons]; linarith
  refine ⟨(List.zipWith (· - ·) a b).sum / a.length, ?_, div_nonneg (hnn h) hn.le, ?_, ?_⟩
  · simp only [computeRelError, npSub, if_pos hlen, bind, Except.bind, hz]
    show Except.ok (Dbl.div _ _) = _
    simp [Dbl.div, hn.ne']
  · intro hv
    rw [div_lt_iff₀ hn, mul_comm] at hv
    have : ∀ {a b : List K} {t : K}, List.Forall₂ (fun x y => y ≤ x) a b → (List.zipWith (· - ·) a b).sum < t → List.Forall₂ (fun x y => x - y < t) a b := by
      intro a b t h
      induction h generalizing t with
      | nil => intro _; exact .nil
      | cons hxy hr ih =>
        intro hs
        simp only [List.zipWith_cons_cons, List.sum_cons] at hs
        exact .cons (by linarith [hnn hr]) (ih (by linarith))
    exact this h hv
  · rw [div_eq_zero_iff, or_iff_left hn.ne']
    constructor
    · have : ∀ {a b : List K}, List.Forall₂ (fun x y => y ≤ x) a b → (List.zipWith (· - ·) a b).sum = 0 → a = b := by
        intro a b h
        induction h with
        | nil => intro _; rfl
        | cons hxy hr ih =>
          intro hs
          simp only [List.zipWith_cons_cons, List.sum_cons] at hs
          have := hnn hr
          rw [ih (by linarith)]
          congr 1
          linarith
      exact this h
    · rintro rfl
      clear hne h hlen hz hn
      induction a with
      | nil => rfl
      | cons x a ih => simp only [List.zipWith_cons_cons, List.sum_cons, ih]; ring

/-- C105.  Results of two sizes, none of them 1, stop the script with an exception. -/
theorem C105_error_sizes (a b : List K) (h : a.length ≠ b.length) (ha : a.length ≠ 1) (hb : b.length ≠ 1) : ∃ msg, computeRelError a b = .error (.std msg) := by
  unfold computeRelError npSub
  rw [if_neg h]
  rcases a with _ | ⟨x, _ | ⟨x', a⟩⟩ <;> rcases b with _ | ⟨y, _ | ⟨y', b⟩⟩ <;> first | exact absurd rfl h | exact absurd rfl ha | exact absurd rfl hb | exact ⟨_, rfl⟩

theorem small_iff (e : Dbl K) : small e ↔ SmallErr e := by
  unfold small
  rcases e with v | _ | _ | _
  · rw [Dbl.abs_fin]; exact Iff.rfl
  all_goals exact ⟨fun h => h.elim, fun h => h.elim⟩

/-- C105.  The errors recorded: those of the first extents in order, ending with the first that is small; if none is, all of them. -/
theorem C105_sweep (err : ℕ → Res (Dbl K)) (n : ℕ) (out : List (Dbl K)) (h : sweep err n 0 [] = .ok out) :
    out.length ≤ n ∧ (∀ (i : ℕ) (hi : i < out.length), err i = .ok out[i]) ∧ (∀ (i : ℕ) (hi : i + 1 < out.length), ¬ SmallErr out[i]) ∧
      (out.length < n → ∃ x, out.getLast? = some x ∧ SmallErr x) := by
  simp only [← small_iff]
  have key : ∀ (m i : ℕ) (acc out : List (Dbl K)), acc.length = i → (∀ (j : ℕ) (hj : j < acc.length), err j = .ok acc[j] ∧ ¬ small acc[j]) → sweep err m i acc = .ok out →
      out.length ≤ i + m ∧ (∀ (j : ℕ) (hj : j < out.length), err j = .ok out[j]) ∧ (∀ (j : ℕ) (hj : j + 1 < out.length), ¬ small out[j]) ∧
        (out.length < i + m → ∃ x, out.getLast? = some x ∧ small x) := by
    intro m
    induction m with
    | zero =>
      intro i acc out hl hacc h
      simp only [sweep] at h
      injection h with h
      subst h
      exact ⟨by omega, fun j hj => (hacc j hj).1, fun j hj => (hacc j (by omega)).2, by omega⟩
    | succ m ih =>
      intro i acc out hl hacc h
      simp only [sweep] at h
      cases he : err i with
      | error f => rw [he] at h; cases h
      | ok e =>
        rw [he] at h
        simp only at h
        split_ifs at h with hs
        · injection h with h
          subst h
          refine ⟨by rw [List.length_append, List.length_singleton]; omega, fun j hj => ?_, fun j hj => ?_, fun _ => ⟨e, by simp, hs⟩⟩
          · rw [List.length_append, List.length_singleton] at hj
            by_cases hji : j < acc.length
            · rw [List.getElem_append_left hji]; exact (hacc j hji).1
            · obtain rfl : j = i := by omega
              rw [List.getElem_append_right (by omega)]; simpa using he
          · rw [List.length_append, List.length_singleton] at hj
            rw [List.getElem_append_left (by omega)]
            exact (hacc j (by omega)).2
        · have hacc' : ∀ (j : ℕ) (hj : j < (acc ++ [e]).length), err j = .ok (acc ++ [e])[j] ∧ ¬ small (acc ++ [e])[j] := by
            intro j hj
            rw [List.length_append, List.length_singleton] at hj
            by_cases hji : j < acc.length
            · rw [List.getElem_append_left hji]; exact hacc j hji
            · obtain rfl : j = i := by omega
              rw [List.getElem_append_right (by omega)]
              exact ⟨by simpa using he, by simpa using hs⟩
          obtain ⟨h1, h2, h3, h4⟩ := ih (i + 1) (acc ++ [e]) out (by simp [hl]) hacc' h
          exact ⟨by omega, h2, h3, fun hlt => h4 (by omega)⟩
  have := key n 0 [] out rfl (by simp) h
  simpa using this

end

example : computeRelError ([3, 5] : List ℚ) [2, 5] = .ok (.fin (1 / 2)) := by decide +kernel
example : sweep (fun i => .ok (.fin (if i < 3 then (1 : ℚ) / (i + 1) else 0))) 1000 0 [] = .ok [.fin 1, .fin (1 / 2), .fin (1 / 3), .fin 0] := by decide +kernel

/-- C105.  Without that assumption errors cancel: the value is 0 although every distance differs.  And it is not relative: all distances ten times as large give ten times the error. -/
theorem C105_error_false : ∃ a b : List ℚ, computeRelError a b = .ok (.fin 0) ∧ List.Forall₂ (fun x y => 1 ≤ |x - y|) a b ∧
    ∃ c d : List ℚ, computeRelError c d = .ok (.fin 1) ∧ computeRelError (c.map (10 * ·)) (d.map (10 * ·)) = .ok (.fin 10) :=
  ⟨[1, 3], [2, 2], by decide +kernel, by norm_num, [2, 3], [1, 2], by decide +kernel, by decide +kernel⟩

end Genex.Props
