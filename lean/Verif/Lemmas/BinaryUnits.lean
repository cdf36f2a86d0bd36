import Verif.Lemmas.UnitGroups
import Verif.Model.Rounded
import Verif.Spec.Float

/-!
# Lemmas: rounded distances in units that rounding respects
-/

set_option linter.unusedSectionVars false

namespace Genex

open Dbl

variable {K : Type} [Field K] [LinearOrder K] [IsStrictOrderedRing K]

section ops
variable {s t : K}

theorem unit_zero (t : K) : inUnit t (0 : Dbl K) = 0 := by
  show inUnit t (fin 0) = fin 0
  simp [inUnit]

theorem unit_add (t : K) (x y : Dbl K) : inUnit t x + inUnit t y = inUnit t (x + y) := by
  show Dbl.add _ _ = inUnit t (Dbl.add x y)
  cases x <;> cases y <;> simp [inUnit, Dbl.add, mul_add]

theorem unit_neg (t : K) (x : Dbl K) : Dbl.neg (inUnit t x) = inUnit t (Dbl.neg x) := by
  cases x <;> simp [inUnit, Dbl.neg]

theorem unit_sub (t : K) (x y : Dbl K) : inUnit t x - inUnit t y = inUnit t (x - y) := by
  show inUnit t x + Dbl.neg (inUnit t y) = inUnit t (x + Dbl.neg y)
  rw [unit_neg, unit_add]

theorem unit_abs (ht : 0 < t) (x : Dbl K) : Dbl.abs (inUnit t x) = inUnit t (Dbl.abs x) := by
  cases x with
  | fin a =>
    simp only [inUnit, Dbl.abs]
    by_cases h : a < 0
    · rw [if_pos h, if_pos (mul_neg_of_pos_of_neg ht h), mul_neg]
    · rw [if_neg h, if_neg (not_lt.2 (mul_nonneg ht.le (not_lt.1 h)))]
  | _ => rfl

theorem infTimes_unit (ht : 0 < t) (p : Bool) (b : K) : infTimes p (t * b) = infTimes p b := by
  unfold infTimes
  rcases lt_trichotomy b 0 with h | rfl | h
  · rw [if_neg (mul_neg_of_pos_of_neg ht h).ne, if_neg (not_lt.2 (mul_neg_of_pos_of_neg ht h).le), if_neg h.ne, if_neg (not_lt.2 h.le)]
  · simp
  · rw [if_neg (mul_pos ht h).ne', if_pos (mul_pos ht h), if_neg h.ne', if_pos h]

theorem unit_special (t : K) (p : Bool) (b : K) : inUnit t (infTimes p b) = infTimes p b := by
  unfold infTimes
  split
  · rfl
  · split <;> split <;> rfl

theorem unit_mul (hs : 0 < s) (ht : 0 < t) (x y : Dbl K) : inUnit s x * inUnit t y = inUnit (s * t) (x * y) := by
  show Dbl.mul _ _ = inUnit (s * t) (Dbl.mul x y)
  cases x <;> cases y <;> simp only [inUnit, Dbl.mul, infTimes_unit hs, infTimes_unit ht, unit_special]
  all_goals first | rfl | skip
  · congr 1; ring
  all_goals exact (unit_special _ _ _).symm

theorem unit_mulc (t : K) (x : Dbl K) (c : K) : inUnit t x * fin c = inUnit t (x * fin c) := by
  show Dbl.mul _ _ = inUnit t (Dbl.mul x (fin c))
  cases x with
  | fin a => simp only [inUnit, Dbl.mul, mul_assoc]
  | nan => rfl
  | inf => exact (unit_special t true c).symm
  | ninf => exact (unit_special t false c).symm

theorem unit_divc (ht : 0 < t) (x : Dbl K) (c : K) : inUnit t x / fin c = inUnit t (x / fin c) := by
  show Dbl.div _ _ = inUnit t (Dbl.div x (fin c))
  cases x with
  | fin a =>
    simp only [inUnit, Dbl.div]
    by_cases hc : c = 0
    · simp only [if_pos hc]
      rcases lt_trichotomy a 0 with h | rfl | h
      · rw [if_neg (mul_neg_of_pos_of_neg ht h).ne, if_neg (not_lt.2 (mul_neg_of_pos_of_neg ht h).le), if_neg h.ne, if_neg (not_lt.2 h.le)]
      · simp
      · rw [if_neg (mul_pos ht h).ne', if_pos (mul_pos ht h), if_neg h.ne', if_pos h]
    · simp only [if_neg hc, mul_div_assoc]
  | nan => rfl
  | inf => simp only [inUnit, Dbl.div]; split <;> rfl
  | ninf => simp only [inUnit, Dbl.div]; split <;> rfl

/-- A quotient of two numbers in the same unit. -/
theorem unit_div (ht : 0 < t) (x y : Dbl K) : inUnit t x / inUnit t y = x / y := by
  show Dbl.div _ _ = Dbl.div x y
  have hsg : ∀ a : K, (t * a = 0 ↔ a = 0) ∧ (0 < t * a ↔ 0 < a) ∧ (0 ≤ t * a ↔ 0 ≤ a) := fun a =>
    ⟨by simp [ht.ne'], by simp [ht], by simp [ht]⟩
  cases x <;> cases y <;> simp only [inUnit, Dbl.div, (hsg _).1, (hsg _).2.1, (hsg _).2.2]
  rw [mul_div_mul_left _ _ ht.ne']

theorem unit_sqrt [HasSqrt K] [LawfulSqrt K] (ht : 0 < t) (x : Dbl K) : Dbl.sqrt (inUnit (t * t) x) = inUnit t (Dbl.sqrt x) := by
  cases x with
  | fin a =>
    simp only [inUnit, Dbl.sqrt]
    by_cases h : a < 0
    · rw [if_pos h, if_pos (mul_neg_of_pos_of_neg (mul_pos ht ht) h)]
    · have h := not_lt.1 h
      have h' : 0 ≤ t * t * a := mul_nonneg (mul_pos ht ht).le h
      rw [if_neg (not_lt.2 h), if_neg (not_lt.2 h')]
      congr 1
      have e : HasSqrt.sqrt (t * t * a) * HasSqrt.sqrt (t * t * a) = (t * HasSqrt.sqrt a) * (t * HasSqrt.sqrt a) := by
        rw [LawfulSqrt.mul_self h', mul_mul_mul_comm, LawfulSqrt.mul_self h]
      exact (mul_self_inj (LawfulSqrt.sqrt_nonneg h') (mul_nonneg ht.le (LawfulSqrt.sqrt_nonneg h))).1 e
  | _ => rfl

theorem unit_rnd {rd : K → K} (h : ∀ x, rd (t * x) = t * rd x) (x : Dbl K) : rnd rd (inUnit t x) = inUnit t (rnd rd x) := by
  cases x <;> simp [inUnit, rnd, h]

theorem unit_inj (ht : 0 < t) {x y : Dbl K} : inUnit t x = inUnit t y ↔ x = y := by
  cases x <;> cases y <;> simp [inUnit, ht.ne']

end ops

/-! ### The metric classes -/

/-- The metric class treats series, accumulators and results in another unit alike. -/
structure DM.Keeps (M : DM K) (φ : Dbl K → Dbl K) (ψ : M.S → M.S) (χ : Dbl K → Dbl K) : Prop where
  nan : φ .nan = .nan
  unset : M.unset.map ψ = M.unset
  init : ψ M.init = M.init
  reduce : ∀ p x y, M.reduce (ψ p) (φ x) (φ y) = ψ (M.reduce p x y)
  norm : ∀ p l1 l2, M.norm (ψ p) l1 l2 = χ (M.norm p l1 l2)
  normDTW : ∀ p l1 l2, M.normDTW (ψ p) l1 l2 = χ (M.normDTW p l1 l2)
  drop : ∀ d l1 l2 p, dropTest M (χ d) l1 l2 (ψ p) = dropTest M d l1 l2 p
  lt : ∀ x y, χ x < χ y ↔ x < y
  inj : ∀ x y, χ x = χ y ↔ x = y
  inf : χ .inf = .inf
  zero : χ 0 = 0
  isNan : χ .nan = .nan

section
variable {M : DM K} {φ : Dbl K → Dbl K} {ψ : M.S → M.S} {χ : Dbl K → Dbl K}

theorem DM.Keeps.loop (h : M.Keeps φ ψ χ) (d : Dbl K) (l1 l2 : ℕ) : ∀ (a b : List (Dbl K)) (p : M.S),
    pairwiseLoop M (dropTest M (χ d) l1 l2) (ψ p) (a.map φ) (b.map φ) =
      (ψ (pairwiseLoop M (dropTest M d l1 l2) p a b).1, (pairwiseLoop M (dropTest M d l1 l2) p a b).2)
  | [], _, _ => by simp [pairwiseLoop]
  | _ :: _, [], _ => by simp [pairwiseLoop]
  | x :: a, y :: b, p => by
    simp only [List.map_cons, pairwiseLoop, h.reduce, h.drop]
    split
    · rfl
    · exact h.loop d l1 l2 a b _

theorem DM.Keeps.pairwise (h : M.Keeps φ ψ χ) (a b : List (Dbl K)) (d : Dbl K) :
    pairwiseDistance M (a.map φ) (b.map φ) (χ d) = (pairwiseDistance M a b d).map χ := by
  unfold pairwiseDistance
  simp only [List.length_map]
  split
  · rfl
  · have := h.loop d a.length b.length a b M.init
    rw [h.init] at this
    rw [this]
    simp only [Except.map, h.norm]
    split
    · rw [h.inf]
    · rfl

/-- The matrices in the other unit. -/
def Mat.unit (ψ : M.S → M.S) (χ : Dbl K → Dbl K) (mt : Mat M) : Mat M :=
  ⟨fun i j => (mt.cost i j).map ψ, fun i j => χ (mt.ncost i j)⟩

theorem DM.Keeps.at' (h : M.Keeps φ ψ χ) (a : List (Dbl K)) (i : ℕ) : Genex.at' (a.map φ) i = φ (Genex.at' a i) := by
  unfold Genex.at'
  simp only [List.getD_eq_getElem?_getD, List.getElem?_map]
  cases a[i]? with
  | none => exact h.nan.symm
  | some x => rfl

theorem DM.Keeps.fill (h : M.Keeps φ ψ χ) (a b : List (Dbl K)) (mt : Mat M) (i j : ℕ) (prev : Option M.S) :
    Mat.fill (a.map φ) (b.map φ) (mt.unit ψ χ) i j (prev.map ψ) = (Mat.fill a b mt i j prev).map (Mat.unit ψ χ) := by
  cases prev with
  | none => rfl
  | some p =>
    simp only [Mat.fill, Option.map_some, h.at', h.reduce, List.length_map, h.normDTW, Except.map, Mat.unit, Except.ok.injEq]
    congr 1
    · funext i' j'
      split <;> rfl
    · funext i' j'
      split <;> rfl

theorem DM.Keeps.matInit (h : M.Keeps φ ψ χ) (a b : List (Dbl K)) :
    Genex.matInit M (a.map φ) (b.map φ) = (Genex.matInit M a b).map (Mat.unit ψ χ) := by
  unfold Genex.matInit
  rw [← h.fill]
  congr 1
  · simp only [Mat.unit, h.unset, List.length_map]
    congr 1
    funext i j
    split
    · exact h.inf.symm
    · exact h.zero.symm
  · simp [h.init]

theorem DM.Keeps.firstCol (h : M.Keeps φ ψ χ) (a b : List (Dbl K)) (r : Int) (mt : Mat M) :
    Genex.firstCol (a.map φ) (b.map φ) r (mt.unit ψ χ) = (Genex.firstCol a b r mt).map (Mat.unit ψ χ) := by
  unfold Genex.firstCol
  rw [List.length_map]
  exact (foldlM_units (Mat.unit ψ χ) (fun _ => True) _ mt trivial (fun y i _ _ => h.fill a b y i 0 _) (fun _ _ _ _ _ _ => trivial)).1

theorem DM.Keeps.firstRow (h : M.Keeps φ ψ χ) (a b : List (Dbl K)) (r : Int) (mt : Mat M) :
    Genex.firstRow (a.map φ) (b.map φ) r (mt.unit ψ χ) = (Genex.firstRow a b r mt).map (Mat.unit ψ χ) := by
  unfold Genex.firstRow
  rw [List.length_map]
  exact (foldlM_units (Mat.unit ψ χ) (fun _ => True) _ mt trivial (fun y i _ _ => h.fill a b y 0 i _) (fun _ _ _ _ _ _ => trivial)).1

theorem DM.Keeps.min (h : M.Keeps φ ψ χ) (x y : Dbl K) : stdMin (χ x) (χ y) = χ (stdMin x y) := by
  unfold stdMin
  simp only [h.lt]
  split <;> rfl

theorem DM.Keeps.cell (h : M.Keeps φ ψ χ) (a b : List (Dbl K)) (r : Int) (i : ℕ) (st : Mat M × Dbl K) (j : ℕ) :
    cellStep (a.map φ) (b.map φ) r i (st.1.unit ψ χ, χ st.2) j = (cellStep a b r i st j).map fun st => (st.1.unit ψ χ, χ st.2) := by
  unfold cellStep
  simp only
  split
  · simp only [Except.map, Mat.unit, h.min]
  · have e1 : ∀ (P : Prop) [Decidable P] (x : Dbl K), (if P then χ x else .inf) = χ (if P then x else .inf) := by
      intro P _ x
      split
      · rfl
      · exact h.inf.symm
    have e2 : ∀ (P : Prop) [Decidable P] (x y : Option M.S), (if P then x.map ψ else y.map ψ) = (if P then x else y).map ψ := by
      intro P _ x y
      split <;> rfl
    have e3 : ∀ i j, (st.1.unit ψ χ).ncost i j = χ (st.1.ncost i j) := fun _ _ => rfl
    have e4 : ∀ i j, (st.1.unit ψ χ).cost i j = (st.1.cost i j).map ψ := fun _ _ => rfl
    simp only [e3, e4, e1, h.lt, e2, h.fill]
    cases Mat.fill a b st.1 i j _ with
    | error e => rfl
    | ok mt => simp only [Except.map, Mat.unit, h.min]

theorem DM.Keeps.row (h : M.Keeps φ ψ χ) (a b : List (Dbl K)) (r : Int) (i : ℕ) (mt : Mat M) :
    rowLoop (a.map φ) (b.map φ) r i (mt.unit ψ χ) = (rowLoop a b r i mt).map fun st => (st.1.unit ψ χ, χ st.2) := by
  unfold rowLoop
  rw [List.length_map]
  have := (foldlM_units (fun st : Mat M × Dbl K => (st.1.unit ψ χ, χ st.2)) (fun _ => True) (rowRange r b.length i) (mt, .inf) trivial
    (fun y j _ _ => h.cell a b r i y j) (fun _ _ _ _ _ _ => trivial)).1
  simp only [h.inf] at this
  exact this

theorem DM.Keeps.rows (h : M.Keeps φ ψ χ) (a b : List (Dbl K)) (r : Int) (d : Dbl K) : ∀ (is : List ℕ) (mt : Mat M),
    rowsLoop (a.map φ) (b.map φ) r (χ d) is (mt.unit ψ χ) = (rowsLoop a b r d is mt).map fun st => (st.1.unit ψ χ, st.2)
  | [], _ => rfl
  | i :: is, mt => by
    unfold rowsLoop
    rw [h.row]
    cases rowLoop a b r i mt with
    | error e => rfl
    | ok st =>
      obtain ⟨mt', best⟩ := st
      simp only [Except.map, h.lt]
      split
      · rfl
      · exact h.rows a b r d is mt'

theorem DM.Keeps.eqD (h : M.Keeps φ ψ χ) (x y : Dbl K) : Dbl.eqD (χ x) (χ y) ↔ Dbl.eqD x y := by
  unfold Dbl.eqD
  rw [h.inj, ← h.isNan, Ne, h.inj, h.isNan]

theorem DM.Keeps.back (h : M.Keeps φ ψ χ) (nc : ℕ → ℕ → Dbl K) (c : ℕ × ℕ) : backStep (fun i j => χ (nc i j)) c = backStep nc c := by
  unfold backStep
  simp only [h.min, h.eqD]

theorem DM.Keeps.trace (h : M.Keeps φ ψ χ) (nc : ℕ → ℕ → Dbl K) : ∀ (fuel : ℕ) (c : ℕ × ℕ) (l : List (ℕ × ℕ)),
    traceLoop (fun i j => χ (nc i j)) fuel c l = traceLoop nc fuel c l
  | 0, c, l => by simp only [traceLoop, h.back]
  | fuel + 1, c, l => by
    simp only [traceLoop, h.back, h.trace nc fuel]

theorem DM.Keeps.warped (h : M.Keeps φ ψ χ) [BandOps] (ratio : ℚ) (a b : List (Dbl K)) (d : Dbl K) (l : List (ℕ × ℕ)) :
    warpedDistance M ratio (a.map φ) (b.map φ) (χ d) l = (warpedDistance M ratio a b d l).map fun r => (χ r.1, r.2) := by
  unfold warpedDistance
  simp only [List.length_map]
  split
  · have e := h.reduce M.init (Genex.at' a 0) (Genex.at' b 0)
    rw [h.init] at e
    simp only [h.at', e, h.normDTW, Except.map]
  split
  · rfl
  rw [h.matInit]
  cases Genex.matInit M a b with
  | error e => rfl
  | ok m0 =>
    simp only [Except.map]
    rw [h.firstCol]
    cases Genex.firstCol a b _ m0 with
    | error e => rfl
    | ok m1 =>
      simp only [Except.map]
      rw [h.firstRow]
      cases Genex.firstRow a b _ m1 with
      | error e => rfl
      | ok m2 =>
        simp only [Except.map]
        rw [h.rows]
        cases rowsLoop a b _ d _ m2 with
        | error e => rfl
        | ok st =>
          obtain ⟨m3, dropped⟩ := st
          simp only [Except.map, Mat.unit]
          rw [h.trace]
          cases traceLoop m3.ncost _ _ l with
          | error e => rfl
          | ok mat =>
            simp only
            cases dropped
            · rfl
            · simp [h.inf]

end

/-! ### Rounding -/

section
variable {s : K} {rd : K → K}

theorem rd_square (h : ∀ x, rd (s * x) = s * rd x) (x : K) : rd (s * s * x) = s * s * rd x := by
  rw [mul_assoc, h, h, mul_assoc]

theorem eucDist_unit (hs : 0 < s) (h : ∀ x, rd (s * x) = s * rd x) (x y : Dbl K) :
    eucDistR rd (inUnit s x) (inUnit s y) = inUnit (s * s) (eucDistR rd x y) := by
  unfold eucDistR
  rw [unit_sub, unit_rnd h, unit_mul hs hs, unit_rnd (rd_square h)]

theorem eucNorm_unit [HasSqrt K] [LawfulSqrt K] (hs : 0 < s) (h : ∀ x, rd (s * x) = s * rd x) (p : Dbl K) (l1 l2 : ℕ) :
    eucNormDTWR rd (inUnit (s * s) p) l1 l2 = inUnit s (eucNormDTWR rd p l1 l2) := by
  unfold eucNormDTWR Dbl.ofNat
  rw [unit_sqrt hs, unit_rnd h, unit_divc hs, unit_rnd h]

theorem euclideanR_keeps [HasSqrt K] [LawfulSqrt K] (hs : 0 < s) (h : ∀ x, rd (s * x) = s * rd x) :
    (euclideanR rd : DM K).Keeps (inUnit s) (inUnit (s * s)) (inUnit s) := by
  have hr : ∀ p x y : Dbl K, rnd rd (inUnit (s * s) p + eucDistR rd (inUnit s x) (inUnit s y)) = inUnit (s * s) (rnd rd (p + eucDistR rd x y)) :=
    fun p x y => by rw [eucDist_unit hs h, unit_add, unit_rnd (rd_square h)]
  have hn : ∀ (p : Dbl K) (c : K), rnd rd (Dbl.sqrt (rnd rd (inUnit (s * s) p / fin c))) = inUnit s (rnd rd (Dbl.sqrt (rnd rd (p / fin c)))) :=
    fun p c => by rw [unit_divc (mul_pos hs hs), unit_rnd (rd_square h), unit_sqrt hs, unit_rnd h]
  have hd : ∀ (d p : Dbl K) (c : K), decide (rnd rd (rnd rd (inUnit s d * inUnit s d) * fin c) < inUnit (s * s) p) =
      decide (rnd rd (rnd rd (d * d) * fin c) < p) := fun d p c => by
    rw [unit_mul hs hs, unit_rnd (rd_square h), unit_mulc, unit_rnd (rd_square h)]
    exact decide_eq_decide.2 (inUnit_lt (mul_pos hs hs))
  exact {
    nan := rfl
    unset := congrArg some (unit_zero _)
    init := unit_zero _
    reduce := hr
    norm := fun p l1 l2 => hn p _
    normDTW := fun p l1 l2 => eucNorm_unit hs h p l1 l2
    drop := fun d l1 l2 p => hd d p _
    lt := fun x y => inUnit_lt hs
    inj := fun x y => unit_inj hs
    inf := rfl
    zero := unit_zero _
    isNan := rfl }

theorem manhattanR_keeps (hs : 0 < s) (h : ∀ x, rd (s * x) = s * rd x) :
    (manhattanR rd : DM K).Keeps (inUnit s) (inUnit s) (inUnit s) := by
  have hn : ∀ (p : Dbl K) (c : K), rnd rd (inUnit s p / fin c) = inUnit s (rnd rd (p / fin c)) := by
    intro p c
    rw [unit_divc hs, unit_rnd h]
  have hr : ∀ p x y : Dbl K, rnd rd (inUnit s p + Dbl.abs (rnd rd (inUnit s x - inUnit s y))) = inUnit s (rnd rd (p + Dbl.abs (rnd rd (x - y)))) :=
    fun p x y => by rw [unit_sub, unit_rnd h, unit_abs hs, unit_add, unit_rnd h]
  have hd : ∀ (d p : Dbl K) (c : K), decide (inUnit s d < rnd rd (inUnit s p / fin c)) = decide (d < rnd rd (p / fin c)) := fun d p c => by
    rw [hn]
    exact decide_eq_decide.2 (inUnit_lt hs)
  exact {
    nan := rfl
    unset := congrArg some (unit_zero _)
    init := unit_zero _
    reduce := hr
    norm := fun p l1 l2 => hn p _
    normDTW := fun p l1 l2 => hn p _
    drop := fun d l1 l2 p => hd d p _
    lt := fun x y => inUnit_lt hs
    inj := fun x y => unit_inj hs
    inf := rfl
    zero := unit_zero _
    isNan := rfl }

theorem unit_max (hs : 0 < s) (x y : Dbl K) : stdMax (inUnit s x) (inUnit s y) = inUnit s (stdMax x y) := by
  unfold stdMax
  simp only [inUnit_lt hs]
  split <;> rfl

theorem chebyshevR_keeps (hs : 0 < s) (h : ∀ x, rd (s * x) = s * rd x) :
    (chebyshevR rd : DM K).Keeps (inUnit s) (inUnit s) (inUnit s) := by
  have hr : ∀ p x y : Dbl K, stdMax (inUnit s p) (Dbl.abs (rnd rd (inUnit s x - inUnit s y))) = inUnit s (stdMax p (Dbl.abs (rnd rd (x - y)))) :=
    fun p x y => by rw [unit_sub, unit_rnd h, unit_abs hs, unit_max hs]
  exact {
    nan := rfl
    unset := congrArg some (unit_zero _)
    init := rfl
    reduce := hr
    norm := fun p l1 l2 => rfl
    normDTW := fun p l1 l2 => rfl
    drop := fun d l1 l2 p => decide_eq_decide.2 (inUnit_lt hs)
    lt := fun x y => inUnit_lt hs
    inj := fun x y => unit_inj hs
    inf := rfl
    zero := unit_zero _
    isNan := rfl }

theorem sorensenR_keeps (hs : 0 < s) (h : ∀ x, rd (s * x) = s * rd x) :
    (sorensenR rd : DM K).Keeps (inUnit s) (fun p => (inUnit s p.1, inUnit s p.2)) id := by
  have hn : ∀ x y : Dbl K, rnd rd (inUnit s x / inUnit s y) = rnd rd (x / y) := fun x y => by rw [unit_div hs]
  exact {
    nan := rfl
    unset := rfl
    init := Prod.ext (unit_zero _) (unit_zero _)
    reduce := fun p x y => by
      refine Prod.ext ?_ ?_
      · show rnd rd (inUnit s p.1 + Dbl.abs (rnd rd (inUnit s x - inUnit s y))) = inUnit s (rnd rd (p.1 + Dbl.abs (rnd rd (x - y))))
        rw [unit_sub, unit_rnd h, unit_abs hs, unit_add, unit_rnd h]
      · show rnd rd (inUnit s p.2 + Dbl.abs (rnd rd (inUnit s x + inUnit s y))) = inUnit s (rnd rd (p.2 + Dbl.abs (rnd rd (x + y))))
        rw [unit_add, unit_rnd h, unit_abs hs, unit_add, unit_rnd h]
    norm := fun p l1 l2 => hn _ _
    normDTW := fun p l1 l2 => hn _ _
    drop := fun d l1 l2 p => by
      show decide (d < rnd rd (inUnit s p.1 / inUnit s p.2)) = decide (d < rnd rd (p.1 / p.2))
      rw [hn]
    lt := fun x y => Iff.rfl
    inj := fun x y => Iff.rfl
    inf := rfl
    zero := rfl
    isNan := rfl }

theorem cosineR_keeps [HasSqrt K] [LawfulSqrt K] (hs : 0 < s) (h : ∀ x, rd (s * x) = s * rd x) :
    (cosineR rd : DM K).Keeps (inUnit s) (fun p => (inUnit (s * s) p.1, inUnit (s * s) p.2.1, inUnit (s * s) p.2.2)) id := by
  have h2 := rd_square h
  have hp := mul_pos hs hs
  have hn : ∀ x y z : Dbl K, rnd rd (inUnit (s * s) z / rnd rd (Dbl.sqrt (rnd rd (inUnit (s * s) x * inUnit (s * s) y)))) =
      rnd rd (z / rnd rd (Dbl.sqrt (rnd rd (x * y)))) := fun x y z => by
    rw [unit_mul hp hp, unit_rnd (rd_square h2), unit_sqrt hp, unit_rnd h2, unit_div hp]
  have hr : ∀ p x y : Dbl K, rnd rd (inUnit (s * s) p + rnd rd (inUnit s x * inUnit s y)) = inUnit (s * s) (rnd rd (p + rnd rd (x * y))) :=
    fun p x y => by rw [unit_mul hs hs, unit_rnd h2, unit_add, unit_rnd h2]
  exact {
    nan := rfl
    unset := rfl
    init := Prod.ext (unit_zero _) (Prod.ext (unit_zero _) (unit_zero _))
    reduce := fun p x y => Prod.ext (hr _ _ _) (Prod.ext (hr _ _ _) (hr _ _ _))
    norm := fun p l1 l2 => hn _ _ _
    normDTW := fun p l1 l2 => hn _ _ _
    drop := fun d l1 l2 p => by
      show decide (d < rnd rd (inUnit (s * s) p.2.2 / _)) = decide (d < rnd rd (p.2.2 / _))
      rw [hn]
    lt := fun x y => Iff.rfl
    inj := fun x y => Iff.rfl
    inf := rfl
    zero := rfl
    isNan := rfl }

end

end Genex
