import Verif.Model.Py

/-!
# The documented functions of the Python module

The signatures as the comments in pygenex/GENEXBindings.cpp give them, with the defaults of the module, and Python's own rule for
binding arguments.  Only the vocabulary of values and calls comes from the model.
-/

namespace Genex.Py

variable {K : Type}

/-- A documented parameter: name, type and default. -/
structure Par (K : Type) where
  name : String
  ty : Ty
  dflt : Option (Val K) := none

/-- The signature of a function. -/
def signature : String → Option (List (Par K))
  | "loadDataset" => some [⟨"name", .str, none⟩, ⟨"path", .str, none⟩, ⟨"separators", .str, some (.str " ")⟩,
      ⟨"maxNumRow", .int, some (.int 0)⟩, ⟨"startCol", .int, some (.int 0)⟩, ⟨"hasNameCol", .bool, some (.bool false)⟩]
  | "unloadDataset" => some [⟨"name", .str, none⟩]
  | "saveDataset" => some [⟨"name", .str, none⟩, ⟨"filePath", .str, none⟩, ⟨"separator", .str, none⟩]
  | "normalize" => some [⟨"name", .str, none⟩]
  | "getTimeSeriesName" => some [⟨"name", .str, none⟩, ⟨"index", .int, none⟩]
  | "getTimeSeriesLength" => some [⟨"name", .str, none⟩, ⟨"index", .int, none⟩]
  | "group" => some [⟨"name", .str, none⟩, ⟨"threshold", .float, none⟩, ⟨"distanceName", .str, some (.str "euclidean")⟩,
      ⟨"numThreads", .int, some (.int 1)⟩, ⟨"wholeSeriesOnly", .bool, some (.bool false)⟩]
  | "preparePAA" => some [⟨"name", .str, none⟩, ⟨"blockSize", .int, none⟩]
  | "saveGroups" => some [⟨"name", .str, none⟩, ⟨"path", .str, none⟩]
  | "saveGroupsSize" => some [⟨"name", .str, none⟩, ⟨"path", .str, none⟩]
  | "loadGroups" => some [⟨"name", .str, none⟩, ⟨"path", .str, none⟩]
  | "distance" => some [⟨"name1", .str, none⟩, ⟨"idx1", .int, none⟩, ⟨"start1", .int, none⟩, ⟨"end1", .int, none⟩,
      ⟨"name2", .str, none⟩, ⟨"idx2", .int, none⟩, ⟨"start2", .int, none⟩, ⟨"end2", .int, none⟩, ⟨"distanceName", .str, none⟩]
  | "getMatching" => some [⟨"name1", .str, none⟩, ⟨"idx1", .int, none⟩, ⟨"start1", .int, none⟩, ⟨"end1", .int, none⟩,
      ⟨"name2", .str, none⟩, ⟨"idx2", .int, none⟩, ⟨"start2", .int, some (.int (-1))⟩, ⟨"end2", .int, some (.int (-1))⟩,
      ⟨"distanceName", .str, none⟩]
  | "sim" => some [⟨"target_name", .str, none⟩, ⟨"query_name", .str, none⟩, ⟨"index", .int, none⟩,
      ⟨"start", .int, some (.int (-1))⟩, ⟨"end", .int, some (.int (-1))⟩]
  | "ksim" => some [⟨"k", .int, none⟩, ⟨"ke", .int, none⟩, ⟨"target_name", .str, none⟩, ⟨"query_name", .str, none⟩,
      ⟨"index", .int, none⟩, ⟨"start", .int, some (.int (-1))⟩, ⟨"end", .int, some (.int (-1))⟩]
  | "ksimbf" => some [⟨"k", .int, none⟩, ⟨"target_name", .str, none⟩, ⟨"query_name", .str, none⟩, ⟨"index", .int, none⟩,
      ⟨"start", .int, some (.int (-1))⟩, ⟨"end", .int, some (.int (-1))⟩, ⟨"distance", .str, some (.str "euclidean")⟩]
  | "ksimpaa" => some [⟨"k", .int, none⟩, ⟨"target_name", .str, none⟩, ⟨"query_name", .str, none⟩, ⟨"index", .int, none⟩,
      ⟨"start", .int, some (.int (-1))⟩, ⟨"end", .int, some (.int (-1))⟩, ⟨"distance", .str, some (.str "euclidean")⟩]
  | "getTimeSeries" => some [⟨"name", .str, none⟩, ⟨"idx", .int, none⟩, ⟨"start", .int, some (.int (-1))⟩,
      ⟨"end", .int, some (.int (-1))⟩]
  | "getAllDistances" => some []
  | "setWarpingBandRatio" => some [⟨"ratio", .float, none⟩]
  | _ => none

/-- Python binds the arguments to the parameters: the positional ones first, the others by name or default; every keyword
argument belongs to a parameter without a positional one. -/
structure Binds (ps : List (Par K)) (pos : List (Val K)) (kw : List (String × Val K)) (vals : List (Val K)) : Prop where
  few : pos.length ≤ ps.length
  length : vals.length = ps.length
  positional : ∀ i < pos.length, vals[i]? = pos[i]?
  rest : ∀ (i : ℕ) (p : Par K), pos.length ≤ i → ps[i]? = some p →
    vals[i]? = (kw.lookup p.name).or p.dflt
  known : ∀ e ∈ kw, ∃ (i : ℕ) (p : Par K), pos.length ≤ i ∧ ps[i]? = some p ∧ p.name = e.1

/-- The value of a parameter of a type, from a Python value. -/
inductive Fits [IntCast K] : Ty → Val K → Val K → Prop
  | int {z : Int} : -2 ^ 31 ≤ z → z < 2 ^ 31 → Fits .int (.int z) (.int z)
  | intBool (b : Bool) : Fits .int (.bool b) (.int (if b then 1 else 0))
  | bool (b : Bool) : Fits .bool (.bool b) (.bool b)
  | boolInt (z : Int) : Fits .bool (.int z) (.bool (decide (z ≠ 0)))
  | boolNone : Fits .bool .none (.bool false)
  | float (x : Dbl K) : Fits .float (.float x) (.float x)
  | floatInt (z : Int) : Fits .float (.int z) (.float (.fin z))
  | floatBool (b : Bool) : Fits .float (.bool b) (.float (.fin ((if b then 1 else 0 : Int) : K)))
  | str (s : String) : Fits .str (.str s) (.str s)

/-- The same for all parameters. -/
inductive FitsAll [IntCast K] : List (Par K) → List (Val K) → List (Val K) → Prop
  | nil : FitsAll [] [] []
  | cons {p : Par K} {v w : Val K} {ps : List (Par K)} {vs ws : List (Val K)} :
      Fits p.ty v w → FitsAll ps vs ws → FitsAll (p :: ps) (v :: vs) (w :: ws)

/-- An `int` parameter and a Python integer that no `int` holds. -/
def TooBig : Ty → Val K → Prop
  | .int, .int z => z < -2 ^ 31 ∨ 2 ^ 31 ≤ z
  | _, _ => False

/-- The values have the types of their parameters, but an integer is too big for one. -/
def Overflows [IntCast K] (ps : List (Par K)) (vals : List (Val K)) : Prop :=
  (∀ (i : ℕ) p v, ps[i]? = some p → vals[i]? = some v → (∃ w, Fits p.ty v w) ∨ TooBig p.ty v) ∧
  ∃ (i : ℕ) (p : Par K) (v : Val K), ps[i]? = some p ∧ vals[i]? = some v ∧ TooBig p.ty v

/-- What a function does with its parameters. -/
inductive Means (F : Files K) : String → List (Val K) → Api.AnyCall K → Prop
  | loadDataset (n p sep : String) (rows col : Int) (h : Bool) :
      Means F "loadDataset" [.str n, .str p, .str sep, .int rows, .int col, .bool h]
        (.call (.load n (F.text p) p.toList sep.toList rows col h))
  | unloadDataset (n : String) : Means F "unloadDataset" [.str n] (.call (.unload n))
  | saveDataset (n p : String) (c : Char) (cs : List Char) :
      Means F "saveDataset" [.str n, .str p, .str (String.ofList (c :: cs))] (.call (.save n c))
  | saveDataset0 (n p : String) : Means F "saveDataset" [.str n, .str p, .str ""] (.call (.save n '\x00'))
  | normalize (n : String) : Means F "normalize" [.str n] (.call (.normalize n))
  | getTimeSeriesName (n : String) (i : Int) : Means F "getTimeSeriesName" [.str n, .int i] (.call (.seriesName n i))
  | getTimeSeriesLength (n : String) (i : Int) : Means F "getTimeSeriesLength" [.str n, .int i] (.call (.seriesLength n i))
  | group (n d : String) (t : Dbl K) (th : Int) (w : Bool) :
      Means F "group" [.str n, .float t, .str d, .int th, .bool w] (.group n t d th w)
  | preparePAA (n : String) (b : Int) : Means F "preparePAA" [.str n, .int b] (.call (.preparePAA n b))
  | saveGroups (n p : String) : Means F "saveGroups" [.str n, .str p] (.call (.saveGroups n (F.archive p) (F.opens p)))
  | saveGroupsSize (n p : String) :
      Means F "saveGroupsSize" [.str n, .str p] (.call (.saveGroupsOld n true (F.words p) (F.opens p)))
  | loadGroups (n p : String) : Means F "loadGroups" [.str n, .str p] (.call (.loadGroups n (F.archive p)))
  | distance (n₁ n₂ d : String) (i₁ s₁ e₁ i₂ s₂ e₂ : Int) :
      Means F "distance" [.str n₁, .int i₁, .int s₁, .int e₁, .str n₂, .int i₂, .int s₂, .int e₂, .str d]
        (.call (.distance n₁ i₁ s₁ e₁ n₂ i₂ s₂ e₂ d))
  | getMatching (n₁ n₂ d : String) (i₁ s₁ e₁ i₂ s₂ e₂ : Int) :
      Means F "getMatching" [.str n₁, .int i₁, .int s₁, .int e₁, .str n₂, .int i₂, .int s₂, .int e₂, .str d]
        (.call (.matching n₁ i₁ s₁ e₁ n₂ i₂ s₂ e₂ d))
  | sim (t q : String) (i s e : Int) : Means F "sim" [.str t, .str q, .int i, .int s, .int e] (.call (.bestMatch t q i s e))
  | ksim (t q : String) (k ke i s e : Int) :
      Means F "ksim" [.int k, .int ke, .str t, .str q, .int i, .int s, .int e] (.call (.kBest k ke t q i s e))
  | ksimbf (t q d : String) (k i s e : Int) :
      Means F "ksimbf" [.int k, .str t, .str q, .int i, .int s, .int e, .str d] (.call (.bruteForce k t q i s e d))
  | ksimpaa (t q d : String) (k i s e : Int) :
      Means F "ksimpaa" [.int k, .str t, .str q, .int i, .int s, .int e, .str d] (.call (.kBestPAA k t q i s e d))
  | getTimeSeries (n : String) (i s e : Int) : Means F "getTimeSeries" [.str n, .int i, .int s, .int e] (.call (.series n i s e))
  | getAllDistances : Means F "getAllDistances" [] (.call .allDistances)
  | setWarpingBandRatio (x : Dbl K) : Means F "setWarpingBandRatio" [.float x] (.call (.setRatio (F.ratio x)))

/-- The documented effect of a Python call. -/
def Documented [IntCast K] (F : Files K) (name : String) (pos : List (Val K)) (kw : List (String × Val K)) (c : Api.AnyCall K) : Prop :=
  ∃ ps vals ws, signature name = some ps ∧ Binds ps pos kw vals ∧ FitsAll ps vals ws ∧ Means F name ws c

variable [Field K] [LinearOrder K] [HasSqrt K] [Arith K] [BandOps]

/-- The user goes on after this outcome. -/
def GoesOn : Outcome K → Prop
  | .lost => False
  | _ => True

/-- A session: calls, each with the files at its time, from a state to a state. -/
inductive Session (E : Env K) : Api K → List (Files K × String × List (Val K) × List (String × Val K)) → Api K → Prop
  | nil (s : Api K) : Session E s [] s
  | snoc {s t u : Api K} {h : List (Files K × String × List (Val K) × List (String × Val K))} {F : Files K} {name : String}
      {pos : List (Val K)} {kw : List (String × Val K)} {o : Outcome K} :
      Session E s h t → Turn E F t name pos kw u o → GoesOn o → Session E s (h ++ [(F, name, pos, kw)]) u

end Genex.Py
