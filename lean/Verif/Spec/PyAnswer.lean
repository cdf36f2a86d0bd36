import Verif.Spec.Py
import Verif.Spec.EndToEnd

/-!
# What the user of the Python module is told

The objects that the comments in pygenex/GENEXBindings.cpp promise, read as a Python user reads them, and sessions of Python calls in
which a file was loaded and grouped.
-/

namespace Genex.Py

variable {K : Type}

/-- `o[key]` of a `dict`. -/
def Obj.item : Obj K → String → Option (Obj K)
  | .dict l, key => l.lookup key
  | _, _ => Option.none

/-- `o["dist"]`, `o["data"]["index"]`, `o["data"]["start"]` and `o["data"]["end"]`. -/
def Obj.IsMatch (o : Obj K) (dist : Dbl K) (index start stop : Int) : Prop :=
  o.item "dist" = some (.float dist) ∧ ∃ d, o.item "data" = some d ∧
    d.item "index" = some (.int index) ∧ d.item "start" = some (.int start) ∧ d.item "end" = some (.int stop)

/-- Every object of the list shows the match in its place. -/
inductive Matches : List (Obj K) → List (Cand K) → Prop
  | nil : Matches [] []
  | cons {o : Obj K} {c : Cand K} {l : List (Obj K)} {l' : List (Cand K)} :
      o.IsMatch c.dist c.view.index c.view.start c.view.stop → Matches l l' → Matches (o :: l) (c :: l')

/-- The same for `getKBestMatches`, where the default-constructed entries have distance 0 and show the empty part of series 0. -/
inductive Entries [Zero K] : List (Obj K) → List (GSet.Entry K) → Prop
  | nil : Entries [] []
  | cand {o : Obj K} {c : Cand K} {l : List (Obj K)} {l' : List (GSet.Entry K)} :
      o.IsMatch c.dist c.view.index c.view.start c.view.stop → Entries l l' → Entries (o :: l) (.cand c :: l')
  | pad {o : Obj K} {l : List (Obj K)} {l' : List (GSet.Entry K)} :
      o.IsMatch (.fin 0) 0 0 0 → Entries l l' → Entries (o :: l) (.pad :: l')

/-- What a call of the interface returned, as the Python function of that call has to give it back. -/
inductive Answer [Zero K] : Api.AnyCall K → Out K → Obj K → Prop
  | load {n : String} {f : Option Text} {p : Text} {sep : List Char} {rows col : Int} {h : Bool} {m : Meta K} {o : Obj K} :
      o.item "name" = some (.str m.name.toList) → o.item "count" = some (.int m.itemCount) →
        o.item "length" = some (.int m.itemLength) → Answer (.call (.load n f p sep rows col h)) (.info m) o
  | unload {n : String} : Answer (.call (.unload n)) .unit .none
  | save {n : String} {c : Char} {t : Text} : Answer (.call (.save n c)) (.text t) .none
  | normalize {n : String} {lo hi : Dbl K} : Answer (.call (.normalize n)) (.pair (lo, hi)) (.tuple [.float lo, .float hi])
  | seriesName {n : String} {i : Int} {t : Text} : Answer (.call (.seriesName n i)) (.text t) (.str t)
  | seriesLength {n : String} {i z : Int} : Answer (.call (.seriesLength n i)) (.int z) (.int z)
  | group {n d : String} {t : Dbl K} {th z : Int} {w : Bool} : Answer (.group n t d th w) (.int z) (.int z)
  | preparePAA {n : String} {b : Int} : Answer (.call (.preparePAA n b)) .unit .none
  | saveGroups {n : String} {old f : Option (List (Tok K))} {b : Bool} : Answer (.call (.saveGroups n old b)) (.file f) .none
  | saveSizes {n : String} {old f : Option (List (Lex K))} {b : Bool} :
      Answer (.call (.saveGroupsOld n true old b)) (.words f) .none
  | loadGroups {n : String} {f : Option (List (Tok K))} {z : Int} : Answer (.call (.loadGroups n f)) (.int z) (.int z)
  | distance {n₁ n₂ d : String} {i₁ s₁ e₁ i₂ s₂ e₂ : Int} {x : Dbl K} :
      Answer (.call (.distance n₁ i₁ s₁ e₁ n₂ i₂ s₂ e₂ d)) (.dist x) (.float x)
  | matching {n₁ n₂ d : String} {i₁ s₁ e₁ i₂ s₂ e₂ : Int} {l : List (ℕ × ℕ)} :
      Answer (.call (.matching n₁ i₁ s₁ e₁ n₂ i₂ s₂ e₂ d)) (.matching l)
        (.list (l.map (fun p => .tuple [.int p.1, .int p.2])))
  | sim {t q : String} {i s e : Int} {c : Cand K} {o : Obj K} :
      o.IsMatch c.dist c.view.index c.view.start c.view.stop → Answer (.call (.bestMatch t q i s e)) (.cand c) o
  | ksim {t q : String} {k ke i s e : Int} {l : List (GSet.Entry K)} {os : List (Obj K)} :
      Entries os l → Answer (.call (.kBest k ke t q i s e)) (.entries l) (.list os)
  | ksimbf {t q d : String} {k i s e : Int} {l : List (Cand K)} {os : List (Obj K)} :
      Matches os l → Answer (.call (.bruteForce k t q i s e d)) (.cands l) (.list os)
  | ksimpaa {t q d : String} {k i s e : Int} {l : List (Cand K)} {os : List (Obj K)} :
      Matches os l → Answer (.call (.kBestPAA k t q i s e d)) (.cands l) (.list os)
  | series {n : String} {i s e : Int} {l : List (Dbl K)} : Answer (.call (.series n i s e)) (.series l) (.list (l.map .float))
  | allDistances {l : List String} : Answer (.call .allDistances) (.names l) (.list (l.map (fun n => .str n.toList)))
  | setRatio {r : ℚ} : Answer (.call (.setRatio r)) .unit .none

/-- The outcome that a reply of the interface has to have: the promised object, or the exception that was thrown. -/
inductive Tells [Zero K] (c : Api.AnyCall K) : Reply K → Outcome K → Prop
  | value {out : Out K} {o : Obj K} : Answer c out o → Tells c (.ret (.ok out)) (.value o)
  | genex (msg : String) : Tells c (.ret (.error (.genex msg))) (.raised (.genex msg))
  | std (msg : String) : Tells c (.ret (.error (.std msg))) (.raised (.std msg))
  | ub (msg : String) : Tells c (.ret (.error (.ub msg))) .lost
  | diverge : Tells c (.ret (.error .diverge)) .lost
  | dangling : Tells c .dangling .lost

/-- A Python call: the files at its time, the function, its arguments. -/
abbrev Line (K : Type) := Files K × String × List (Val K) × List (String × Val K)

/-- The call has no two keyword arguments of one name, and is not a call of one of the functions with the name as first argument. -/
def Line.Spares (fs : List String) (name : String) (e : Line K) : Prop :=
  (e.2.2.2.map Prod.fst).Nodup ∧ (e.2.1 ∈ fs → e.2.2.1.head? ≠ some (.str name))

variable [Field K] [LinearOrder K] [HasSqrt K] [Arith K] [BandOps]

/-- A file was loaded with `loadDataset`, the numbers scaled if `normalize` was called after that; these are `rows`.  Since then the data was
neither normalised nor unloaded. -/
inductive PyLoaded (E : Env K) (name : String) : List (List K) → Api K → Prop
  | mk {l l' : List (Line K)} {s s₁ s' : Api K} {F : Files K} {content : Text} {path sep : String} {maxNumRow : Int} {startCol : ℕ}
      {hasName : Bool} {rows : List (List K)} {o : Obj K} (before : Session E Api.fresh l s) (text : F.text path = some content)
      (file : Registry.FileHas E.parse content sep.toList maxNumRow startCol hasName rows)
      (load : Turn E F s "loadDataset" [.str name, .str path, .str sep, .int maxNumRow, .int startCol, .bool hasName] [] s₁ (.value o))
      (after : Session E s₁ l' s')
      (keeps : ∀ e ∈ l', Line.Spares ["loadDataset", "unloadDataset", "normalize"] name e) : PyLoaded E name rows s'
  | normalised {l : List (Line K)} {s s₁ s' : Api K} {F : Files K} {raw rows : List (List K)} {o : Obj K} (before : PyLoaded E name raw s)
      (scaled : Registry.Scales raw rows) (normalize : Turn E F s "normalize" [.str name] [] s₁ (.value o)) (after : Session E s₁ l s')
      (keeps : ∀ e ∈ l, Line.Spares ["loadDataset", "unloadDataset", "normalize"] name e) : PyLoaded E name rows s'

/-- In such a state the dataset was grouped with `group`, and since then no call changed it. -/
inductive PyGrouped (E : Env K) (name : String) (rows : List (List K)) (distance : String) (t : Dbl K) (whole : Bool) : Api K → Prop
  | mk {l : List (Line K)} {s s₁ s' : Api K} {F : Files K} {numThreads : Int} {o : Obj K} (loaded : PyLoaded E name rows s)
      (group : Turn E F s "group" [.str name, .float t, .str distance, .int numThreads, .bool whole] [] s₁ (.value o))
      (after : Session E s₁ l s')
      (keeps : ∀ e ∈ l, Line.Spares ["loadDataset", "unloadDataset", "normalize", "group", "loadGroups"] name e) :
      PyGrouped E name rows distance t whole s'

/-- `getTimeSeries(name, index, start, stop)` shows the numbers. -/
def Reads (E : Env K) (F : Files K) (s : Api K) (name : String) (index start stop : Int) (q : List K) : Prop :=
  ∃ s', Turn E F s "getTimeSeries" [.str name, .int index, .int start, .int stop] [] s' (.value (.list (q.map (fun x => .float (.fin x)))))

end Genex.Py
