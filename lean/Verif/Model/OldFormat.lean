import Verif.Model.Serialize

/-!
# The text format of groups (`saveGroupsOld`, `loadGroupsOld`)

A file is the list of its words (the texts between blanks and line ends).  An integer read from a word with a fraction would take
the part before the point and leave the rest; that is an outcome of its own here.
-/

namespace Genex

variable {K : Type}

/-- A word of a text file: an integer, another number (its text and the value it is read as), anything else. -/
inductive Lex (K : Type) where
  | int (z : Int)
  | num (text : String) (d : Dbl K)
  | word (s : String)
deriving DecidableEq, Repr

/-- What `<<` writes for a `double`: with six digits, and after `setprecision(digits10 + 1)` with sixteen. -/
structure Printer (K : Type) where
  low : Dbl K → Lex K
  high : Dbl K → Lex K

/-- A `std::ifstream`: the words to come, and whether a read has failed. -/
structure In (K : Type) where
  rest : List (Lex K)
  bad : Bool
deriving DecidableEq, Repr

/-- Read of a local variable; `none`: not initialised. -/
def useVar {α : Type} : Option α → Res α
  | none => .error (.ub "uninitialised variable")
  | some x => .ok x

namespace In

/-- `fin >> x` for an `int`: the value of `x` afterwards.  At the end of the file and after a failure `x` is left alone, a word that is
not a number makes it 0. -/
def int (s : In K) (old : Option Int) : Res (Option Int × In K) :=
  if s.bad = true then .ok (old, s)
  else match s.rest with
    | [] => .ok (old, { s with bad := true })
    | .int z :: r => .ok (some z, { s with rest := r })
    | .word _ :: _ => .ok (some 0, { s with bad := true })
    | .num _ _ :: _ => .error (.ub "integer read from a number with a fraction")

/-- `fin >> x` for a `string`; `x` is empty before. -/
def word (s : In K) : String × In K :=
  if s.bad = true then ("", s)
  else match s.rest with
    | [] => ("", { s with bad := true })
    | .int z :: r => (toString z, { s with rest := r })
    | .num t _ :: r => (t, { s with rest := r })
    | .word w :: r => (w, { s with rest := r })

variable [Field K]

/-- `fin >> x` for a `double`. -/
def num (s : In K) (old : Dbl K) : Dbl K × In K :=
  if s.bad = true then (old, s)
  else match s.rest with
    | [] => (old, { s with bad := true })
    | .int z :: r => (.fin (z : K), { s with rest := r })
    | .num _ d :: r => (d, { s with rest := r })
    | .word _ :: _ => (.fin 0, { s with bad := true })

/-- The loop of `Group::loadGroupOld` over the points of the centroid, which are 0 before (genex/group/Group.cpp:160-164,
genex/TimeSeries.cpp:37-46). -/
def nums : ℕ → In K → List (Dbl K) × In K
  | 0, s => ([], s)
  | n + 1, s =>
    let a := s.num (.fin 0)
    let r := nums n a.2
    (a.1 :: r.1, r.2)

end In

section

variable [Field K] [LinearOrder K] [HasSqrt K]

/-! ## Writing -/

namespace LocalSpace

/-- `Group::saveGroupOld` (genex/group/Group.cpp:139-155, genex/TimeSeries.cpp:226-233). -/
def saveGroupOld (P : Printer K) (ds : Dataset K) (sp : LocalSpace K) (g : Group K) : Res (List (Lex K)) := do
  let pts ← g.centroidPts ds
  let mem ← sp.walk g (fun (l : List (Lex K)) c => .ok (l ++ [.int c.1, .int c.2])) []
  .ok (pts.map P.high ++ .int g.count :: mem)

/-- `LocalLengthGroupSpace::saveGroupsOld` (genex/group/LocalLengthGroupSpace.cpp:125-143). -/
def saveOld (P : Printer K) (ds : Dataset K) (sizeOnly : Bool) (sp : LocalSpace K) : Res (List (Lex K)) := do
  let body ← (if sizeOnly = true then .ok (sp.groups.map (fun g => [Lex.int g.count]))
    else sp.groups.mapM (sp.saveGroupOld P ds))
  .ok (.int sp.groups.length :: body.flatten)

end LocalSpace

/-- `GlobalGroupSpace::saveGroupsOld` (genex/group/GlobalGroupSpace.cpp:216-229). -/
def GSpace.saveOld (P : Printer K) (ds : Dataset K) (sizeOnly : Bool) (gs : GSpace K) : Res (List (Lex K)) := do
  let body ← gs.lengths.mapM (fun (i : ℕ) => do
    match ← gs.spaceAt i with
    | none => .ok []
    | some sp => sp.saveOld P ds sizeOnly)
  .ok ([.int gs.minLength, .int gs.spaces.length, .word gs.distanceName] ++ body.flatten)

/-- `GROUP_FILE_VERSION` (genex/GroupableTimeSeriesSet.hpp:12). -/
def groupFileVersion : Int := 1

/-- `GroupableTimeSeriesSet::saveGroupsOld` (genex/GroupableTimeSeriesSet.cpp:89-109): what the file holds afterwards and the outcome.
`old`: the file before, `opens`: whether it can be opened for writing. -/
def GSet.saveOld (P : Printer K) (s : GSet K) (sizeOnly : Bool) (old : Option (List (Lex K))) (opens : Bool) :
    Option (List (Lex K)) × Res Unit :=
  match s.groups with
  | none => (old, .error (.genex "No group found"))
  | some gs =>
    if opens = false then (old, .error (.genex "Cannot open file"))
    else match gs.threshold with
      | none => (none, .error (.ub "threshold not initialised"))
      | some t =>
        match gs.saveOld P s.ds sizeOnly with
        | .error e => (none, .error e)
        | .ok body => (some ([.int groupFileVersion, P.low t, .int s.ds.itemCount, .int s.ds.maxCol] ++ body), .ok ())

/-! ## Reading -/

namespace LocalSpace

/-- The loop of `Group::loadGroupOld` over the members, genex/group/Group.cpp:166-171.  `index` and `start` keep their values from one
round to the next. -/
def loadMembersOld (gi : ℕ) : ℕ → LocalSpace K × In K → Option Int → Option Int → Res (LocalSpace K × In K)
  | 0, st, _, _ => .ok st
  | n + 1, st, index, start => do
    let a ← st.2.int index
    let b ← a.2.int start
    let i ← useVar a.1
    let p ← useVar b.1
    let sp ← st.1.addMember gi (i, p)
    loadMembersOld gi n (sp, b.2) a.1 b.1

/-- `new Group(i, ...)` and `Group::loadGroupOld` (genex/group/LocalLengthGroupSpace.cpp:150-157, genex/group/Group.cpp:157-172).  The
group is put into the vector before its members are read, not after: an exception drops the whole space in either case. -/
def loadGroupOld (st : LocalSpace K × In K) : Res (LocalSpace K × In K) :=
  if st.1.length < 0 then .error (.std "bad_array_new_length")
  else do
    let pts := st.2.nums st.1.length.toNat
    let sp := { st.1 with groups := st.1.groups ++
      [{ (Group.fresh st.1.groups.length st.1.length : Group K) with centroid := .own pts.1 }] }
    let cnt ← pts.2.int none
    let n ← useVar cnt.1
    loadMembersOld st.1.groups.length n.toNat (sp, cnt.2) none none

/-- The loop of `LocalLengthGroupSpace::loadGroupsOld`, genex/group/LocalLengthGroupSpace.cpp:150-159. -/
def loadGroupsOld : ℕ → LocalSpace K × In K → Res (LocalSpace K × In K)
  | 0, st => .ok st
  | n + 1, st => do
    let st' ← loadGroupOld st
    loadGroupsOld n st'

/-- `LocalLengthGroupSpace::loadGroupsOld` (genex/group/LocalLengthGroupSpace.cpp:145-161) into a new space of length `i`: the space,
the value returned, and the stream. -/
def loadOld (ds : Dataset K) (i : Int) (s : In K) : Res (LocalSpace K × Int × In K) := do
  let sp ← LocalSpace.new ds i
  let cnt ← s.int none
  let n ← useVar cnt.1
  let r ← loadGroupsOld n.toNat (sp, cnt.2)
  .ok (r.1, n, r.2)

end LocalSpace

namespace GSpace

/-- The loop of `GlobalGroupSpace::loadGroupsOld`, genex/group/GlobalGroupSpace.cpp:242-246, for the lengths `i, i + 1, ...`.  An
exception leaves the object as it is at that point. -/
def loadOldLoop (ds : Dataset K) : ℕ → Int → GSpace K → In K → GSpace K × Res (In K)
  | 0, _, gs, s => (gs, .ok s)
  | n + 1, i, gs, s =>
    match LocalSpace.loadOld ds i s with
    | .error e => (gs, .error e)
    | .ok (sp, cnt, s) =>
      let gs := { gs with total := gs.total + cnt }
      if i < 0 ∨ (gs.spaces.length : Int) ≤ i then (gs, .error (.ub "localLengthGroupSpace index out of bounds"))
      else loadOldLoop ds n (i + 1) { gs with spaces := gs.spaces.set i.toNat (some sp) } s

/-- `GlobalGroupSpace::loadGroupsOld` (genex/group/GlobalGroupSpace.cpp:231-248). -/
def loadOld (ds : Dataset K) (gs : GSpace K) (s : In K) : GSpace K × Res Int :=
  let gs := { gs with spaces := [] }
  match s.int none with
  | .error e => (gs, .error e)
  | .ok (from_, s) =>
    match s.int none with
    | .error e => (gs, .error e)
    | .ok (to_, s) =>
      let w := s.word
      let r := gs.loadDistance w.1
      match r.2 with
      | .error e => (r.1, .error e)
      | .ok _ =>
        if ds.maxCol + 1 < 0 then (r.1, .error (.std "length_error"))
        else
          let gs := { r.1 with spaces := List.replicate (ds.maxCol + 1).toNat none, total := 0 }
          match useVar from_ with
          | .error e => (gs, .error e)
          | .ok a =>
            match useVar to_ with
            | .error e => (gs, .error e)
            | .ok b =>
              let r := loadOldLoop ds (b - a).toNat a gs w.2
              (r.1, r.2.map (fun _ => r.1.total))

end GSpace

/-- `GroupableTimeSeriesSet::loadGroupsOld` (genex/GroupableTimeSeriesSet.cpp:111-142): the object afterwards and the outcome.  `none`:
the file cannot be opened. -/
def GSet.loadOld (s : GSet K) (file : Option (List (Lex K))) : GSet K × Res Int :=
  match file with
  | none => (s, .error (.genex "Cannot open file"))
  | some lex =>
    let fin : In K := ⟨lex, false⟩
    match fin.int none with
    | .error e => (s, .error e)
    | .ok (version, fin) =>
      let fin := (fin.num (.fin 0)).2
      match fin.int none with
      | .error e => (s, .error e)
      | .ok (count, fin) =>
        match fin.int none with
        | .error e => (s, .error e)
        | .ok (_, fin) =>
          match useVar version with
          | .error e => (s, .error e)
          | .ok v =>
            if v ≠ groupFileVersion then (s, .error (.genex "Incompatible file version"))
            else match useVar count with
              | .error e => (s, .error e)
              | .ok c =>
                if c ≠ s.ds.itemCount then (s, .error (.genex "Incompatible item count"))
                else
                  let r := GSpace.loadOld s.ds GSpace.fresh fin
                  ({ s with groups := some r.1 }, r.2)

end

end Genex
