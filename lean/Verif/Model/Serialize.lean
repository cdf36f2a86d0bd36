import Verif.Model.Group

/-!
# Saving and loading groups (the `save`/`load` members of genex/group/*.hpp and genex/GroupableTimeSeriesSet.hpp, genex/IO.hpp)

An archive is the list of the values written with `<<`.  The preamble and the class information that boost writes, the bytes
of a value and the compression are left out.  Reading past the end of the archive throws, as boost does when it gets fewer
bytes than it asked for.  Reading a value of another type than was written is an outcome of its own.
-/

namespace Genex

variable {K : Type}

/-- One value in an archive. -/
inductive Tok (K : Type) where
  | int (z : Int)
  | size (n : ℕ)
  | str (s : String)
  | dbl (d : Dbl K)
deriving DecidableEq, Repr

/-- Conversion of `int` to `size_t`. -/
def toSize (z : Int) : ℕ := if z < 0 then (18446744073709551616 + z).toNat else z.toNat

/-- What has been written, and the outcome. -/
abbrev Wr (K : Type) := List (Tok K) × Res Unit

/-- One after the other; an exception ends it. -/
def Wr.all : List (Wr K) → Wr K
  | [] => ([], .ok ())
  | w :: ws =>
    match w.2 with
    | .error e => (w.1, .error e)
    | .ok _ => let r := Wr.all ws; (w.1 ++ r.1, r.2)

def archiveError : Fault := .std "archive_exception: input stream error"

/-- `ar >> x` for an `int`. -/
def rdInt : List (Tok K) → Res (Int × List (Tok K))
  | [] => .error archiveError
  | .int z :: ts => .ok (z, ts)
  | _ => .error (.ub "value of another type in the archive")

/-- `ar >> x` for a `size_t`. -/
def rdSize : List (Tok K) → Res (ℕ × List (Tok K))
  | [] => .error archiveError
  | .size n :: ts => .ok (n, ts)
  | _ => .error (.ub "value of another type in the archive")

/-- `ar >> x` for a `std::string`. -/
def rdStr : List (Tok K) → Res (String × List (Tok K))
  | [] => .error archiveError
  | .str s :: ts => .ok (s, ts)
  | _ => .error (.ub "value of another type in the archive")

/-- `ar >> x` for a `data_t`. -/
def rdDbl : List (Tok K) → Res (Dbl K × List (Tok K))
  | [] => .error archiveError
  | .dbl d :: ts => .ok (d, ts)
  | _ => .error (.ub "value of another type in the archive")

section

variable [Field K] [LinearOrder K] [HasSqrt K]

namespace LocalSpace

/-- `Group::save` (genex/group/Group.hpp:179-192). -/
def saveGroup (sp : LocalSpace K) (g : Group K) : Wr K :=
  let head : List (Tok K) := [.int g.centroid.index, .int g.centroid.start, .int g.count]
  match sp.walk g (fun (l : List (Tok K)) c => .ok (l ++ [.int c.1, .int c.2])) [] with
  | .error e => (head, .error e)
  | .ok mem => (head ++ mem, .ok ())

/-- `LocalLengthGroupSpace::save` (genex/group/LocalLengthGroupSpace.hpp:91-97). -/
def save (sp : LocalSpace K) : Wr K :=
  Wr.all (([.size sp.groups.length], .ok ()) :: sp.groups.map sp.saveGroup)

/-- The loop of `Group::load`, genex/group/Group.hpp:202-206. -/
def loadMembers (gi : ℕ) : ℕ → LocalSpace K × List (Tok K) → Res (LocalSpace K × List (Tok K))
  | 0, st => .ok st
  | n + 1, st => do
    let i ← rdInt st.2
    let p ← rdInt i.2
    let sp ← st.1.addMember gi (i.1, p.1)
    loadMembers gi n (sp, p.2)

/-- `new Group(i, ...)` and `Group::load` (genex/group/LocalLengthGroupSpace.hpp:107-113, genex/group/Group.hpp:195-207).  The
group is put into the vector before its members are read, not after: an exception drops the whole space in either case. -/
def loadGroup (ds : Dataset K) (st : LocalSpace K × List (Tok K)) : Res (LocalSpace K × List (Tok K)) := do
  let ci ← rdInt st.2
  let cs ← rdInt ci.2
  let sp ← st.1.pushGroup ds (ci.1, cs.1)
  let cnt ← rdInt cs.2
  loadMembers st.1.groups.length cnt.1.toNat (sp, cnt.2)

/-- The loop of `LocalLengthGroupSpace::load`, genex/group/LocalLengthGroupSpace.hpp:105-115. -/
def loadGroups (ds : Dataset K) : ℕ → LocalSpace K × List (Tok K) → Res (LocalSpace K × List (Tok K))
  | 0, st => .ok st
  | n + 1, st => do
    let st' ← loadGroup ds st
    loadGroups ds n st'

/-- `LocalLengthGroupSpace::load` (genex/group/LocalLengthGroupSpace.hpp:99-116) into a new space of length `i`. -/
def load (ds : Dataset K) (i : ℕ) (ts : List (Tok K)) : Res (LocalSpace K × List (Tok K)) := do
  let sp ← LocalSpace.new ds i
  let n ← rdSize ts
  loadGroups ds n.1 (sp, n.2)

end LocalSpace

namespace GSpace

/-- `ar << *(this->localLengthGroupSpace[i])`. -/
def saveAt (gs : GSpace K) (i : ℕ) : Wr K :=
  match gs.spaceAt i with
  | .error e => ([], .error e)
  | .ok none => ([], .error (.ub "null pointer dereference"))
  | .ok (some sp) => sp.save

/-- `GlobalGroupSpace::save` (genex/group/GlobalGroupSpace.hpp:100-109). -/
def save (gs : GSpace K) : Wr K :=
  match gs.threshold with
  | none => ([.size (toSize gs.minLength), .size gs.spaces.length, .str gs.distanceName],
      .error (.ub "threshold not initialised"))
  | some t => Wr.all (([.size (toSize gs.minLength), .size gs.spaces.length, .str gs.distanceName, .dbl t], .ok ()) ::
      gs.lengths.map gs.saveAt)

/-- The loop of `GlobalGroupSpace::load`, genex/group/GlobalGroupSpace.hpp:119-124.  An exception leaves the object as it is
at that point. -/
def loadLoop (ds : Dataset K) : List ℕ → GSpace K → List (Tok K) → GSpace K × Res (List (Tok K))
  | [], gs, ts => (gs, .ok ts)
  | i :: is, gs, ts =>
    match LocalSpace.load ds i ts with
    | .error e => (gs, .error e)
    | .ok (sp, ts) =>
      if gs.spaces.length ≤ i then (gs, .error (.ub "localLengthGroupSpace index out of bounds"))
      else loadLoop ds is { gs with spaces := gs.spaces.set i (some sp), total := gs.total + sp.groups.length } ts

/-- `GlobalGroupSpace::load` (genex/group/GlobalGroupSpace.hpp:111-125); `gs` is a new object. -/
def load (ds : Dataset K) (gs : GSpace K) (ts : List (Tok K)) : GSpace K × Res (List (Tok K)) :=
  match rdSize ts with
  | .error e => (gs, .error e)
  | .ok (minLen, ts) =>
    match rdSize ts with
    | .error e => (gs, .error e)
    | .ok (maxLen, ts) =>
      match rdStr ts with
      | .error e => (gs, .error e)
      | .ok (name, ts) =>
        let gs := { gs with distanceName := name }
        match rdDbl ts with
        | .error e => (gs, .error e)
        | .ok (t, ts) =>
          let r := { gs with threshold := some t }.loadDistance name
          match r.2 with
          | .error e => (r.1, .error e)
          | .ok _ =>
            if ds.maxCol + 1 < 0 then (r.1, .error (.std "length_error"))
            else
              let n := (ds.maxCol + 1).toNat
              let gs := { r.1 with
                spaces := r.1.spaces.take n ++ List.replicate (n - r.1.spaces.length) none
                total := 0 }
              loadLoop ds (List.range' minLen (maxLen - minLen)) gs ts

end GSpace

namespace GSet

/-- `GroupableTimeSeriesSet::save` (genex/GroupableTimeSeriesSet.hpp:95-106). -/
def save (s : GSet K) : Wr K :=
  match s.groups with
  | none => ([], .error (.genex "No group found"))
  | some gs => Wr.all [([.int s.ds.itemCount, .int s.ds.maxCol], .ok ()), gs.save]

/-- `GroupableTimeSeriesSet::load` (genex/GroupableTimeSeriesSet.hpp:108-124): the object afterwards and the outcome. -/
def load (s : GSet K) (ts : List (Tok K)) : GSet K × Res Unit :=
  match rdInt ts with
  | .error e => (s, .error e)
  | .ok (n, ts) =>
    match rdInt ts with
    | .error e => (s, .error e)
    | .ok (len, ts) =>
      if n ≠ s.ds.itemCount then (s, .error (.genex "Incompatible item count"))
      else if len ≠ s.ds.maxCol then (s, .error (.genex "Incompatible item length"))
      else
        let r := GSpace.load s.ds GSpace.fresh ts
        ({ s with groups := some r.1 }, r.2.map (fun _ => ()))

/-- `saveToFile` (genex/IO.hpp:23-44): the file afterwards and the outcome.  `old`: the file before, `opens`: whether it can be
opened for writing, which empties it. -/
def saveToFile (s : GSet K) (old : Option (List (Tok K))) (opens : Bool) : Option (List (Tok K)) × Res Unit :=
  if opens = true then (some s.save.1, s.save.2) else (old, .error (.genex "Cannot open file"))

/-- `loadFromFile` (genex/IO.hpp:46-66); `none`: the file cannot be opened. -/
def loadFromFile (s : GSet K) (file : Option (List (Tok K))) : GSet K × Res Unit :=
  match file with
  | none => (s, .error (.genex "Cannot open file"))
  | some ts => s.load ts

/-- `getTotalNumberOfGroups` (genex/GroupableTimeSeriesSet.cpp:54-61). -/
def totalGroups (s : GSet K) : Int :=
  match s.groups with
  | none => 0
  | some gs => gs.total

/-- `isGrouped` (genex/GroupableTimeSeriesSet.cpp:49-52). -/
def isGrouped (s : GSet K) : Bool := s.groups.isSome

end GSet

end

end Genex
