import Verif.Model.Distance

/-!
# Order in which the group spaces are searched (`generateTraverseOrder`, genex/group/GlobalGroupSpace.cpp:250-287)
-/

namespace Genex

/-- The local variables of `generateTraverseOrder` (lines 252-257). -/
structure Trav where
  low : Int
  high : Int
  lowStop : Bool
  highStop : Bool
  order : List Int
deriving DecidableEq, Repr

/-- Lines 259-260: the two tests at the top of the loop. -/
def Trav.tests (total : Int) (s : Trav) : Trav :=
  { s with lowStop := s.lowStop || decide (s.low < 2), highStop := s.highStop || decide (total < s.high) }

/-- Lines 262-272. -/
def Trav.goLow [BandOps] (ratio : ℚ) (q : Int) (s : Trav) : Trav :=
  if s.lowStop then s
  else if q ≤ s.low + band ratio q then { s with order := s.order ++ [s.low], low := s.low - 1 }
  else { s with lowStop := true }

/-- Lines 274-284. -/
def Trav.goHigh [BandOps] (ratio : ℚ) (q : Int) (s : Trav) : Trav :=
  if s.highStop then s
  else if s.high ≤ q + band ratio s.high then { s with order := s.order ++ [s.high], high := s.high + 1 }
  else { s with highStop := true }

/-- The loop, lines 258-285. -/
def Trav.loop [BandOps] (ratio : ℚ) (q total : Int) : ℕ → Trav → Res (List Int)
  | fuel, s =>
    if s.lowStop && s.highStop then .ok s.order
    else match fuel with
      | 0 => .error .diverge
      | fuel + 1 => loop ratio q total fuel (((s.tests total).goLow ratio q).goHigh ratio q)

/-- `generateTraverseOrder`.  The fuel is enough: each round stops one side or moves one bound towards its limit. -/
def generateTraverseOrder [BandOps] (ratio : ℚ) (q total : Int) : Res (List Int) :=
  Trav.loop ratio q total (q.toNat + total.toNat + 2)
    { low := q - 1, high := q + 1, lowStop := false, highStop := false, order := [q] }

end Genex
