import Verif.Model.Rounded
import Verif.Model.Paa

/-!
# Approximation in rounded arithmetic

The same code as in Model/Paa, with the result of every arithmetic operation on `data_t` rounded by `rd`.  Finite
operands never overflow here.
-/

namespace Genex

open Dbl

variable {K : Type} [Field K] [LinearOrder K] (rd : K → K)

/-- The loop of `tsPAA`, genex/PAAWrapper.cpp:33-42. -/
def paaLoopR (b : Int) (n : ℕ) : List (Dbl K) → ℕ → Dbl K → ℕ → List (Dbl K) → Res (List (Dbl K))
  | [], _, _, _, dest => .ok dest
  | x :: xs, i, sum, count, dest =>
    if (count : Int) + 1 = b ∨ (i : Int) = (n : Int) - 1 then do
      let dest ← setPoint dest ((i : Int).tdiv b) (rnd rd (rnd rd (sum + x) / Dbl.ofNat (count + 1)))
      paaLoopR b n xs (i + 1) 0 0 dest
    else paaLoopR b n xs (i + 1) (rnd rd (sum + x)) (count + 1) dest

/-- `tsPAA` (genex/PAAWrapper.cpp:26-44) on a series with the given points. -/
def tsPAAR (source : List (Dbl K)) (b : Int) : Res (List (Dbl K)) :=
  if b = 0 then .error (.ub "division by zero")
  else
    let destLength := ((source.length : Int) - 1).tdiv b + 1
    if destLength < 0 then .error (.std "bad_array_new_length")
    else paaLoopR rd b source.length source 0 0 0 (List.replicate destLength.toNat 0)

end Genex
