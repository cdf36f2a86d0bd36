import Verif.Model.BruteForce

/-!
# The experiment code of the command line program (cli/GenexCLI.cpp:607-663)

Three functions that no command calls.
-/

namespace Genex.Experiment

variable {K : Type} [Field K] [LinearOrder K]

/-- `abs(a[i].dist - b[i].dist) < 1e-9` (cli/GenexCLI.cpp:621, 632; `EPS` is the same number). -/
def close (x y : Cand K) : Prop := Dbl.abs (x.dist - y.dist) < .fin eps

instance (x y : Cand K) : Decidable (close x y) := by unfold close; infer_instance

/-- `a[i]` and `b[i]`. -/
def pairAt (a b : List (Cand K)) (i : ℕ) : Res (Cand K × Cand K) :=
  match a[i]?, b[i]? with
  | some x, some y => .ok (x, y)
  | _, _ => .error (.ub "vector index")

/-- The loop of `computeJaccard` over `i < min(a.size(), b.size())` (cli/GenexCLI.cpp:619-622). -/
def overlap (a b : List (Cand K)) : Res ℕ :=
  (List.range (min a.length b.length)).foldlM (fun n i => do
    let p ← pairAt a b i
    .ok (n + if close p.1 p.2 then 1 else 0)) 0

/-- `computeJaccard` (cli/GenexCLI.cpp:616-624).  The divisor is a `size_t`: the difference is taken modulo 2⁶⁴. -/
def computeJaccard (a b : List (Cand K)) : Res (Dbl K) := do
  let n ← overlap a b
  let d : Int := ((a.length : Int) + b.length - n) % 2 ^ 64
  .ok (Dbl.fin (n : K) / Dbl.fin ((d : Int) : K))

/-- `std::min` of two doubles. -/
def minD (x y : Dbl K) : Dbl K := if y < x then y else x

/-- `std::max` of two doubles. -/
def maxD (x y : Dbl K) : Dbl K := if x < y then y else x

/-- `index + start + length` of the lesser ones, as `int`s, then the distance (cli/GenexCLI.cpp:637-640). -/
def lesser (x y : Cand K) : Dbl K :=
  .fin ((min x.view.index y.view.index + min x.view.start y.view.start + min x.view.length y.view.length : Int) : K) + minD x.dist y.dist

/-- The same with the greater ones (cli/GenexCLI.cpp:641-644). -/
def greater (x y : Cand K) : Dbl K :=
  .fin ((max x.view.index y.view.index + max x.view.start y.view.start + max x.view.length y.view.length : Int) : K) + maxD x.dist y.dist

/-- One round of the loop of `computeWeightedJaccard` (cli/GenexCLI.cpp:632-645). -/
def weigh (s : Dbl K × Dbl K) (x y : Cand K) : Dbl K × Dbl K :=
  if close x y then (s.1 + .fin 1, s.2 + .fin 1) else (s.1 + lesser x y, s.2 + greater x y)

/-- `computeWeightedJaccard` (cli/GenexCLI.cpp:626-648): the loop runs to the size of the longer vector. -/
def computeWeightedJaccard (a b : List (Cand K)) : Res (Dbl K) := do
  let s ← (List.range (max a.length b.length)).foldlM (fun s i => do
    let p ← pairAt a b i
    .ok (weigh s p.1 p.2)) ((.fin 0, .fin 0) : Dbl K × Dbl K)
  .ok (s.1 / s.2)

/-- One round of the loop of `printResults` (cli/GenexCLI.cpp:653-657); `showD` and `showI` are `operator<<` for `double` and `int`, `SEP` is a comma. -/
def printOne (showD : Dbl K → List Char) (showI : Int → List Char) (n i : ℕ) (c : Cand K) : List Char :=
  let stop := c.view.start + c.view.length
  showD c.dist ++ [','] ++ showI c.view.index ++ [','] ++ showI c.view.start ++ [','] ++ showI stop ++ if i < n - 1 then [','] else []

/-- `printResults` (cli/GenexCLI.cpp:650-659). -/
def printResults (showD : Dbl K → List Char) (showI : Int → List Char) (r : List (Cand K)) : List Char :=
  (List.range r.length).foldl (fun out i => out ++ (r[i]?.map (printOne showD showI r.length i)).getD []) []

end Genex.Experiment
