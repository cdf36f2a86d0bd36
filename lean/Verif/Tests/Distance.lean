import Verif.Tests.Harness

/-!
# The tests of the distances (/repo/test/distance)
-/

namespace Genex.Tests

open Genex Dbl

/-! ## EuclideanTest.cpp, ManhattanTest.cpp, ChebyshevTest.cpp, the `NormTest` files, CosineTest.cpp, SorensenTest.cpp -/

def euc : DM ℚ := euclidean ℚ
def man : DM ℚ := manhattan ℚ
def che : DM ℚ := chebyshev ℚ

-- EuclideanTest.cpp `eucdist`
#guard eucDist (.fin (100 : ℚ)) (.fin 110) = .fin 100
#guard gives (.ok ((euclidean ℚ).norm
  ((euclidean ℚ).reduce ((euclidean ℚ).reduce (euclidean ℚ).init (.fin 4) (.fin 0)) (.fin 7) (.fin 10)) 2 2)) (root (25 / 2))

-- ManhattanTest.cpp `mandist`
#guard gives (.ok ((manhattan ℚ).norm
  ((manhattan ℚ).reduce ((manhattan ℚ).reduce (manhattan ℚ).init (.fin 60) (.fin 10)) (.fin 15) (.fin 5)) 2 2)) 30

-- ChebyshevTest.cpp `chebdist`
#guard gives (.ok ((chebyshev ℚ).norm
  ((chebyshev ℚ).reduce ((chebyshev ℚ).reduce (chebyshev ℚ).init (.fin 50) (.fin 0)) (.fin 20) (.fin 10)) 2 2)) 50

/-- `total = init()`, `total = reduce(total, total, x, y)` over the points, `norm(total)`. -/
def accumulate (M : DM ℚ) (a b : List ℚ) : Res (Dbl ℚ) :=
  .ok (M.norm ((a.zip b).foldl (fun s p => M.reduce s (.fin p.1) (.fin p.2)) M.init) a.length b.length)

def dat1 : List ℚ := [1, 2, 3, 4, 5]
def dat2 : List ℚ := [11, 2, 3, 4, 5]

-- EuclideanNormTest.cpp, ManhattanNormTest.cpp, ChebyshevNormTest.cpp
#guard gives (accumulate (euclidean ℚ) dat1 dat2) (root (100 / 5))
#guard gives (accumulate (manhattan ℚ) dat1 dat2) 2
#guard gives (accumulate (chebyshev ℚ) dat1 dat2) 10

-- CosineTest.cpp, SorensenTest.cpp: the tests only ask for a number other than zero, since `BOOST_TEST(x, y)` prints `y`; the
-- numbers meant are those for all ten points, and the exact fraction
#guard match accumulate (cosine ℚ) [5, 0, 3, 0, 2] [3, 0, 2, 0, 1] with | .ok (.fin x) => decide (x ≠ 0) | _ => false
#guard match accumulate (cosine ℚ) [5, 0, 3, 0, 2, 0, 0, 2, 0, 0] [3, 0, 2, 0, 1, 1, 0, 1, 0, 1] with
  | .ok (.fin x) => decide (|x - 94 / 100| < 1 / 200) | _ => false
#guard match accumulate (sorensen ℚ) [3, 1, 2, 5, 4] [34 / 10, 4, 12 / 10, 2, 3] with
  | .ok (.fin x) => decide (x ≠ 0) | _ => false

/-! ## DistanceTest.cpp -/

def dat3 : List (Dbl ℚ) := ser [2, 4]
def dat4 : List (Dbl ℚ) := ser [2, 2, 2, 4, 4]
def dat5 : List (Dbl ℚ) := ser [1, 2, 2, 4]
def dat6 : List (Dbl ℚ) := ser [1, 2, 4, 5]
def dat7 : List (Dbl ℚ) := ser [2, 2, 2, 2]
def dat8 : List (Dbl ℚ) := ser [20, 20, 20, 15]
def dat9 : List (Dbl ℚ) := ser [2, 2, 2, 2, 2, 2]
def dat10 : List (Dbl ℚ) := ser [4, 3, 3, 3, 3, 3]
def dat11 : List (Dbl ℚ) := ser [4, 3, 5, 3, 5, 3, 4]
def dat12 : List (Dbl ℚ) := ser [4, 3, 3, 1, 1, 3, 4]
def dat13 : List (Dbl ℚ) := ser [0, 2, 3, 5, 8, 6, 3, 2, 3, 5]
def dat14 : List (Dbl ℚ) := ser [8, 4, 6, 1, 5, 10, 9]

/-- A warped distance; the band is that of exact products. -/
def warped (M : DM ℚ) (ratio : ℚ) (a b : List (Dbl ℚ)) (dropout : Dbl ℚ := .inf) : Res (Dbl ℚ) := warpedValue M ratio a b dropout

/-- The alignment. -/
def aligned (M : DM ℚ) (ratio : ℚ) (a b : List (Dbl ℚ)) : Res (List (ℕ × ℕ)) := (warpedDistance M ratio a b .inf []).map Prod.snd

-- `general_distance`
#guard gives (pairwiseDistance (euclidean ℚ) (ser dat1) (ser dat2) .inf) (root 20)
#guard gives (pairwiseDistance (manhattan ℚ) (ser dat1) (ser dat2) .inf) 2
#guard gives (pairwiseDistance (chebyshev ℚ) (ser dat1) (ser dat2) .inf) 10

-- `easy_general_warped_distance`
#guard gives (warped euc 1 (ser [1, 2]) (ser [11, 2])) (10 / 4)
#guard gives (warped euc 1 dat3 dat4) 0
#guard gives (warped man 1 dat3 dat4) 0
#guard gives (warped che 1 dat3 dat4) 0
#guard gives (warped euc 1 dat5 dat6) (1 / 8)
#guard gives (warped man 1 dat5 dat6) (1 / 8)
#guard gives (warped che 1 dat5 dat6) 1
#guard gives (warped euc 1 dat11 dat12) (root 12 / 14)
#guard gives (warped man 1 dat11 dat12) (8 / 14)
#guard gives (warped che 1 dat11 dat12) 2
#guard aligned euc 1 (ser [1, 2]) (ser [11, 2]) = .ok [(0, 0), (1, 1)]
#guard aligned euc 1 dat3 dat4 = .ok [(0, 0), (0, 1), (0, 2), (1, 3), (1, 4)]
#guard aligned man 1 dat3 dat4 = .ok [(0, 0), (0, 1), (0, 2), (1, 3), (1, 4)]
#guard aligned che 1 dat3 dat4 = .ok [(0, 0), (0, 1), (0, 2), (1, 3), (1, 4)]
#guard aligned euc 1 dat5 dat6 = .ok [(0, 0), (1, 1), (2, 1), (3, 2), (3, 3)]
#guard aligned man 1 dat5 dat6 = .ok [(0, 0), (1, 1), (2, 1), (3, 2), (3, 3)]
#guard aligned che 1 dat5 dat6 = .ok [(0, 0), (1, 1), (2, 1), (3, 2), (3, 3)]

-- `easy_gwd_dropout`
#guard gives (warped euc 1 dat3 dat4 (.fin 5)) 0
#guard gives (warped man 1 dat3 dat4 (.fin 5)) 0
#guard gives (warped che 1 dat3 dat4 (.fin 5)) 0
#guard infinite (warped man 1 dat7 dat8 (.fin 5))
#guard infinite (warped che 1 dat7 dat8 (.fin 5))

-- `gwd_different_distances`
#guard gives (warped euc 1 dat9 dat10) (3 / 12)
#guard gives (warped man 1 dat9 dat10) (7 / 12)
#guard gives (warped che 1 dat9 dat10) 2

-- `get_distance_metric`, `distance_not_found`
#guard getDistanceFromName "euclidean" = .ok (.pairwise .euclidean)
#guard throws (getDistanceFromName "oracle")

-- `keogh_lower_bound`
#guard gives (keoghLowerBound (1 / 5) dat13 dat14 (.fin 10)) (root 31 / 20)

end Genex.Tests
