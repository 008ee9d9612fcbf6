import Verif.Model.Permutation
/-! Model of `roots` and `calc_gauss_points`, auxiliary.cpp:34-88: the phi mesh of the permutation matrix.  C `double` is ℝ.  `P n x` is
`gsl_sf_legendre_Pl(n, x)`, which stops the program outside [-1, 1] (GSL's default error handler); GSL's Newton solver stops it when the
derivative is 0 or not finite. -/
noncomputable section
namespace TicTac
open Classical

/-- Start value of root `j` (counted from the smallest), auxiliary.cpp:40: `q[n-1-i] = cos(3.14159*(i+1-0.25)/(n+0.5))`. -/
def rootStart (n j : Nat) : ℝ := Real.cos (3.14159 * (((n - 1 - j : Nat) : ℝ) + 1 - 0.25) / ((n : ℝ) + 0.5))

/-- `gsl_root_test_delta(x1, x0, 0, 1e-9)`: true = converged. -/
def testDelta (x1 x0 : ℝ) : Prop := |x1 - x0| < 1e-9 * |x1| ∨ x1 = x0

/-- The `do … while` loop, auxiliary.cpp:58-67, with `k` iterations left; `none` = the program is stopped by GSL.  The point must be inside
(-1, 1): outside, `gsl_sf_legendre_Pl` stops; at ±1 the derivative is 0/0. -/
def newtonRoot (P : Int → ℝ → ℝ) (n : Nat) : Nat → ℝ → Option ℝ
  | 0, x => some x
  | k + 1, x =>
    if ¬ x ^ 2 < 1 ∨ dLegendre P x n = 0 then none else
      let x1 := x - P n x / dLegendre P x n
      if ¬ x1 ^ 2 < 1 then none
      else if testDelta x1 x then some x1
      else newtonRoot P n k x1

/-- `roots`, auxiliary.cpp:34-75: at most 100 iterations for each root; whether they converged is not looked at. -/
def rootsGsl (P : Int → ℝ → ℝ) (n : Nat) : Option (List ℝ) := (List.range n).mapM fun j => newtonRoot P n 100 (rootStart n j)

/-- `calc_gauss_points`, auxiliary.cpp:77-88: nodes and weights. -/
def gaussMesh (P : Int → ℝ → ℝ) (N : Nat) (lo hi : ℝ) : Option (List (ℝ × ℝ)) :=
  (rootsGsl P N).map fun z => (List.range N).map fun (j : Nat) => gaussPoint P N (fun k => z.getD k 0) lo hi j

end TicTac
end
