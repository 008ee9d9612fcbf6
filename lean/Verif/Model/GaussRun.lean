import Verif.Model.Numeric
/-! The whole of `gauss`: every root's Newton loop, then the stores. -/
noncomputable section
namespace TicTac

/-- `gauss`, gauss_legendre.cpp:35-64 (double version), on arrays that held `x0`, `w0`: for `i = 1..(N+1)/2` the Newton
loop of root `i` (at most `fuel` passes; `none` if some loop has not stopped by then), then the stores. The stores of
different `i` do not feed back into the loops, so they are collected at the end. Exact real arithmetic. -/
def gaussFill (N : Nat) (eps : ℝ) (fuel : Nat) (x0 w0 : Nat → ℝ) : Option (List (ℝ × ℝ)) := do
  let s ← (List.range ((N + 1) / 2)).mapM fun k => gaussRun N eps fuel (k + 1)
  some (gaussRule N (fun i => (s.getD (i - 1) (0, 0, 0)).1) (fun i => (s.getD (i - 1) (0, 0, 0)).2.2) x0 w0)

end TicTac
