import Mathlib.Algebra.Polynomial.Eval.Defs
import Mathlib.Algebra.Polynomial.Degree.Defs
import Mathlib.MeasureTheory.Integral.IntervalIntegral.Basic
/-! What an `N`-point Gauss-Legendre rule is, without reference to how it is computed. -/
noncomputable section
namespace TicTac.Spec
open Polynomial

/-- A rule is a list of pairs (node, weight). It is *the* `N`-point Gauss-Legendre rule on (-1,1) if it has `N` nodes in
increasing order, all inside the interval, positive weights, and integrates every polynomial of degree below `2N` exactly. -/
structure IsGauss (N : Nat) (l : List (ℝ × ℝ)) : Prop where
  length : l.length = N
  sorted : (l.map Prod.fst).Pairwise (· < ·)
  inside : ∀ x ∈ l, -1 < x.1 ∧ x.1 < 1
  positive : ∀ x ∈ l, 0 < x.2
  exact : ∀ f : ℝ[X], f.natDegree < 2 * N → (l.map fun xw => xw.2 * f.eval xw.1).sum = ∫ x in (-1 : ℝ)..1, f.eval x

/-- A stored rule agrees with `g` entry by entry: nodes within `dx`, weights within the relative error `dw`. -/
def RuleNear (dx dw : ℝ) (l g : List (ℝ × ℝ)) : Prop :=
  List.Forall₂ (fun a b => |a.1 - b.1| ≤ dx ∧ |a.2 - b.2| ≤ dw * b.2) l g

/-- A rule on (-1,1) carried over to `(a,b)` by the linear map. -/
def mapped (a b : ℝ) (l : List (ℝ × ℝ)) : List (ℝ × ℝ) := l.map fun xw => ((b - a) / 2 * xw.1 + (a + b) / 2, (b - a) / 2 * xw.2)

end TicTac.Spec
