import Mathlib.RingTheory.PowerSeries.Basic
import Mathlib.Data.Complex.Basic
/-! Taylor series of rational functions. -/
namespace TicTac.Spec
open Polynomial

/-- `a` is the sequence of Taylor coefficients of `p/q` at 0: `q · Σ aₙ zⁿ = p`. -/
def IsTaylorOf (a : Nat → ℂ) (p q : ℂ[X]) : Prop := (q : PowerSeries ℂ) * PowerSeries.mk a = (p : PowerSeries ℂ)

/-- `p/q` is an `[N/M]` Padé approximant of the series `a` (Frobenius' definition): degrees at most `N` and `M`, `q` not
zero, and `q · Σ aₙ zⁿ` agrees with `p` in all orders up to `N + M`. -/
def IsPade (a : Nat → ℂ) (N M : Nat) (p q : ℂ[X]) : Prop :=
  p.natDegree ≤ N ∧ q.natDegree ≤ M ∧ q ≠ 0 ∧
    ∀ k ≤ N + M, PowerSeries.coeff k ((q : PowerSeries ℂ) * PowerSeries.mk a) = p.coeff k

end TicTac.Spec
