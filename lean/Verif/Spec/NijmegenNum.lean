import Verif.Model.NijmegenForce
import Verif.Spec.Chp
import Mathlib.MeasureTheory.Integral.IntervalIntegral.Basic
import Mathlib.MeasureTheory.Integral.IntegralEqImproper
/-! What the numerical functions of the Nijmegen potential are meant to return. -/
noncomputable section
namespace TicTac
open Polynomial Spec Set

/-- The routine `SEX` returns the integrals its comment promises (P:2249-2264) for these arguments. -/
structure SexExact (N : NijNum) (x y a : ℝ) (j kom : Nat) : Prop where
  ern : ∀ n ≤ j, (N.sex x y a j kom).2 (n + 1) = 1 / 2 * Real.exp (a ^ 2) * ∫ z in (-1 : ℝ)..1, (legendre n).eval z * Real.exp (-(y * (x - z)))
  eln : kom = 1 → ∀ n ≤ j, (N.sex x y a j kom).1 (n + 1) = 1 / 2 * Real.exp (a ^ 2) * ∫ z in (-1 : ℝ)..1, (legendre n).eval z * (Real.exp (-(y * (x - z))) / (x - z))

/-- The numerical functions are exact at a pair of momenta: `SEX` for all masses and cutoffs, `CE1(X) = e^X E₁(X)`, `FDEXP` the exponential. -/
structure NijExact (N : NijNum) (po pi : ℝ) : Prop where
  yuk : ∀ m lam : ℝ, 0 < m → 0 < lam → ∀ j, SexExact N (0.5 * (po * po + pi * pi) / (po * pi) + 0.5 * (m * m) / (po * pi)) (2 * (po * pi) / (lam * lam)) (m / lam) j 1
  dif : ∀ m2 : ℝ, 0 < m2 → ∀ j, SexExact N (0.5 * (po * po + pi * pi) / (po * pi)) (0.5 * (po * pi) / m2) 0 j 2
  ce1 : ∀ x : ℝ, 0 < x → N.ce1 x = Real.exp x * ∫ t in Ioi x, Real.exp (-t) / t
  fdexp : ∀ x : ℝ, N.fdexp x = Real.exp x

end TicTac
end
