import Verif.Spec.ChiralForce
import Mathlib.MeasureTheory.Integral.IntervalIntegral.Basic
/-! The chiral forces with the angular integral itself in the place of a quadrature. -/
noncomputable section
namespace TicTac.Spec

/-- The projected element `⟨Lo S J, po| F |Li S J, pi⟩` with the exact integral `2π ∫ dz` (compare `projected`). -/
def projectedExact (dirs : ℝ → Vec × Vec) (F : Force) (po pi : ℝ) (S : Int) (J : Nat) (Lo Li : Int) : ℝ :=
  2 * Real.pi * ∫ z in (-1 : ℝ)..1, if S = 0 then (legendre J).eval z * singletOp F po pi (dirs z).1 (dirs z).2
      else contract (tripletStates J Lo Li (dirs z).1 (dirs z).2) (tripletOp F po pi (dirs z).1 (dirs z).2)

/-- The partial-wave element of a chiral force (compare `chiralElement`) whose one-pion exchange is projected exactly. -/
def chiralExactPion (rule : List (ℝ × ℝ)) (dirs : ℝ → Vec × Vec) (prof : Profiles) (m : ChiralModel) (c : Constants) (S J Lo Li T Tz : Int) (po pi : ℝ) : ℝ :=
  minimalRelativity m Tz po pi / (2 * Real.pi) ^ 3 *
    (regulator m (onePionPower m) po pi * projectedExact dirs (onePionForce m c T Tz po pi) po pi S J.toNat Lo Li
      + regulator m (twoPionPower m) po pi * projected rule dirs (twoPionForce m c prof T Tz po pi) po pi S J.toNat Lo Li
      + contactForce m c Tz S J Lo Li po pi)

/-- The leading-order force: one-pion exchange and the two contact terms, projected exactly. -/
def leadingExact (dirs : ℝ → Vec × Vec) (c : Constants) (S J Lo Li T Tz : Int) (po pi : ℝ) : ℝ :=
  minimalRelativity .isLO Tz po pi / (2 * Real.pi) ^ 3 *
    (regulator .isLO 3 po pi * projectedExact dirs (onePionForce .isLO c T Tz po pi) po pi S J.toNat Lo Li
      + (if S = 0 ∧ J = 0 then 0.01 * c.Ct1S0np else if S = 1 ∧ J = 1 ∧ Lo = 0 ∧ Li = 0 then 0.01 * c.Ct3S1 else 0) * regulator .isLO 3 po pi)

end TicTac.Spec
end
