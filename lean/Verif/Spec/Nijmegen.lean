import Verif.Spec.Chp
import Verif.Spec.ChiralForce
import Mathlib.MeasureTheory.Integral.IntervalIntegral.Basic
import Mathlib.MeasureTheory.Integral.IntegralEqImproper
/-! What the Nijmegen I force is: an operator in spin space with six strengths, its elements between angular-momentum states, and the strengths as a sum over
exchanged mesons (Nagels, Rijken, de Swart, Phys. Rev. D 17 (1978) 768; Maessen, Rijken, de Swart, Phys. Rev. C 40 (1989) 2226; Stoks et al., Phys. Rev. C 49
(1994) 2950).  Nothing here refers to the program. -/
noncomputable section
namespace TicTac.Spec
open Matrix Polynomial

/-- Central, spin-spin, tensor, spin-orbit and quadratic spin-orbit strengths, and the strength that goes with the last one; functions of the cosine. -/
structure NijForce where
  c : ℝ → ℝ
  s : ℝ → ℝ
  t : ℝ → ℝ
  ls : ℝ → ℝ
  q : ℝ → ℝ
  qp : ℝ → ℝ

/-- In the triplet (`σ₁·σ₂ = 1`), with `k = po u - pi v`, `Q = (po u + pi v)/2`, `n = k × Q`:
`c + s σ₁·σ₂ + t (σ₁·k σ₂·k - k²/3 σ₁·σ₂) + ls (-i S·n) + q σ₁·n σ₂·n + qp (σ₁·Q σ₂·Q - Q² σ₁·σ₂ - σ₁·k σ₂·k/4 + k²/4 σ₁·σ₂)`. -/
def nijTriplet (F : NijForce) (po pi : ℝ) (u v : Vec) : Op3 :=
  let k := po • u - pi • v
  let Q := (1 / 2 : ℝ) • (po • u + pi • v)
  let n := crossProduct k Q
  (F.c (u ⬝ᵥ v) + F.s (u ⬝ᵥ v)) • (1 : Op3) + F.t (u ⬝ᵥ v) • (sigmaSigma k - ((k ⬝ᵥ k) / 3) • (1 : Op3)) + F.ls (u ⬝ᵥ v) • spinRot n
    + F.q (u ⬝ᵥ v) • sigmaSigma n + F.qp (u ⬝ᵥ v) • (sigmaSigma Q - (Q ⬝ᵥ Q) • (1 : Op3) - (1 / 4 : ℝ) • sigmaSigma k + ((k ⬝ᵥ k) / 4) • (1 : Op3))

/-- The same operator in the singlet: `σ₁·σ₂ = -3`, `S = 0`, `σ₁·a σ₂·a = -a²`. -/
def nijSinglet (F : NijForce) (po pi : ℝ) (u v : Vec) : ℝ :=
  let k := po • u - pi • v
  let Q := (1 / 2 : ℝ) • (po • u + pi • v)
  let n := crossProduct k Q
  F.c (u ⬝ᵥ v) - 3 * F.s (u ⬝ᵥ v) + F.t (u ⬝ᵥ v) * (-(k ⬝ᵥ k) + (k ⬝ᵥ k)) - (n ⬝ᵥ n) * F.q (u ⬝ᵥ v)
    + F.qp (u ⬝ᵥ v) * (-(Q ⬝ᵥ Q) + 3 * (Q ⬝ᵥ Q) + (k ⬝ᵥ k) / 4 - 3 * ((k ⬝ᵥ k) / 4))

/-- `⟨Lo S J, po| F |Li S J, pi⟩ = 2π ∫ dz …`; `dirs z` are two directions with cosine `z`. -/
def nijProjected (dirs : ℝ → Vec × Vec) (F : NijForce) (po pi : ℝ) (S : Int) (J : Nat) (Lo Li : Int) : ℝ :=
  2 * Real.pi * ∫ z in (-1 : ℝ)..1, (if S = 0 then (legendre J).eval z * nijSinglet F po pi (dirs z).1 (dirs z).2
    else contract (tripletStates J Lo Li (dirs z).1 (dirs z).2) (nijTriplet F po pi (dirs z).1 (dirs z).2))

/-- What one exchange contributes: `k²`-dependent strengths (`central0 + central1 k² + central2 k⁴ + nonlocal (po² + pi²)`, and so on) times a propagator. -/
structure Exchange where
  central0 : ℝ
  central1 : ℝ
  central2 : ℝ
  nonlocal : ℝ
  spin1 : ℝ
  spin2 : ℝ
  tensor0 : ℝ
  tensor1 : ℝ
  orbit0 : ℝ
  orbit1 : ℝ
  quad : ℝ
  prop : ℝ → ℝ

/-- Exchange of a particle of mass squared `m2` with a Gaussian form factor of cutoff `lam` at the vertices. -/
def yukawaSq (m2 lam k2 : ℝ) : ℝ := 4 * Real.pi * Real.exp (-(k2 / lam ^ 2)) / (k2 + m2)

/-- Gaussian potential of the pomeron. -/
def gaussian (m k2 : ℝ) : ℝ := 4 * Real.pi * Real.exp (-(k2 / (4 * m ^ 2)))

/-- The force of a list of exchanges between momenta `po` and `pi`.  The quadratic spin-orbit part is the transform of a potential `V(r)` times
`Q₁₂ = (σ₁·L σ₂·L + σ₂·L σ₁·L)/2`: with `q = -4 V''` (derivatives by `k²`) the rest is `2 V' = ½ ∫_{k²}^∞ q`. -/
def exchangeForce (es : List Exchange) (po pi : ℝ) : NijForce where
  c z := (es.map fun e => (e.central0 + e.central1 * transfer po pi z + e.central2 * transfer po pi z ^ 2 + e.nonlocal * (po ^ 2 + pi ^ 2)) * e.prop (transfer po pi z)).sum
  s z := (es.map fun e => (e.spin1 * transfer po pi z + e.spin2 * transfer po pi z ^ 2) * e.prop (transfer po pi z)).sum
  t z := (es.map fun e => (e.tensor0 + e.tensor1 * transfer po pi z) * e.prop (transfer po pi z)).sum
  ls z := (es.map fun e => (e.orbit0 + e.orbit1 * transfer po pi z) * e.prop (transfer po pi z)).sum
  q z := (es.map fun e => e.quad * e.prop (transfer po pi z)).sum
  qp z := (es.map fun e => 1 / 2 * (e.quad * ∫ k2 in Set.Ioi (transfer po pi z), e.prop k2)).sum

/-- Masses of the two nucleons: pp, np and nn. -/
def protonMass : ℝ := 938.27231
def neutronMass : ℝ := 939.56563
structure Pair where
  m1 : ℝ
  m2 : ℝ
def Pair.sum (a : Pair) : ℝ := a.m1 + a.m2
def Pair.prod (a : Pair) : ℝ := a.m1 * a.m2
def Pair.reduced (a : Pair) : ℝ := a.prod / a.sum
/-- `4 m₁ m₂ / (m₁ + m₂)²`, one for equal masses. -/
def Pair.alpha (a : Pair) : ℝ := 4 * a.prod / a.sum ^ 2
/-- `1/m₁² + 1/m₂²`. -/
def Pair.invSq (a : Pair) : ℝ := 1 / a.m1 ^ 2 + 1 / a.m2 ^ 2
def Pair.diffSq (a : Pair) : ℝ := (a.m1 - a.m2) ^ 2
def nucleons (Tz : Int) : Pair := if Tz = 1 then ⟨protonMass, protonMass⟩ else if Tz = 0 then ⟨protonMass, neutronMass⟩ else ⟨neutronMass, neutronMass⟩

/-- Pseudoscalar exchange `-f² σ₁·k σ₂·k`, in terms of `σ₁·σ₂` and the tensor operator. -/
def pseudoscalar (f2 : ℝ) (prop : ℝ → ℝ) : Exchange := ⟨0, 0, 0, 0, -f2 / 3, 0, -f2, 0, 0, 0, 0, prop⟩

/-- Vector exchange between the same nucleons, with direct coupling squared `g2`, derivative coupling squared `f2` and their product `gf` (twice). -/
def vectorNeutral (a : Pair) (g2 f2 gf : ℝ) (prop : ℝ → ℝ) : Exchange where
  central0 := g2
  central1 := -(g2 / (2 * a.alpha * a.prod)) - gf / (4 * a.reduced)
  central2 := f2 / (4 * a.prod)
  nonlocal := g2 * (a.invSq + 1 / a.prod) / 4
  spin1 := -((g2 + a.sum * gf + 4 * a.prod * f2) / (6 * a.prod))
  spin2 := f2 / (12 * a.prod)
  tensor0 := (g2 + a.sum * gf + 4 * a.prod * f2) / (4 * a.prod)
  tensor1 := -(f2 / (8 * a.prod))
  orbit0 := -((g2 * (1 / 2 + 1 / a.alpha) + a.sum * gf) / a.prod)
  orbit1 := f2 * (1 / 2 + 1 / a.alpha) / a.prod
  quad := -((g2 + 4 * a.sum * gf + 8 * a.sum ^ 2 * f2) / (16 * a.prod ^ 2))
  prop := prop

/-- Charged vector exchange: the nucleons change places and the vector current is not conserved; `lam = ((m_n - m_p)/m)²` measures that. -/
def vectorCharged (a : Pair) (g2 f2 gf lam : ℝ) (prop : ℝ → ℝ) : Exchange where
  central0 := g2 * a.alpha + lam * a.alpha * g2
  central1 := -(g2 / (2 * a.prod)) - a.alpha * (gf * a.sum + f2 * a.diffSq) * a.invSq / 8 + lam * a.alpha * g2 / (4 * a.prod)
  central2 := f2 / (4 * a.prod) * (1 + ((a.m1 ^ 2 - a.m2 ^ 2) ^ 2 + 2 * a.prod * a.diffSq) / (16 * a.prod ^ 2))
  nonlocal := (a.alpha * g2 * (a.invSq + 1 / a.prod) / 2 + gf * a.diffSq / (a.sum * a.prod) + f2 * (4 / a.alpha - 2 * a.alpha * (a.m1 ^ 2 + a.m2 ^ 2) / a.prod)) / 2
    + lam * a.alpha * g2 * (a.invSq / 4 - 1 / a.prod) / 2
  spin1 := -((g2 + a.sum * gf + a.sum ^ 2 * f2) * (1 / (6 * a.prod) + a.alpha * a.diffSq / (16 * a.prod ^ 2)))
  spin2 := f2 / a.alpha * a.invSq / 24
  tensor0 := (g2 + a.sum * gf + a.sum ^ 2 * f2) / (4 * a.prod)
  tensor1 := -(f2 / a.alpha * a.invSq / 16)
  orbit0 := -((g2 * (2 - a.alpha / 2) + 2 * (a.m1 ^ 2 + a.m2 ^ 2) / a.sum * gf + 2 * a.diffSq * f2) / a.prod) + lam * a.alpha * g2 / (2 * a.prod)
  orbit1 := f2 * ((2 / a.alpha - 1 / 2) / a.alpha - a.diffSq / (8 * a.prod)) / a.prod
  quad := -(a.alpha * (g2 + 4 * a.sum * gf + 8 * a.sum ^ 2 * f2) / (16 * a.prod ^ 2)) - lam * a.alpha * g2 / (16 * a.prod ^ 2)
  prop := prop

/-- Scalar exchange between the same nucleons, and with exchange of charge. -/
def scalarNeutral (a : Pair) (g2 : ℝ) (prop : ℝ → ℝ) : Exchange where
  central0 := -g2
  central1 := -(g2 * a.invSq / 8)
  central2 := 0
  nonlocal := g2 / (4 * a.prod)
  spin1 := 0
  spin2 := 0
  tensor0 := 0
  tensor1 := 0
  orbit0 := -(g2 * a.invSq / 4)
  orbit1 := 0
  quad := g2 / (16 * a.prod ^ 2)
  prop := prop
def scalarCharged (a : Pair) (g2 : ℝ) (prop : ℝ → ℝ) : Exchange where
  central0 := -(a.alpha * g2)
  central1 := -(a.alpha * g2 / (4 * a.prod))
  central2 := 0
  nonlocal := -(a.alpha * g2 * (a.invSq / 4 - 1 / a.prod) / 2)
  spin1 := 0
  spin2 := 0
  tensor0 := 0
  tensor1 := 0
  orbit0 := -(a.alpha * g2 / (2 * a.prod))
  orbit1 := 0
  quad := a.alpha * g2 / (16 * a.prod ^ 2)
  prop := prop
/-- The pomeron acts like a scalar exchange of the opposite sign. -/
def diffractive (a : Pair) (g2 : ℝ) (prop : ℝ → ℝ) : Exchange := scalarNeutral a (-g2) prop
def diffractiveCharged (a : Pair) (g2 : ℝ) (prop : ℝ → ℝ) : Exchange := scalarCharged a (-g2) prop

/-- The numbers fitted for a partial wave: couplings, cutoffs and masses (MeV), angles in degrees. -/
structure NijSet where
  etaSinglet : ℚ
  pvRatio : ℚ
  pvAngle : ℚ
  gRho : ℚ
  gSinglet : ℚ
  vRatio : ℚ
  vAngle : ℚ
  fRho : ℚ
  fOmega : ℚ
  fPhi : ℚ
  gA0 : ℚ
  gEps : ℚ
  gF0 : ℚ
  gPom : ℚ
  gPom' : ℚ
  mPom : ℚ
  mPom' : ℚ
  cutP : ℚ
  cutV : ℚ
  cutS : ℚ
  eps1 : ℚ
  mEps1 : ℚ
  eps2 : ℚ
  mEps2 : ℚ
deriving DecidableEq

/-- The Nijmegen I values of the waves without own values. -/
def nijRest : NijSet where
  etaSinglet := 0.2871299
  pvRatio := 0.355
  pvAngle := -23
  gRho := 0.6723103
  gSinglet := 2.849628
  vRatio := 1
  vAngle := 37.5
  fRho := 4.728635
  fOmega := 0.05473693
  fPhi := 0
  gA0 := 0.8334762
  gEps := 4.859055
  gF0 := 0.8389363
  gPom := 2.751792
  gPom' := 0.443722
  mPom := 257.9522
  mPom' := 257.9522
  cutP := 827.5346
  cutV := 827.5346
  cutS := 827.5346
  eps1 := 0.1690008
  mEps1 := 487.8179
  eps2 := 0.6130152
  mEps2 := 1021.139

/-- Own values of the waves up to J = 4; `np` is 1S0 of neutron and proton. -/
def nijSet (np : Bool) (S : Int) (J : Nat) (coupled : Bool) : NijSet :=
  match S, J, coupled with
  | 0, 0, _ => if np then { nijRest with fRho := 3.423514, gEps := 4.942984 } else { nijRest with fRho := 3.697581, gEps := 4.846532, mEps1 := 474.4299 }
  | 0, 1, _ => { nijRest with gSinglet := 3.290519, gEps := 4.784616 }
  | 0, 2, _ => { nijRest with gSinglet := 0, gEps := 2.348432, mEps1 := 363.9503 }
  | 0, 3, _ => { nijRest with gSinglet := 4.812761, gEps := 6.316315 }
  | 0, 4, _ => { nijRest with gSinglet := 4.142482 }
  | 1, 0, false => { nijRest with fRho := 3.160965, gEps := 3.726932 }
  | 1, 1, false => { nijRest with fRho := 0, gEps := 4.980991, mEps1 := 492.3498 }
  | 1, 2, false => { nijRest with gEps := 5.880449, mPom := 169.3534, mPom' := 169.3534 }
  | 1, 3, false => { nijRest with fRho := 8.961465, gEps := 5.458122 }
  | 1, 4, false => { nijRest with gEps := 3.201615 }
  | 1, 1, true => { nijRest with gRho := 2.598577, fRho := 2.125742, etaSinglet := 0, gSinglet := 2.536422, gEps := 4.906761, gPom' := 0.44371888, cutP := 884.8614, cutV := 646.5221, cutS := 699.0612, mEps1 := 583.1763 }
  | 1, 2, true => { nijRest with fRho := 5.188648, gPom := 3.668014, etaSinglet := 0.1341669, gSinglet := 0, gEps := 3.995761, cutV := 583.1699, cutS := 583.1699 }
  | 1, 3, true => { nijRest with fRho := 3.877361, gPom := 4.723766, etaSinglet := 0.281108, gSinglet := 0, gEps := 4.818122 }
  | 1, 4, true => { nijRest with fRho := 7.551377, gPom := 2.36092, gSinglet := 0, gEps := 4.855317 }
  | _, _, _ => nijRest

/-- Scales of the couplings, the pion coupling at the pole, and the masses of the exchanged particles (MeV). -/
def scaleMass : ℝ := 139.5675
def pionPole : ℝ := 0.075
def pion0 : ℝ := 134.9739
def pionC : ℝ := 139.5675
def degree : ℝ := Real.pi / 180

/-- Mixing of octet and singlet by an angle. -/
def mixLow (th x8 x1 : ℝ) : ℝ := Real.cos (th * degree) * x8 - Real.sin (th * degree) * x1
def mixHigh (th x8 x1 : ℝ) : ℝ := Real.sin (th * degree) * x8 + Real.cos (th * degree) * x1
/-- The octet partner of an isovector coupling. -/
def octet (ratio g : ℝ) : ℝ := g * (4 * ratio - 1) / Real.sqrt 3

/-- Effective mass squared of a charged meson exchanged between proton and neutron. -/
def chargedSq (a : Pair) (m : ℝ) : ℝ := a.alpha * (m ^ 2 - a.diffSq)

section
variable (c : NijSet)
/-- Pion, eta and eta' couplings. -/
def fPi : ℝ := Real.sqrt (pionPole * Real.exp (-((pion0 / c.cutP) ^ 2)))
def fEta : ℝ := mixLow c.pvAngle (octet c.pvRatio (fPi c)) c.etaSinglet
def fEta' : ℝ := mixHigh c.pvAngle (octet c.pvRatio (fPi c)) c.etaSinglet
/-- Vector couplings of phi and omega. -/
def gPhi : ℝ := mixLow c.vAngle (octet c.vRatio c.gRho) c.gSinglet
def gOmega : ℝ := mixHigh c.vAngle (octet c.vRatio c.gRho) c.gSinglet
end

/-- One vector meson with couplings `g` and `f`, weighted with `w` (strength times isospin). -/
def vectorMeson (a : Pair) (w g f : ℝ) (prop : ℝ → ℝ) : Exchange :=
  vectorNeutral a (w * g ^ 2) (w * (f / (2 * protonMass)) ^ 2) (w * (2 * (g * f) / (2 * protonMass))) prop
def vectorMesonCharged (a : Pair) (w g f m : ℝ) (prop : ℝ → ℝ) : Exchange :=
  vectorCharged a (w * g ^ 2) (w * (f / (2 * protonMass)) ^ 2) (w * (2 * (g * f) / (2 * protonMass))) (a.diffSq / m ^ 2) prop

/-- Everything that is exchanged in the charge state `Tz` (isospin `T`): `τ₃τ₃` is the sign of the neutral isovectors, `τ₁·τ₂ - τ₃τ₃ = 4T - 2` that of the charged. -/
def nijExchanges (c : NijSet) (Tz T : Int) : List Exchange :=
  let a := nucleons Tz
  let t3 : ℝ := if Tz = 0 then -1 else 1
  let tc : ℝ := 4 * T - 2
  [pseudoscalar (t3 * (fPi c / scaleMass) ^ 2) (yukawaSq (pion0 ^ 2) c.cutP),
   pseudoscalar ((fEta c / scaleMass) ^ 2) (yukawaSq (548.8 ^ 2) c.cutP),
   pseudoscalar ((fEta' c / scaleMass) ^ 2) (yukawaSq (957.5 ^ 2) c.cutP),
   vectorMeson a (t3 * 0.2655205) c.gRho c.fRho (yukawaSq (645.3772 ^ 2) c.cutV),
   vectorMeson a (t3 * 0.5607493) c.gRho c.fRho (yukawaSq (878.3667 ^ 2) c.cutV),
   vectorMeson a 1 (gOmega c) c.fOmega (yukawaSq (781.95 ^ 2) c.cutV),
   vectorMeson a 1 (gPhi c) c.fPhi (yukawaSq (1019.412 ^ 2) c.cutV),
   scalarNeutral a (t3 * c.gA0 ^ 2) (yukawaSq (983.3 ^ 2) c.cutS),
   scalarNeutral a (c.eps1 * c.gEps ^ 2) (yukawaSq (c.mEps1 ^ 2) c.cutS),
   scalarNeutral a (c.eps2 * c.gEps ^ 2) (yukawaSq (c.mEps2 ^ 2) c.cutS),
   scalarNeutral a (c.gF0 ^ 2) (yukawaSq (975.6 ^ 2) c.cutS),
   diffractive a ((c.gPom / protonMass) ^ 2) (gaussian c.mPom),
   diffractive a (t3 * (c.gPom' / protonMass) ^ 2) (gaussian c.mPom')]
  ++ if Tz = 0 then
  [pseudoscalar (tc * (fPi c / scaleMass) ^ 2 / a.alpha) (yukawaSq (chargedSq a pionC) c.cutP),
   vectorMesonCharged a (tc * 0.3875515) c.gRho c.fRho 674.1521 (yukawaSq (chargedSq a 674.1521) c.cutV),
   vectorMesonCharged a (tc * 0.4508341) c.gRho c.fRho 929.9742 (yukawaSq (chargedSq a 929.9742) c.cutV),
   scalarCharged a (tc * c.gA0 ^ 2) (yukawaSq (chargedSq a 983.3) c.cutS),
   diffractiveCharged a (tc * (c.gPom' / protonMass) ^ 2) (gaussian c.mPom')]
  else []

/-- The Nijmegen I force in a wave. -/
def nijmegenForce (Tz T S : Int) (J : Nat) (coupled : Bool) (po pi : ℝ) : NijForce :=
  exchangeForce (nijExchanges (nijSet (Tz = 0) S J coupled) Tz T) po pi

end TicTac.Spec
end
