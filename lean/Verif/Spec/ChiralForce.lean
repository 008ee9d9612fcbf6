import Verif.Spec.Chp
import Verif.Spec.LOPot
import Verif.Model.Chp
/-! The chiral forces in physics terms: which constants a parameter line holds, the pion-exchange forces, the contact terms and the
regulators.  From the model only the names (`ChiralModel`, `TwoPE`, `Amp`, `PionData`) and the type of the loop functions are used. -/
noncomputable section
namespace TicTac.Spec

/-- The meaning of the columns of a parameter line. -/
structure Constants where
  gA : ℝ := 1.289
  c1 : ℝ := 0
  c2 : ℝ := 0
  c3 : ℝ := 0
  c4 : ℝ := 0
  d12 : ℝ := 0
  d3 : ℝ := 0
  d5 : ℝ := 0
  d1415 : ℝ := 0
  Ct1S0pp : ℝ
  Ct1S0np : ℝ
  Ct1S0nn : ℝ
  Ct3S1 : ℝ
  C1S0 : ℝ := 0
  C3P0 : ℝ := 0
  C1P1 : ℝ := 0
  C3P1 : ℝ := 0
  C3S1 : ℝ := 0
  C3SD1 : ℝ := 0
  C3P2 : ℝ := 0
  Dh1S0 : ℝ := 0
  D1S0 : ℝ := 0
  D3P0 : ℝ := 0
  D1P1 : ℝ := 0
  D3P1 : ℝ := 0
  Dh3S1 : ℝ := 0
  D3S1 : ℝ := 0
  D3D1 : ℝ := 0
  Dh3SD1 : ℝ := 0
  D3SD1 : ℝ := 0
  D1D2 : ℝ := 0
  D3D2 : ℝ := 0
  D3P2 : ℝ := 0
  D3PF2 : ℝ := 0
  D3D3 : ℝ := 0

/-- The constants of each model, by column. -/
def constants (a : Nat → ℝ) : ChiralModel → Constants
  | .isLO => { Ct1S0pp := a 0, Ct1S0np := a 0, Ct1S0nn := a 0, Ct3S1 := a 1 }
  | .isNLO =>
    { Ct1S0nn := a 0, Ct1S0np := a 1, Ct1S0pp := a 2, Ct3S1 := a 3, C1S0 := a 4, C3P0 := a 5, C1P1 := a 6, C3P1 := a 7, C3S1 := a 8, C3SD1 := a 9,
      C3P2 := a 10 }
  | .isN2LO =>
    { c1 := a 0, c3 := a 1, c4 := a 2, Ct1S0nn := a 3, Ct1S0np := a 4, Ct1S0pp := a 5, Ct3S1 := a 6, C1S0 := a 7, C3P0 := a 8, C1P1 := a 9, C3P1 := a 10,
      C3S1 := a 11, C3SD1 := a 12, C3P2 := a 13 }
  | .isN3LO =>
    { c1 := a 0, c2 := a 1, c3 := a 2, c4 := a 3, d12 := a 4, d3 := a 5, d5 := a 6, d1415 := a 7, Ct1S0nn := a 8, Ct1S0np := a 9, Ct1S0pp := a 10, C1S0 := a 11,
      D1S0 := a 12, Ct3S1 := a 13, C3S1 := a 14, C3SD1 := a 15, D3S1 := a 16, D3SD1 := a 17, D3D1 := a 18, C3P0 := a 19, D3P0 := a 20, D3P1 := a 21, C3P1 := a 22,
      C3P2 := a 23, D3P2 := a 24, D3PF2 := a 25, C1P1 := a 26, D1P1 := a 27, D1D2 := a 28, D3D2 := a 29, D3D3 := a 30 }
  | .n2loopt =>
    { Ct1S0pp := a 0, Ct1S0np := a 1, Ct1S0nn := a 2, Ct3S1 := a 3, C1S0 := a 4, C3P0 := a 5, C1P1 := a 6, C3P1 := a 7, C3S1 := a 8, C3SD1 := a 9, C3P2 := a 10,
      gA := a 11, c1 := a 12, c3 := a 13, c4 := a 14 }
  | .idaho =>
    { Ct1S0pp := a 0, Ct1S0np := a 1, Ct1S0nn := a 2, Ct3S1 := a 3, C1S0 := a 4, C3P0 := a 5, C1P1 := a 6, C3P1 := a 7, C3S1 := a 8, C3SD1 := a 9, C3P2 := a 10,
      Dh1S0 := a 11, D1S0 := a 12, D3P0 := a 13, D1P1 := a 14, D3P1 := a 15, Dh3S1 := a 16, D3S1 := a 17, D3D1 := a 18, Dh3SD1 := a 19, D3SD1 := a 20,
      D1D2 := a 21, D3D2 := a 22, D3P2 := a 23, D3PF2 := a 24, D3D3 := a 25, gA := a 26, c1 := a 27, c2 := a 28, c3 := a 29, c4 := a 30, d12 := a 31, d3 := a 32,
      d5 := a 33, d1415 := a 34 }

/-- Cutoff `Λ` in MeV, and the powers in the regulators of one- and two-pion exchange. -/
def cutoff : ChiralModel → ℝ
  | .n2loopt | .idaho => 500
  | _ => 450
def onePionPower : ChiralModel → ℝ
  | .idaho => 4
  | _ => 3
def twoPionPower : ChiralModel → ℝ
  | .idaho => 2
  | _ => 3

/-- `exp(-(p'/Λ)^{2n} - (p/Λ)^{2n})`. -/
def regulator (m : ChiralModel) (n po pi : ℝ) : ℝ := Real.exp (-(po / cutoff m) ^ (2 * n) - (pi / cutoff m) ^ (2 * n))

/-- Masses in MeV; `Tz = -1` is two neutrons, `0` neutron and proton, `+1` two protons. -/
def nucleonMass (m : ChiralModel) (Tz : Int) : ℝ :=
  match m with
  | .n2loopt => if Tz = 1 then 938.272 else if Tz = 0 then 938.9184 else 939.5653
  | .idaho => if Tz = 1 then 938.272 else if Tz = 0 then 938.918204640625618 else 939.5653
  | _ => if Tz = 1 then 938.272046 else if Tz = 0 then 938.918267117927371 else 939.565379
def neutralPion : ℝ := 134.9766
def chargedPion : ChiralModel → ℝ
  | .n2loopt | .idaho => 139.5702
  | _ => 139.57018
def pionDecay : ChiralModel → ℝ
  | .n2loopt | .idaho => 92.4
  | _ => 92.2
/-- Average pion mass of the charge-independent model. -/
def meanPion (m : ChiralModel) : ℝ := (2 * chargedPion m + neutralPion) / 3

def fineStructure : ChiralModel → ℝ
  | .n2loopt => 7.2973525698e-3
  | .idaho => 7.29679570071830198e-3
  | _ => 7.297352569e-3
/-- Cutoff of the spectral-function regularisation (`none`: dimensional regularisation), switch between the versions of the relativistic corrections, and
whether two-loop terms are integrated numerically. -/
def spectralCutoff : ChiralModel → Option ℝ
  | .idaho => none
  | _ => some 700
def relativisticMode : ChiralModel → Int
  | .isN3LO => 202
  | .n2loopt | .idaho => 201
  | _ => 0
def loopIntegrals : ChiralModel → Bool
  | .isN3LO => true
  | _ => false

/-- `√(M/E')√(M/E)` with `E² = M² + p²`. -/
def minimalRelativity (m : ChiralModel) (Tz : Int) (po pi : ℝ) : ℝ :=
  Real.sqrt (nucleonMass m Tz / Real.sqrt (nucleonMass m Tz ^ 2 + po ^ 2)) * Real.sqrt (nucleonMass m Tz / Real.sqrt (nucleonMass m Tz ^ 2 + pi ^ 2))

/-- Momentum transfer squared at a cosine. -/
def transfer (po pi z : ℝ) : ℝ := po ^ 2 + pi ^ 2 - 2 * po * pi * z

/-- The exchange of one pion of mass `mu`: `-gA²/(4 fπ²)/(q² + mu²)`, to be multiplied by `σ₁·q σ₂·q` and the isospin factor. -/
def pionExchange (gA f mu q2 : ℝ) : ℝ := -(gA ^ 2 / (4 * f ^ 2)) / (q2 + mu ^ 2)

/-- `τ₁z τ₂z` of the pair: `-1` for neutron-proton, `+1` for equal nucleons. -/
def tauZ (Tz : Int) : Int := if Tz = 0 then -1 else 1

/-- The πγ correction to charged-pion exchange (Idaho), van Kolck et al. -/
def piGamma (alpha gA f mu q2 : ℝ) : ℝ :=
  let b := q2 / mu ^ 2;
  -(gA ^ 2 * alpha / (4 * Real.pi * f ^ 2 * mu ^ 2)) * (-(1 - b) ^ 2 / (2 * b ^ 2 * (1 + b)) * Real.log (1 + b) + 1 / (2 * b))

/-- One-pion exchange: a neutral pion couples to `τ₁z τ₂z`, the charged pions to `τ₁·τ₂ - τ₁z τ₂z`; the leading-order model uses one average mass. -/
def onePionForce (m : ChiralModel) (c : Constants) (T Tz : Int) (po pi : ℝ) : Force where
  c := fun _ => 0
  s := fun _ => 0
  ls := fun _ => 0
  sl := fun _ => 0
  t := fun z => match m with
    | .isLO => tauTau T * pionExchange c.gA (pionDecay m) (meanPion m) (transfer po pi z)
    | .idaho => tauZ Tz * pionExchange c.gA (pionDecay m) neutralPion (transfer po pi z)
        + (tauTau T - tauZ Tz) * (pionExchange c.gA (pionDecay m) (chargedPion m) (transfer po pi z)
            + piGamma (fineStructure m) c.gA (pionDecay m) (chargedPion m) (transfer po pi z))
    | _ => tauZ Tz * pionExchange c.gA (pionDecay m) neutralPion (transfer po pi z)
        + (tauTau T - tauZ Tz) * pionExchange c.gA (pionDecay m) (chargedPion m) (transfer po pi z)

/-- What the loop functions of a model depend on, in MeV. -/
def pionData (m : ChiralModel) (c : Constants) : PionData where
  mnuc := fun i => if i = -1 ∨ i = 0 ∨ i = 1 then nucleonMass m (-i) else (nucleonMass m (-1) + nucleonMass m 1 + nucleonMass m 0) / 3
  mpi := fun i => if i = 0 then neutralPion else if i = -1 ∨ i = 1 then chargedPion m else meanPion m
  gA := c.gA
  fpi := pionDecay m
  alpha := fineStructure m
  c1 := c.c1 * 1e-3
  c2 := c.c2 * 1e-3
  c3 := c.c3 * 1e-3
  c4 := c.c4 * 1e-3
  d12 := c.d12 * 1e-6
  d3 := c.d3 * 1e-6
  d5 := c.d5 * 1e-6
  d1415 := c.d1415 * 1e-6
  sfr := spectralCutoff m
  rMode := relativisticMode m
  loopInt := loopIntegrals m

/-- The classes of two-pion exchange a model contains. -/
def twoPionTerms : ChiralModel → List TwoPE
  | .isLO => []
  | .isNLO => [.l0]
  | .isN2LO => [.l0, .ld]
  | .isN3LO => [.l0, .ld, .lr, .ldd, .l2]
  | .n2loopt => [.l0, .ld, .lr]
  | .idaho => [.l0, .ld, .lr, .ldd, .ldr, .lrr, .l2]

/-- The amplitudes of each class (Machleidt and Entem, Phys. Rep. 503, sec. 4). -/
def amplitudes : TwoPE → List Amp
  | .l0 => [.Wc, .Vs, .VT]
  | .ld => [.Vc, .Ws, .WT]
  | .lr => [.Vc, .Wc, .Vs, .Ws, .VLS, .WLS, .VT, .WT]
  | .ldd => [.Vc, .Ws, .WT]
  | .ldr => [.Vc, .Wc, .Ws, .WT, .VLS, .WLS]
  | .lrr => [.Vc, .Wc, .Vs, .Ws, .VLS, .WLS, .VT, .WT, .VsigL]
  | .l2 => [.Vc, .Wc, .Vs, .Ws, .VT, .WT]

/-- The strength of an amplitude: the sum of the loop functions over the classes; only the class `lrr` depends on the mean momentum.  Idaho and
N2LOopt use the nucleon mass of the pair, the others that of neutron and proton. -/
def strength (m : ChiralModel) (c : Constants) (prof : Profiles) (Tz : Int) (po pi : ℝ) (A : Amp) (z : ℝ) : ℝ :=
  ((twoPionTerms m).map fun t => if A ∈ amplitudes t then
    prof (pionData m c) t A (if m = .n2loopt ∨ m = .idaho then -Tz else 0) (transfer po pi z)
      (if t = .lrr then (po ^ 2 + pi ^ 2 + 2 * po * pi * z) / 4 else 0) else 0).sum

/-- Two-pion exchange: isoscalar `V` and isovector `W` amplitudes. -/
def twoPionForce (m : ChiralModel) (c : Constants) (prof : Profiles) (T Tz : Int) (po pi : ℝ) : Force where
  c := fun z => strength m c prof Tz po pi .Vc z + tauTau T * strength m c prof Tz po pi .Wc z
  s := fun z => strength m c prof Tz po pi .Vs z + tauTau T * strength m c prof Tz po pi .Ws z
  ls := fun z => strength m c prof Tz po pi .VLS z + tauTau T * strength m c prof Tz po pi .WLS z
  t := fun z => strength m c prof Tz po pi .VT z + tauTau T * strength m c prof Tz po pi .WT z
  sl := fun z => strength m c prof Tz po pi .VsigL z

/-- The regulator powers of the contact constants: leading order, next order, and the fourth-order constants of 3P0, 3P1, 1D2, 3P2-3F2, others. -/
def powerC : ChiralModel → ℝ
  | .idaho => 2
  | _ => 3
def powerD (m : ChiralModel) (x : ℝ) : ℝ := match m with | .idaho => x | _ => 3

/-- The contact terms `⟨Lo, po|V|Li, pi⟩` of each partial wave (Machleidt and Entem, eq. (4.41)-(4.43), (D.9)...).  The mixing constants are defined in the
opposite phase convention, hence their minus sign. -/
def contactForce (m : ChiralModel) (c : Constants) (Tz S J Lo Li : Int) (po pi : ℝ) : ℝ :=
  let f := fun n => regulator m n po pi
  let C := powerC m
  let D := powerD m
  if S = 0 ∧ Lo = 0 ∧ Li = 0 ∧ J = 0 then
    0.01 * (if Tz = -1 then c.Ct1S0nn else if Tz = 0 then c.Ct1S0np else c.Ct1S0pp) * f 3 + 1e-8 * c.C1S0 * (po ^ 2 + pi ^ 2) * f C
      + 1e-14 * (c.Dh1S0 * (po ^ 4 + pi ^ 4) + c.D1S0 * po ^ 2 * pi ^ 2) * f (D 2)
  else if S = 1 ∧ Lo = 0 ∧ Li = 0 ∧ J = 1 then
    0.01 * c.Ct3S1 * f 3 + 1e-8 * c.C3S1 * (po ^ 2 + pi ^ 2) * f C + 1e-14 * (c.Dh3S1 * (po ^ 4 + pi ^ 4) + c.D3S1 * po ^ 2 * pi ^ 2) * f (D 2)
  else if S = 1 ∧ Lo = 0 ∧ Li = 2 ∧ J = 1 then
    -(1e-8 * c.C3SD1 * pi ^ 2 * f C + 1e-14 * (c.Dh3SD1 * pi ^ 4 + c.D3SD1 * po ^ 2 * pi ^ 2) * f (D 2))
  else if S = 1 ∧ Lo = 2 ∧ Li = 0 ∧ J = 1 then
    -(1e-8 * c.C3SD1 * po ^ 2 * f C + 1e-14 * (c.Dh3SD1 * po ^ 4 + c.D3SD1 * po ^ 2 * pi ^ 2) * f (D 2))
  else if S = 1 ∧ Lo = 2 ∧ Li = 2 ∧ J = 1 then 1e-14 * c.D3D1 * po ^ 2 * pi ^ 2 * f (D 2)
  else if S = 1 ∧ Lo = 1 ∧ Li = 1 ∧ J = 0 then 1e-8 * c.C3P0 * po * pi * f C + 1e-14 * c.D3P0 * po * pi * (po ^ 2 + pi ^ 2) * f (D 3)
  else if S = 0 ∧ Lo = 1 ∧ Li = 1 ∧ J = 1 then 1e-8 * c.C1P1 * po * pi * f C + 1e-14 * c.D1P1 * po * pi * (po ^ 2 + pi ^ 2) * f (D 2)
  else if S = 1 ∧ Lo = 1 ∧ Li = 1 ∧ J = 1 then 1e-8 * c.C3P1 * po * pi * f C + 1e-14 * c.D3P1 * po * pi * (po ^ 2 + pi ^ 2) * f (D 4)
  else if S = 1 ∧ Lo = 1 ∧ Li = 1 ∧ J = 2 then 1e-8 * c.C3P2 * po * pi * f C + 1e-14 * c.D3P2 * po * pi * (po ^ 2 + pi ^ 2) * f (D 2)
  else if S = 1 ∧ Lo = 1 ∧ Li = 3 ∧ J = 2 then -(1e-14 * c.D3PF2 * po * pi ^ 3 * f (D 4))
  else if S = 1 ∧ Lo = 3 ∧ Li = 1 ∧ J = 2 then -(1e-14 * c.D3PF2 * po ^ 3 * pi * f (D 4))
  else if S = 0 ∧ Lo = 2 ∧ Li = 2 ∧ J = 2 then 1e-14 * c.D1D2 * po ^ 2 * pi ^ 2 * f (D 4)
  else if S = 1 ∧ Lo = 2 ∧ Li = 2 ∧ J = 2 then 1e-14 * c.D3D2 * po ^ 2 * pi ^ 2 * f (D 2)
  else if S = 1 ∧ Lo = 2 ∧ Li = 2 ∧ J = 3 then
    1e-14 * c.D3D3 * po ^ 2 * pi ^ 2 * (match m with | .idaho => (f 2 + f 3) / 2 | _ => f 3)
  else 0

/-- The partial-wave element `⟨Lo S J T Tz, po| V |Li S J T Tz, pi⟩` of a chiral force in MeV⁻². -/
def chiralElement (rule : List (ℝ × ℝ)) (dirs : ℝ → Vec × Vec) (prof : Profiles) (m : ChiralModel) (c : Constants) (S J Lo Li T Tz : Int) (po pi : ℝ) : ℝ :=
  minimalRelativity m Tz po pi / (2 * Real.pi) ^ 3 *
    (regulator m (onePionPower m) po pi * projected rule dirs (onePionForce m c T Tz po pi) po pi S J.toNat Lo Li
      + regulator m (twoPionPower m) po pi * projected rule dirs (twoPionForce m c prof T Tz po pi) po pi S J.toNat Lo Li
      + contactForce m c Tz S J Lo Li po pi)

/-- Orbital momenta of a pair state of spin `S` and total `J`, with parity conserved. -/
structure Waves (S J Lo Li T : Int) : Prop where
  spin : S = 0 ∨ S = 1
  out : |S - Lo| ≤ J ∧ J ≤ S + Lo
  inn : |S - Li| ≤ J ∧ J ≤ S + Li
  parity : (Lo - Li) % 2 = 0
  pauli : PauliT Lo S T

end TicTac.Spec
end
