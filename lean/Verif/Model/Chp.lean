import Verif.Model.LOPot
import Mathlib.Analysis.SpecialFunctions.Pow.Real
/-! Model of the Fortran code behind the chiral potentials: CPP/Interactions/chp/chiral-twobody-potentials.f90 ("F" below),
CPP/Interactions/chp/chp-set.f90 ("S" below), and of the C++ classes that call it (chiral_twobody.cpp, chiral_N2LOopt.cpp,
chiral_Idaho_N3LO.cpp).  `REAL(8)` is idealised as ℝ (single-precision literals such as `1.E-08` as the decimal they denote);
`none` stands for reading a table outside its bounds.  The 96-point angular mesh (F:187-243) is a parameter `rule`.  The loop
functions of two-pion exchange (F:1834-3053) are a parameter `prof`: only what they depend on is modelled. -/
noncomputable section
namespace TicTac

/-- `chp_chn_type`, F:81-84. -/
structure Chn where
  S : Int
  J : Int
  T : Int
  tz : Int
  coup : Bool

/-- The loop of `chp_legendre_polynomials`, F:166-171 with `m = 0`: the pair `(pmm, pmmp1)` after `ll = 2, …, n + 1`. -/
def chpLegLoop (x : ℝ) : Nat → ℝ × ℝ
  | 0 => (1, x * (2 * 0 + 1) * 1)
  | n + 1 =>
    let s := chpLegLoop x n
    let ll : ℝ := (n : ℝ) + 2
    (s.2, (x * (2 * ll - 1) * s.2 - (ll + 0 - 1) * s.1) / (ll - 0))

/-- `chp_legendre_polynomials(l, 0, x)`, F:125-177. -/
def chpLegendre (l : Nat) (x : ℝ) : ℝ :=
  if |x| > 1 then 0
  else if l = 0 then 1
  else (chpLegLoop x (l - 1)).2

/-- `JMAX = maximum_angular_momentum`, F:1149: the last column of the tables `legP` and `zl` (F:532-534). -/
def chpJmax : Int := 40

/-- `pwd_integral`, F:1118-1133.  `W` gives the value of the amplitude at the cosine of a mesh point. -/
def pwdIntegral (rule : List (ℝ × ℝ)) (W : ℝ → ℝ) (l : Nat) (j : Int) : Option ℝ :=
  if j < 0 then some 0
  else if chpJmax < j then none
  else some (Real.pi * (rule.map fun xw => W xw.1 * xw.1 ^ l * chpLegendre j.toNat xw.1 * xw.2).sum)

/-- `pwd_c`, F:561-598. -/
def pwdC (I : Nat → Int → Option ℝ) (c : Chn) (POT : Six) : Option Six :=
  if c.coup = false ∧ c.S = 0 then (I 0 c.J).map fun a => POT + ![2 * a, 0, 0, 0, 0, 0]
  else if c.coup = false ∧ c.S = 1 then (I 0 c.J).map fun a => POT + ![0, 2 * a, 0, 0, 0, 0]
  else if c.coup then
    (I 0 (c.J + 1)).bind fun a =>
      if c.J = 0 then some (POT + ![0, 0, 2 * a, 0, 0, 0])
      else (I 0 (c.J - 1)).map fun b => POT + ![0, 0, 2 * a, 2 * b, 0, 0]
  else some POT

/-- `pwd_s`, F:645-676. -/
def pwdS (I : Nat → Int → Option ℝ) (c : Chn) (POT : Six) : Option Six :=
  if c.coup = false ∧ c.S = 0 then (I 0 c.J).map fun a => POT + ![-(6 * a), 0, 0, 0, 0, 0]
  else if c.coup = false ∧ c.S = 1 then (I 0 c.J).map fun a => POT + ![0, 2 * a, 0, 0, 0, 0]
  else if c.coup then
    (I 0 (c.J + 1)).bind fun a =>
      if c.J = 0 then some (POT + ![0, 0, 2 * a, 0, 0, 0])
      else (I 0 (c.J - 1)).map fun b => POT + ![0, 0, 2 * a, 2 * b, 0, 0]
  else some POT

/-- `pwd_LS`, F:711-757; `pp = pfinal`, `p = pinit`. -/
def pwdLS (I : Nat → Int → Option ℝ) (c : Chn) (pp p : ℝ) (POT : Six) : Option Six :=
  let rj : ℝ := c.J
  let jj : ℝ := 2 * rj + 1
  if c.coup = false ∧ c.S = 0 then some POT
  else if c.coup = false ∧ c.S = 1 then
    (I 0 (c.J + 1)).bind fun a => (I 0 (c.J - 1)).map fun b => POT + ![0, 2 * pp * p * (a - b) / jj, 0, 0, 0, 0]
  else if c.coup then
    (I 0 (c.J + 2)).bind fun a => (I 0 c.J).bind fun b =>
      let v3 := 2 * pp * p * (rj + 2) * (a - b) / (2 * rj + 3)
      if c.J = 0 then some (POT + ![0, 0, v3, 0, 0, 0])
      else (I 0 (c.J - 2)).map fun d => POT + ![0, 0, v3, 2 * pp * p * (rj - 1) * (d - b) / (2 * rj - 1), 0, 0]
  else some POT

/-- `pwd_sigL`, F:806-857. -/
def pwdSigL (I : Nat → Int → Option ℝ) (c : Chn) (pp p : ℝ) (POT : Six) : Option Six :=
  let rj : ℝ := c.J
  let jj : ℝ := 2 * rj + 1
  let jj1 : ℝ := rj * (rj + 1)
  let pp2 := pp * pp
  let p2 := p * p
  if c.coup = false ∧ c.S = 0 then
    (I 2 c.J).bind fun a => (I 0 c.J).map fun b => POT + ![2 * pp2 * p2 * (a - b), 0, 0, 0, 0, 0]
  else if c.coup = false ∧ c.S = 1 then
    (I 0 c.J).bind fun a => (I 1 (c.J + 1)).bind fun b => (I 1 (c.J - 1)).map fun d =>
      POT + ![0, 2 * pp2 * p2 * (-1 * a + ((rj - 1) * b + (rj + 2) * d) / jj), 0, 0, 0, 0]
  else if c.coup then
    (I 2 (c.J + 1)).bind fun a => (I 0 (c.J + 1)).bind fun b => (I 1 c.J).bind fun d =>
      let v3 := 2 * pp2 * p2 * (-1 * a + ((2 * rj + 3) * b - 2 * d) / jj)
      if c.J = 0 then some (POT + ![0, 0, v3, 0, 0, 0])
      else (I 2 (c.J - 1)).bind fun e => (I 0 (c.J - 1)).map fun f =>
        let v4 := 2 * pp2 * p2 * (-1 * e + ((2 * rj - 1) * f + 2 * d) / jj)
        let v5 := -(Real.sqrt jj1 * 4 * pp2 * p2 * (b - f) / jj ^ 2)
        let v6 := -(Real.sqrt jj1 * 4 * pp2 * p2 * (b - f) / jj ^ 2)
        POT + ![0, 0, v3, v4, v5, v6]
  else some POT

/-- `pwd_T`, F:905-955. -/
def pwdT (I : Nat → Int → Option ℝ) (c : Chn) (pp p : ℝ) (POT : Six) : Option Six :=
  let rj : ℝ := c.J
  let jj : ℝ := 2 * rj + 1
  let jj1 : ℝ := rj * (rj + 1)
  let pp2 := pp * pp
  let p2 := p * p
  if c.coup = false ∧ c.S = 0 then
    (I 0 c.J).bind fun a => (I 1 c.J).map fun b => POT + ![2 * (-(pp2 + p2) * a + 2 * pp * p * b), 0, 0, 0, 0, 0]
  else if c.coup = false ∧ c.S = 1 then
    (I 0 c.J).bind fun a => (I 0 (c.J + 1)).bind fun b => (I 0 (c.J - 1)).map fun d =>
      POT + ![0, 2 * ((pp2 + p2) * a - 2 * pp * p * (rj * b + (rj + 1) * d) / jj), 0, 0, 0, 0]
  else if c.coup then
    (I 0 (c.J + 1)).bind fun a => (I 0 c.J).bind fun b =>
      let v3 := 2 * (-(pp2 + p2) * a + 2 * pp * p * b) / jj
      if c.J = 0 then some (POT + ![0, 0, v3, 0, 0, 0])
      else (I 0 (c.J - 1)).map fun d =>
        let v4 := 2 * ((pp2 + p2) * d - 2 * pp * p * b) / jj
        let v5 := -(4 * Real.sqrt jj1 * (p2 * a + pp2 * d - 2 * pp * p * b) / jj)
        let v6 := -(4 * Real.sqrt jj1 * (p2 * d + pp2 * a - 2 * pp * p * b) / jj)
        POT + ![0, 0, v3, v4, v5, v6]
  else some POT

/-- What the loop functions of two-pion exchange may read: masses, `gA`, `fpi`, the pion-nucleon constants and the renormalisation
(`none` = "DR", `some Λ` = "SF" with that cutoff), F:3545-3634. -/
structure PionData where
  mnuc : Int → ℝ
  mpi : Int → ℝ
  gA : ℝ
  fpi : ℝ
  alpha : ℝ
  c1 : ℝ
  c2 : ℝ
  c3 : ℝ
  c4 : ℝ
  d12 : ℝ
  d3 : ℝ
  d5 : ℝ
  d1415 : ℝ
  sfr : Option ℝ
  rMode : Int
  loopInt : Bool

/-- The two-pion contributions `chiral_2PE_*`, F:1602-1706. -/
inductive TwoPE | l0 | ld | lr | ldd | ldr | lrr | l2
deriving DecidableEq, Repr

/-- The amplitudes `Vc, Wc, Vs, Ws, VLS, WLS, VT, WT, VsigL`, F:1436-1447. -/
inductive Amp | Vc | Wc | Vs | Ws | VLS | WLS | VT | WT | VsigL
deriving DecidableEq, Repr

/-- The module variables `chp` reads, as left by a preset routine. -/
structure ChpSet where
  pion : PionData
  lambda : ℝ
  n1PE : ℝ
  n2PE : ℝ
  ctCIB : Bool
  ct : Bool
  nloC : Bool
  n3loD : Bool
  onePE : Bool
  onePECIB : Bool
  gamma : Bool
  relcorr : Bool
  loops : List TwoPE
  csbMass : Bool
  minRel : Bool
  kamada : Bool
  CLO : Nat → ℝ
  CIB : Int → Nat → ℝ
  CNLO : Nat → ℝ
  DN3LO : Nat → ℝ
  CLOn : Nat → ℝ
  CNLOn : Nat → ℝ
  DN3LOn : Nat → ℝ

/-- The loop functions: contribution, amplitude, nucleon mass index, `q²`, `k²`. -/
abbrev Profiles := PionData → TwoPE → Amp → Int → ℝ → ℝ → ℝ

/-- `freg`, F:3255-3268. -/
def freg (lambda pfinal pinit n : ℝ) : ℝ := Real.exp (-((pfinal / lambda) ^ (2 * n) + (pinit / lambda) ^ (2 * n)))

/-- `cm_energy`, F:3240-3248. -/
def cmEnergy (s : ChpSet) (p : ℝ) (tz : Int) : ℝ := Real.sqrt (s.pion.mnuc tz * s.pion.mnuc tz + p * p)

/-- `chp_minus_power`, F:251-265. -/
def minusPower (n : Int) : ℝ := if n.natAbs % 2 = 0 then 1 else -1

/-- `iso`, F:3588-3589 (an array with bounds 0:1). -/
def chpIso (T : Int) : ℝ := if T = 0 then -3 else 1

/-- `chp_one_pion_exchange`, F:1808-1821; `const(2)`, F:3594. -/
def onePion (s : ChpSet) (q2 relcorr : ℝ) (impi : Int) : ℝ :=
  let const2 := s.pion.gA * s.pion.gA / (4 * (s.pion.fpi * s.pion.fpi));
  -1 * const2 / (q2 + s.pion.mpi impi * s.pion.mpi impi) * relcorr

/-- `chp_one_pion_exchange_gamma`, F:1824-1834. -/
def onePionGamma (s : ChpSet) (q2 : ℝ) (impi : Int) : ℝ :=
  let mpi2 := s.pion.mpi impi * s.pion.mpi impi
  let b2 := q2 / mpi2;
  -(1 / 4 * s.pion.alpha * (s.pion.gA * s.pion.gA) / (Real.pi * (s.pion.fpi * s.pion.fpi) * mpi2)) *
    (-((1 - b2) ^ 2 / (2 * b2 ^ 2 * (1 + b2))) * Real.log (b2 + 1) + 1 / (2 * b2))

/-- The amplitude `WT` of one-pion exchange, F:1524-1557. -/
def onePionWT (s : ChpSet) (c : Chn) (q2 relcorr : ℝ) : ℝ :=
  if s.onePECIB then
    if c.tz = 0 then
      let w := -1 * onePion s q2 relcorr 0 + minusPower (c.T + 1) * 2 * onePion s q2 relcorr 1
      if s.gamma then w + minusPower (c.T + 1) * 2 * onePionGamma s q2 1 else w
    else onePion s q2 relcorr 0
  else chpIso c.T * onePion s q2 relcorr 2

/-- `chp_LO_contact_terms`, F:3054-3074, called with the momenta exchanged (F:1501): `pp`, `p` are its `pfinal`, `pinit`. -/
def loContact (s : ChpSet) (c : Chn) (pp p : ℝ) (POT : Six) : Six :=
  if c.J = 0 ∧ c.S = 0 ∧ c.coup = false then POT + ![s.CLO 1 * freg s.lambda pp p (s.CLOn 1), 0, 0, 0, 0, 0]
  else if c.J = 1 ∧ c.S = 1 ∧ c.coup = true then POT + ![0, 0, 0, s.CLO 2 * freg s.lambda pp p (s.CLOn 2), 0, 0]
  else POT

/-- `chp_CIB_LO_contact_terms`, F:3076-3098. -/
def loContactCIB (s : ChpSet) (c : Chn) (pp p : ℝ) (POT : Six) : Six :=
  if c.J = 0 ∧ c.S = 0 ∧ c.coup = false then POT + ![s.CIB c.tz 1 * freg s.lambda pp p (s.CLOn 1), 0, 0, 0, 0, 0]
  else if c.J = 1 ∧ c.S = 1 ∧ c.coup = true then POT + ![0, 0, 0, s.CIB c.tz 2 * freg s.lambda pp p (s.CLOn 2), 0, 0]
  else POT

/-- `chp_NLO_contact_terms`, F:3100-3140. -/
def nloContact (s : ChpSet) (c : Chn) (pp p : ℝ) (POT : Six) : Six :=
  let ppp := p * pp
  let f := fun i => freg s.lambda pp p (s.CNLOn i)
  if c.J = 0 ∧ c.S = 0 ∧ c.coup = false then POT + ![s.CNLO 1 * (p * p + pp * pp) * f 1, 0, 0, 0, 0, 0]
  else if c.J = 0 ∧ c.S = 1 ∧ c.coup = true then POT + ![0, 0, s.CNLO 2 * ppp * f 2, 0, 0, 0]
  else if c.J = 1 ∧ c.S = 0 ∧ c.coup = false then POT + ![s.CNLO 3 * ppp * f 3, 0, 0, 0, 0, 0]
  else if c.J = 1 ∧ c.S = 1 ∧ c.coup = false then POT + ![0, s.CNLO 4 * ppp * f 4, 0, 0, 0, 0]
  else if c.J = 1 ∧ c.S = 1 ∧ c.coup = true then
    POT + ![0, 0, 0, s.CNLO 5 * (p * p + pp * pp) * f 5, s.CNLO 6 * p * p * f 6, s.CNLO 6 * pp * pp * f 6]
  else if c.J = 2 ∧ c.S = 1 ∧ c.coup = true then POT + ![0, 0, 0, s.CNLO 7 * p * pp * f 7, 0, 0]
  else POT

/-- `chp_N3LO_contact_terms`, F:3142-3236; the tests exclude each other, so the sequence of `IF`s is written as `else if`. -/
def n3loContact (s : ChpSet) (c : Chn) (pp p : ℝ) (POT : Six) : Six :=
  let p2 := p * p
  let pp2 := pp * pp
  let ppp := p * pp
  let D := s.DN3LO
  let f := fun i => freg s.lambda pp p (s.DN3LOn i)
  if c.J = 0 ∧ c.S = 0 ∧ c.coup = false then
    POT + ![D 1 * (p2 * p2 + pp2 * pp2) * f 1 + D 2 * (p2 * pp2) * f 2, 0, 0, 0, 0, 0]
  else if c.J = 0 ∧ c.S = 1 ∧ c.coup = true then POT + ![0, 0, D 3 * ppp * (p2 + pp2) * f 3, 0, 0, 0]
  else if c.J = 1 ∧ c.S = 0 ∧ c.coup = false then POT + ![D 4 * ppp * (p2 + pp2) * f 4, 0, 0, 0, 0, 0]
  else if c.J = 1 ∧ c.S = 1 ∧ c.coup = false then POT + ![0, D 5 * ppp * (p2 + pp2) * f 5, 0, 0, 0, 0]
  else if c.J = 1 ∧ c.S = 1 ∧ c.coup = true then
    POT + ![0, 0, D 8 * (p2 * pp2) * f 8, D 6 * (p2 * p2 + pp2 * pp2) * f 6 + D 7 * (p2 * pp2) * f 7,
      D 9 * (p2 * p2) * f 9 + D 10 * (p2 * pp2) * f 10, D 9 * (pp2 * pp2) * f 9 + D 10 * (p2 * pp2) * f 10]
  else if c.J = 2 ∧ c.S = 0 ∧ c.coup = false then POT + ![D 11 * (p2 * pp2) * f 11, 0, 0, 0, 0, 0]
  else if c.J = 2 ∧ c.S = 1 ∧ c.coup = false then POT + ![0, D 12 * (p2 * pp2) * f 12, 0, 0, 0, 0]
  else if c.J = 2 ∧ c.S = 1 ∧ c.coup = true then
    POT + ![0, 0, 0, D 13 * ppp * (p2 + pp2) * f 13, D 14 * ppp * p2 * f 14, D 14 * ppp * pp2 * f 14]
  else if c.J = 3 ∧ c.S = 1 ∧ c.coup = true then
    POT + ![0, 0, 0, (if s.DN3LOn 15 < 0 then
      D 15 * (p2 * pp2) * (1 / 2) * (freg s.lambda pp p 2 + freg s.lambda pp p 3) else D 15 * (p2 * pp2) * f 15), 0, 0]
  else POT

/-- The contact terms, F:1499-1515 (the calls exchange the momenta). -/
def contacts (s : ChpSet) (c : Chn) (pfinal pinit : ℝ) : Six :=
  let v : Six := if s.ctCIB then loContactCIB s c pinit pfinal 0 else if s.ct then loContact s c pinit pfinal 0 else 0
  let v := if s.nloC then nloContact s c pinit pfinal v else v
  if s.n3loD then n3loContact s c pinit pfinal v else v

/-- Which amplitudes a contribution has, F:1602-1706 (the `pwd_*_needed` flags set in the same branches agree with it). -/
def hasAmp : TwoPE → Amp → Bool
  | .l0, a => a == .Wc || a == .Vs || a == .VT
  | .ld, a => a == .Vc || a == .WT || a == .Ws
  | .lr, a => a != .VsigL
  | .ldd, a => a == .Vc || a == .WT || a == .Ws
  | .ldr, a => a == .Vc || a == .Wc || a == .VLS || a == .WLS || a == .WT || a == .Ws
  | .lrr, _ => true
  | .l2, a => a == .Vc || a == .Wc || a == .VT || a == .Vs || a == .WT || a == .Ws

/-- The amplitudes multiplied by `iso(T)`, F:1605-1698. -/
def isovector : Amp → Bool
  | .Wc | .Ws | .WLS | .WT => true
  | _ => false

/-- The nucleon mass index of two-pion exchange, F:1490-1496. -/
def imnuc (s : ChpSet) (c : Chn) : Int := if s.csbMass then c.tz else 0

/-- An accumulated amplitude as a function of the cosine, F:1484-1488, 1597-1706.  `k2` is set only for the `rr` terms. -/
def twoPionAmp (prof : Profiles) (s : ChpSet) (c : Chn) (pfinal pinit : ℝ) (a : Amp) (z : ℝ) : ℝ :=
  let q2 := pfinal * pfinal + pinit * pinit - 2 * pinit * pfinal * z
  let k2 := 1 / 4 * (pfinal * pfinal + pinit * pinit) + 1 / 2 * pinit * pfinal * z
  (s.loops.map fun t => if hasAmp t a then
    (if isovector a then chpIso c.T else 1) * prof s.pion t a (imnuc s c) q2 (if t = .lrr then k2 else 0) else 0).sum

/-- A `CALL` made only if the amplitude is needed. -/
def projectIf (s : ChpSet) (a : Amp) (f : Six → Option Six) (POT : Six) : Option Six :=
  if s.loops.any (hasAmp · a) then f POT else some POT

/-- `v_2PE`, F:1708-1730. -/
def twoPion (rule : List (ℝ × ℝ)) (prof : Profiles) (s : ChpSet) (c : Chn) (pfinal pinit : ℝ) : Option Six :=
  let I := fun a => pwdIntegral rule (twoPionAmp prof s c pfinal pinit a)
  (projectIf s .Vc (pwdC (I .Vc) c) 0).bind fun v =>
  (projectIf s .Wc (pwdC (I .Wc) c) v).bind fun v =>
  (projectIf s .VLS (pwdLS (I .VLS) c pfinal pinit) v).bind fun v =>
  (projectIf s .WLS (pwdLS (I .WLS) c pfinal pinit) v).bind fun v =>
  (projectIf s .VT (pwdT (I .VT) c pfinal pinit) v).bind fun v =>
  (projectIf s .Vs (pwdS (I .Vs) c) v).bind fun v =>
  (projectIf s .WT (pwdT (I .WT) c pfinal pinit) v).bind fun v =>
  (projectIf s .Ws (pwdS (I .Ws) c) v).bind fun v =>
  projectIf s .VsigL (pwdSigL (I .VsigL) c pfinal pinit) v

/-- `v_1PE`, F:1517-1561. -/
def onePionPart (rule : List (ℝ × ℝ)) (s : ChpSet) (c : Chn) (pfinal pinit : ℝ) : Option Six :=
  if s.onePE then
    let relcorr := if s.relcorr then 1 - (pfinal * pfinal + pinit * pinit) / (2 * s.pion.mnuc 0 ^ 2) else 1
    pwdT (pwdIntegral rule fun z => onePionWT s c (pfinal * pfinal + pinit * pinit - 2 * pinit * pfinal * z) relcorr) c pfinal pinit 0
  else some 0

/-- `MR_factor`, F:1734-1748 (the program stops if both transformations are switched on; no preset does). -/
def mrFactor (s : ChpSet) (tz : Int) (pfinal pinit : ℝ) : ℝ :=
  if s.kamada then
    Real.sqrt ((1 + pinit ^ 2 / (2 * s.pion.mnuc tz ^ 2)) * Real.sqrt (1 + (pinit ^ 2) ^ 2 / (4 * s.pion.mnuc tz ^ 2))) *
      Real.sqrt ((1 + pfinal ^ 2 / (2 * s.pion.mnuc tz ^ 2)) * Real.sqrt (1 + pfinal ^ 2 / (4 * s.pion.mnuc tz ^ 2)))
  else if s.minRel then s.pion.mnuc tz / Real.sqrt (cmEnergy s pinit tz * cmEnergy s pfinal tz)
  else 1

/-- `chp`, F:1397-1759. -/
def chp (rule : List (ℝ × ℝ)) (prof : Profiles) (s : ChpSet) (pout pin : ℝ) (c : Chn) : Option Six :=
  if c.S = 0 ∧ c.coup = true then some 0
  else if pin > 2 * s.lambda ∨ pout > 2 * s.lambda then some 0
  else
    let const1 : ℝ := 1 / (2 * Real.pi) ^ 3
    let MR := mrFactor s c.tz pout pin
    (onePionPart rule s c pout pin).bind fun v1 =>
    (twoPion rule prof s c pout pin).map fun v2 =>
      fun k => v1 k * const1 * MR * freg s.lambda pout pin s.n1PE + v2 k * const1 * MR * freg s.lambda pout pin s.n2PE
        + contacts s c pout pin k * const1 * MR

/-- `V` of the chiral classes: chiral_twobody.cpp:165-218, chiral_N2LOopt.cpp:18-43, chiral_Idaho_N3LO.cpp:18-43. -/
def chiralV (rule : List (ℝ × ℝ)) (prof : Profiles) (s : ChpSet) (qi qo : ℝ) (coupled : Bool) (S J T Tz : Int) : Option Six :=
  (chp rule prof s qi qo ⟨S, J, T, tzReverse Tz, coupled⟩).map reorderExternal

/-! ### Presets

`a i` is `parameter_array(i)`.  Every preset starts with `initialize_chiral_potential` (F:3270-3399), which unsets all module
variables, and ends with `chp_set_units_and_derive_constants`, which sets the ones still unset; the result is a function of the
array alone. -/

/-- `chp_set_mass_nucleon` / `chp_set_mass_pion`, F:4022-4036 for the average with index 2. -/
def massTable (minus zero plus : ℝ) : Int → ℝ := fun i =>
  if i = -1 then minus else if i = 0 then zero else if i = 1 then plus else (plus + minus + zero) / 3

/-- The masses and couplings shared by the `IS_*` presets, S:589-604, 738-753, 906-921, 1105-1120. -/
def isPion : PionData where
  mnuc := massTable 938.272046 938.918267117927371 939.565379
  mpi := massTable 139.57018 134.9766 139.57018
  gA := 1.289
  fpi := 92.2
  alpha := 7.297352569e-3
  c1 := 0
  c2 := 0
  c3 := 0
  c4 := 0
  d12 := 0
  d3 := 0
  d5 := 0
  d1415 := 0
  sfr := some 700
  rMode := 0
  loopInt := false

/-- The settings shared by the `IS_*` presets. -/
def isBase : ChpSet where
  pion := isPion
  lambda := 450
  n1PE := 3
  n2PE := 3
  ctCIB := true
  ct := true
  nloC := true
  n3loD := false
  onePE := true
  onePECIB := true
  gamma := false
  relcorr := false
  loops := []
  csbMass := false
  minRel := true
  kamada := false
  CLO := fun _ => 0
  CIB := fun _ _ => 0
  CNLO := fun _ => 0
  DN3LO := fun _ => 0
  CLOn := fun _ => 3
  CNLOn := fun _ => 3
  DN3LOn := fun _ => 3

/-- `chp_set_CIB_LO_contact` for the three charges, F:4256-4266: index −1 is pp, 0 np, +1 nn. -/
def cibTable (pp np nn s1 : ℝ) : Int → Nat → ℝ := fun tz i =>
  if i = 2 then s1 * 0.01
  else if tz = -1 then pp * 0.01
  else if tz = 0 then np * 0.01
  else nn * 0.01

/-- `chp_set_NLO_contact`, F:4339-4351: the seven constants from column `k` on, in the order 1S0, 3P0, 1P1, 3P1, 3S1, 3S1-3D1, 3P2. -/
def nloTable (a : Nat → ℝ) (k : Nat) : Nat → ℝ := fun i => if 1 ≤ i ∧ i ≤ 7 then a (k + i - 1) * 1e-8 else 0

/-- `chp_preset_ispot_lo`, S:574-693. -/
def presetLO (a : Nat → ℝ) : ChpSet :=
  { isBase with
    ctCIB := false
    nloC := false
    onePECIB := false
    CLO := fun i => if i = 1 then a 0 * 0.01 else a 1 * 0.01 }

/-- `chp_preset_ispot_nlo`, S:699-852. -/
def presetNLO (a : Nat → ℝ) : ChpSet :=
  { isBase with
    loops := [.l0]
    CIB := cibTable (a 2) (a 1) (a 0) (a 3)
    CNLO := nloTable a 4 }

/-- `chp_preset_ispot_n2lo`, S:858-1021. -/
def presetN2LO (a : Nat → ℝ) : ChpSet :=
  { isBase with
    pion := { isPion with c1 := a 0 * 1e-3, c3 := a 1 * 1e-3, c4 := a 2 * 1e-3 }
    loops := [.l0, .ld]
    CIB := cibTable (a 5) (a 4) (a 3) (a 6)
    CNLO := nloTable a 7 }

/-- `chp_preset_ispot_n3lo`, S:1023-1250; the columns of the N3LO contacts, S:1083-1099, with the redundant ones zero. -/
def presetN3LO (a : Nat → ℝ) : ChpSet :=
  { isBase with
    pion := { isPion with c1 := a 0 * 1e-3, c2 := a 1 * 1e-3, c3 := a 2 * 1e-3, c4 := a 3 * 1e-3, d12 := a 4 * 1e-6,
                          d3 := a 5 * 1e-6, d5 := a 6 * 1e-6, d1415 := a 7 * 1e-6, rMode := 202, loopInt := true }
    n3loD := true
    loops := [.l0, .ld, .lr, .ldd, .l2]
    CIB := cibTable (a 10) (a 9) (a 8) (a 13)
    CNLO := fun i => (match i with
      | 1 => a 11 | 2 => a 19 | 3 => a 26 | 4 => a 22 | 5 => a 14 | 6 => a 15 | 7 => a 23 | _ => 0) * 1e-8
    DN3LO := fun i => (match i with
      | 1 => 0 | 2 => a 12 | 3 => a 20 | 4 => a 27 | 5 => a 21 | 6 => 0 | 7 => a 16 | 8 => a 18 | 9 => 0 | 10 => a 17
      | 11 => a 28 | 12 => a 29 | 13 => a 24 | 14 => a 25 | 15 => a 30 | _ => 0) * 1e-14 }

/-- The masses of `N2LOopt` (S:203-216); `Idaho_N3LO` (S:429-440) changes two of them. -/
def emPion : PionData :=
  { isPion with
    mnuc := massTable 938.272 938.9184 939.5653
    mpi := massTable 139.5702 134.9766 139.5702
    fpi := 92.4
    alpha := 7.2973525698e-3
    rMode := 201 }

/-- `chp_preset_NNLOopt`, S:152-324. -/
def presetN2LOopt (a : Nat → ℝ) : ChpSet :=
  { isBase with
    pion := { emPion with gA := a 11, c1 := a 12 * 1e-3, c3 := a 13 * 1e-3, c4 := a 14 * 1e-3 }
    lambda := 500
    loops := [.l0, .ld, .lr]
    csbMass := true
    CIB := cibTable (a 0) (a 1) (a 2) (a 3)
    CNLO := nloTable a 4 }

/-- `chp_preset_Idaho_N3LO`, S:330-568; the regulator powers of the contacts, S:497-521. -/
def presetIdaho (a : Nat → ℝ) : ChpSet :=
  { isBase with
    pion := { emPion with mnuc := massTable 938.272 938.918204640625618 939.5653, alpha := 7.29679570071830198e-3, gA := a 26, c1 := a 27 * 1e-3, c2 := a 28 * 1e-3, c3 := a 29 * 1e-3, c4 := a 30 * 1e-3,
                          d12 := a 31 * 1e-6, d3 := a 32 * 1e-6, d5 := a 33 * 1e-6, d1415 := a 34 * 1e-6, sfr := none }
    lambda := 500
    n1PE := 4
    n2PE := 2
    n3loD := true
    gamma := true
    loops := [.l0, .ld, .lr, .ldd, .ldr, .lrr, .l2]
    csbMass := true
    CIB := cibTable (a 0) (a 1) (a 2) (a 3)
    CNLO := nloTable a 4
    DN3LO := fun i => if 1 ≤ i ∧ i ≤ 15 then a (10 + i) * 1e-14 else 0
    CNLOn := fun _ => 2
    DN3LOn := fun i => match i with | 3 => 3 | 5 => 4 | 11 => 4 | 14 => 4 | 15 => -1 | _ => 2 }

/-- The models that use the Fortran code. -/
inductive ChiralModel | isLO | isNLO | isN2LO | isN3LO | n2loopt | idaho
deriving DecidableEq, Repr

/-- `update_parameters` of chiral_twobody.cpp:43-62, chiral_N2LOopt.cpp:11-13, chiral_Idaho_N3LO.cpp:11-13. -/
def preset : ChiralModel → (Nat → ℝ) → ChpSet
  | .isLO => presetLO
  | .isNLO => presetNLO
  | .isN2LO => presetN2LO
  | .isN3LO => presetN3LO
  | .n2loopt => presetN2LOopt
  | .idaho => presetIdaho

/-- The length of the array the model copies, chiral_twobody.cpp:11-26, 46-58, and of `parameter_array` in the presets. -/
def ChiralModel.columns : ChiralModel → Nat
  | .isLO => 2
  | .isNLO => 13
  | .isN2LO => 16
  | .isN3LO => 31
  | .n2loopt => 15
  | .idaho => 35

end TicTac
end
