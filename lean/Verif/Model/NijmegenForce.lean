import Verif.Model.Nijmegen
import Mathlib.Analysis.SpecialFunctions.Log.Basic
/-! The exchange parts of the Nijmegen potential: VMOM, AMFACS, NYMPAR, PHSRDL, NYMCOP, PSVECT, VECTOR, SCALAR and DIFRAC of
Interactions/nijmegen/pnijm.f (P).  `IDPAR` = 1, `NONREL` false, `NLOC` = 1 and `NQ12` = 1, as nijmegen_interface.f90:32, P:251, P:623-625 and P:612 fix them.
Arithmetic is exact; the numbers `PI` and `SR3` of the DATA statements are π and √3. -/
noncomputable section
namespace TicTac

/-- `TYPE`, P:253-255 (`'NP'` does not occur). -/
inductive NijType | pp | pn | nn
deriving DecidableEq

/-- `APP1S0`, P:1046-1052, in storage order. -/
def nijApp1s0 : List ℚ :=
  [0.2702427, 0.6723103, 3.697581, 0.8334762, 2.751792,
   0.2871299, 2.849628, 0.05473693, 4.846532, 0.443722,
   0.355, 1, 0, 0.8389363, 257.9522,
   -23, 37.5, 0, 37.9, 0,
   0, 0, 827.5346, 0, 760,
   0.1690008, 474.4299, 0.6130152, 1021.139, 640]
/-- `ANP1S0`, P:1053-1059, in storage order. -/
def nijAnp1s0 : List ℚ :=
  [0.2702427, 0.6723103, 3.423514, 0.8334762, 2.751792,
   0.2871299, 2.849628, 0.05473693, 4.942984, 0.443722,
   0.355, 1, 0, 0.8389363, 257.9522,
   -23, 37.5, 0, 37.9, 0,
   0, 0, 827.5346, 0, 760,
   0.1690008, 487.8179, 0.6130152, 1021.139, 640]
/-- `PAR1P1`, P:1060-1066, in storage order. -/
def nijPar1p1 : List ℚ :=
  [0.2702427, 0.6723103, 4.728635, 0.8334762, 2.751792,
   0.2871299, 3.290519, 0.05473693, 4.784616, 0.443722,
   0.355, 1, 0, 0.8389363, 257.9522,
   -23, 37.5, 0, 37.9, 0,
   0, 0, 827.5346, 0, 760,
   0.1690008, 487.8179, 0.6130152, 1021.139, 640]
/-- `PAR1D2`, P:1067-1073, in storage order. -/
def nijPar1d2 : List ℚ :=
  [0.2702427, 0.6723103, 4.728635, 0.8334762, 2.751792,
   0.2871299, 0, 0.05473693, 2.348432, 0.443722,
   0.355, 1, 0, 0.8389363, 257.9522,
   -23, 37.5, 0, 37.9, 0,
   0, 0, 827.5346, 0, 760,
   0.1690008, 363.9503, 0.6130152, 1021.139, 640]
/-- `PAR1F3`, P:1074-1080, in storage order. -/
def nijPar1f3 : List ℚ :=
  [0.2702427, 0.6723103, 4.728635, 0.8334762, 2.751792,
   0.2871299, 4.812761, 0.05473693, 6.316315, 0.443722,
   0.355, 1, 0, 0.8389363, 257.9522,
   -23, 37.5, 0, 37.9, 0,
   0, 0, 827.5346, 0, 760,
   0.1690008, 487.8179, 0.6130152, 1021.139, 640]
/-- `PAR1G4`, P:1081-1087, in storage order. -/
def nijPar1g4 : List ℚ :=
  [0.2702427, 0.6723103, 4.728635, 0.8334762, 2.751792,
   0.2871299, 4.142482, 0.05473693, 4.859055, 0.443722,
   0.355, 1, 0, 0.8389363, 257.9522,
   -23, 37.5, 0, 37.9, 0,
   0, 0, 827.5346, 0, 760,
   0.1690008, 487.8179, 0.6130152, 1021.139, 640]
/-- `PAR3P1`, P:1088-1094, in storage order. -/
def nijPar3p1 : List ℚ :=
  [0.2702427, 0.6723103, 0, 0.8334762, 2.751792,
   0.2871299, 2.849628, 0.05473693, 4.980991, 0.443722,
   0.355, 1, 0, 0.8389363, 257.9522,
   -23, 37.5, 0, 37.9, 0,
   0, 0, 827.5346, 0, 760,
   0.1690008, 492.3498, 0.6130152, 1021.139, 640]
/-- `PAR3D2`, P:1095-1101, in storage order. -/
def nijPar3d2 : List ℚ :=
  [0.2702427, 0.6723103, 4.728635, 0.8334762, 2.751792,
   0.2871299, 2.849628, 0.05473693, 5.880449, 0.443722,
   0.355, 1, 0, 0.8389363, 169.3534,
   -23, 37.5, 0, 37.9, 0,
   0, 0, 827.5346, 0, 760,
   0.1690008, 487.8179, 0.6130152, 1021.139, 640]
/-- `PAR3F3`, P:1102-1108, in storage order. -/
def nijPar3f3 : List ℚ :=
  [0.2702427, 0.6723103, 8.961465, 0.8334762, 2.751792,
   0.2871299, 2.849628, 0.05473693, 5.458122, 0.443722,
   0.355, 1, 0, 0.8389363, 257.9522,
   -23, 37.5, 0, 37.9, 0,
   0, 0, 827.5346, 0, 760,
   0.1690008, 487.8179, 0.6130152, 1021.139, 640]
/-- `PAR3G4`, P:1109-1115, in storage order. -/
def nijPar3g4 : List ℚ :=
  [0.2702427, 0.6723103, 4.728635, 0.8334762, 2.751792,
   0.2871299, 2.849628, 0.05473693, 3.201615, 0.443722,
   0.355, 1, 0, 0.8389363, 257.9522,
   -23, 37.5, 0, 37.9, 0,
   0, 0, 827.5346, 0, 760,
   0.1690008, 487.8179, 0.6130152, 1021.139, 640]
/-- `PAR3P0`, P:1116-1122, in storage order. -/
def nijPar3p0 : List ℚ :=
  [0.2702427, 0.6723103, 3.160965, 0.8334762, 2.751792,
   0.2871299, 2.849628, 0.05473693, 3.726932, 0.443722,
   0.355, 1, 0, 0.8389363, 257.9522,
   -23, 37.5, 0, 37.9, 0,
   0, 0, 827.5346, 0, 760,
   0.1690008, 487.8179, 0.6130152, 1021.139, 640]
/-- `PAR3C1`, P:1123-1129, in storage order. -/
def nijPar3c1 : List ℚ :=
  [0.2706937, 2.598577, 2.125742, 0.8334762, 2.751792,
   0, 2.536422, 0.05473693, 4.906761, 0.44371888,
   0.355, 1, 0, 0.8389363, 257.9522,
   -23, 37.5, 0, 37.9, 0,
   884.8614, 646.5221, 0, 699.0612, 760,
   0.1690008, 583.1763, 0.6130152, 1021.139, 640]
/-- `PAR3C2`, P:1130-1136, in storage order. -/
def nijPar3c2 : List ℚ :=
  [0.2702427, 0.6723103, 5.188648, 0.8334762, 3.668014,
   0.1341669, 0, 0.05473693, 3.995761, 0.443722,
   0.355, 1, 0, 0.8389363, 257.9522,
   -23, 37.5, 0, 37.9, 0,
   827.5346, 0, 583.1699, 0, 760,
   0.1690008, 487.8179, 0.6130152, 1021.139, 640]
/-- `PAR3C3`, P:1137-1143, in storage order. -/
def nijPar3c3 : List ℚ :=
  [0.2702427, 0.6723103, 3.877361, 0.8334762, 4.723766,
   0.281108, 0, 0.05473693, 4.818122, 0.443722,
   0.355, 1, 0, 0.8389363, 257.9522,
   -23, 37.5, 0, 37.9, 0,
   0, 0, 827.5346, 0, 760,
   0.1690008, 487.8179, 0.6130152, 1021.139, 640]
/-- `PAR3C4`, P:1144-1150, in storage order. -/
def nijPar3c4 : List ℚ :=
  [0.2702427, 0.6723103, 7.551377, 0.8334762, 2.36092,
   0.2871299, 0, 0.05473693, 4.855317, 0.443722,
   0.355, 1, 0, 0.8389363, 257.9522,
   -23, 37.5, 0, 37.9, 0,
   0, 0, 827.5346, 0, 760,
   0.1690008, 487.8179, 0.6130152, 1021.139, 640]
/-- `PARRST`, P:1151-1157, in storage order. -/
def nijParrst : List ℚ :=
  [0.2702427, 0.6723103, 4.728635, 0.8334762, 2.751792,
   0.2871299, 2.849628, 0.05473693, 4.859055, 0.443722,
   0.355, 1, 0, 0.8389363, 257.9522,
   -23, 37.5, 0, 37.9, 0,
   0, 0, 827.5346, 0, 760,
   0.1690008, 487.8179, 0.6130152, 1021.139, 640]

/-- The table `PHSRDL` copies from, P:1167-1202 (`NONREL` is false). -/
def nijTable (p : PhName) (isign : Int) : List ℚ :=
  if p = ⟨'1', 'S', 0⟩ then (if isign = 1 then nijApp1s0 else nijAnp1s0)
  else if p = ⟨'1', 'P', 1⟩ then nijPar1p1
  else if p = ⟨'1', 'D', 2⟩ then nijPar1d2
  else if p = ⟨'1', 'F', 3⟩ then nijPar1f3
  else if p = ⟨'1', 'G', 4⟩ then nijPar1g4
  else if p = ⟨'3', 'P', 0⟩ then nijPar3p0
  else if p = ⟨'3', 'P', 1⟩ then nijPar3p1
  else if p = ⟨'3', 'D', 2⟩ then nijPar3d2
  else if p = ⟨'3', 'F', 3⟩ then nijPar3f3
  else if p = ⟨'3', 'G', 4⟩ then nijPar3g4
  else if p = ⟨'3', 'C', 1⟩ then nijPar3c1
  else if p = ⟨'3', 'C', 2⟩ then nijPar3c2
  else if p = ⟨'3', 'C', 3⟩ then nijPar3c3
  else if p = ⟨'3', 'C', 4⟩ then nijPar3c4
  else nijParrst

/-- `PAR(I,J) = TABLE(J,I)` of a table stored with its first index fastest. -/
def nijPar (t : List ℚ) (i j : Nat) : ℚ := t.getD ((j - 1) + 5 * (i - 1)) 0

/-- The numbers of PAR as VMOM names them, P:873-923 (`FPI = PAR(1,1)` is commented out). -/
structure NijPars where
  pv1 : ℚ
  alpv : ℚ
  thpv : ℚ
  gro : ℚ
  gv1 : ℚ
  alve : ℚ
  thv : ℚ
  fro : ℚ
  fom : ℚ
  ffi : ℚ
  ga0 : ℚ
  gep : ℚ
  gf0 : ℚ
  rhoc : ℚ
  gpom : ℚ
  ga2d : ℚ
  ampom : ℚ
  ama2d : ℚ
  alamp : ℚ
  alamv : ℚ
  alams : ℚ
  aeps : ℚ
  ame1 : ℚ
  beps : ℚ
  ame2 : ℚ
deriving DecidableEq
def nijPars (t : List ℚ) : NijPars :=
  let alam := nijPar t 5 3
  { pv1 := nijPar t 2 1, alpv := nijPar t 3 1, thpv := nijPar t 4 1,
    gro := nijPar t 1 2, gv1 := nijPar t 2 2, alve := nijPar t 3 2, thv := nijPar t 4 2,
    fro := nijPar t 1 3, fom := nijPar t 2 3, ffi := nijPar t 3 3,
    ga0 := nijPar t 1 4, gep := nijPar t 2 4, gf0 := nijPar t 3 4, rhoc := nijPar t 4 3,
    gpom := nijPar t 1 5, ga2d := nijPar t 2 5, ampom := nijPar t 3 5,
    ama2d := if nijPar t 4 5 = 0 then nijPar t 3 5 else nijPar t 4 5,
    alamp := if nijPar t 5 1 = 0 then alam else nijPar t 5 1,
    alamv := if nijPar t 5 2 = 0 then alam else nijPar t 5 2,
    alams := if nijPar t 5 4 = 0 then alam else nijPar t 5 4,
    aeps := nijPar t 6 1, ame1 := nijPar t 6 2, beps := nijPar t 6 3, ame2 := nijPar t 6 4 }

/-- The numerical functions: `SEX` (`eln`, `ern`, both indexed from 1), `CE1` and `FDEXP`. -/
structure NijNum where
  sex : ℝ → ℝ → ℝ → Nat → Nat → (Nat → ℝ) × (Nat → ℝ)
  ce1 : ℝ → ℝ
  fdexp : ℝ → ℝ

/-- Masses, P:788-830. -/
def protm : ℝ := 938.27231
def neutm : ℝ := 939.56563
def nijAmt : ℝ := 938.27231
def nijAmpv : ℝ := 139.5675
def nijAmpic : ℝ := 139.5675
def nijAmpi : ℝ := 134.9739
def nijAmeta : ℝ := 548.8
def nijAmetp : ℝ := 957.5
def nijAmom : ℝ := 781.95
def nijAmfi : ℝ := 1019.412
def nijAma0c : ℝ := 983.3
def nijAma0 : ℝ := 983.3
def nijAmf0 : ℝ := 975.6
def nijFac : ℝ := 2 * Real.sqrt (protm * neutm) / (protm + neutm)
def nijAwpic : ℝ := nijFac * Real.sqrt (nijAmpic ^ 2 - (neutm - protm) ^ 2)
def nijAwa0c : ℝ := nijFac * Real.sqrt (nijAma0c ^ 2 - (neutm - protm) ^ 2)
def nijAro : ℝ := 0.2655205
def nijBro : ℝ := 0.5607493
def nijAmr1 : ℝ := 645.3772
def nijAmr2 : ℝ := 878.3667
def nijAroc : ℝ := 0.3875515
def nijBroc : ℝ := 0.4508341
def nijAmrc1 : ℝ := 674.1521
def nijAmrc2 : ℝ := 929.9742
def nijAwrc1 : ℝ := nijFac * Real.sqrt (nijAmrc1 ^ 2 - (neutm - protm) ^ 2)
def nijAwrc2 : ℝ := nijFac * Real.sqrt (nijAmrc2 ^ 2 - (neutm - protm) ^ 2)
def nijAvsc1 : ℝ := ((neutm - protm) / nijAmrc1) ^ 2
def nijAvsc2 : ℝ := ((neutm - protm) / nijAmrc2) ^ 2

/-- `AMY`, `AMN` and `ISIGN = I3Y*I3N`, P:838-859. -/
def nijAmy : NijType → ℝ | .pp => protm | .pn => protm | .nn => neutm
def nijAmn : NijType → ℝ | .pp => protm | .pn => neutm | .nn => neutm
def nijIsign : NijType → Int | .pp => 1 * 1 | .pn => 1 * -1 | .nn => -1 * -1

/-- `COMMON/AMCOEF/` of `AMFACS`, P:962-989, as far as it is used. -/
structure AmCoef where
  alf : ℝ
  redm : ℝ
  amypn : ℝ
  amypn2 : ℝ
  amymn2 : ℝ
  ay2pn2 : ℝ
  ay2mn2 : ℝ
  amyn : ℝ
  amyni : ℝ
  amyni2 : ℝ
  aypni2 : ℝ
def amfacs (amy amn : ℝ) : AmCoef :=
  let amyi := 1 / amy
  let amni := 1 / amn
  let redm := amy * amn / (amy + amn)
  { alf := if amy = amn then 1 else 4 * redm / (amy + amn), redm := redm, amypn := amy + amn, amypn2 := (amy + amn) * (amy + amn),
    amymn2 := (amy - amn) * (amy - amn), ay2pn2 := amy * amy + amn * amn, ay2mn2 := amy * amy - amn * amn, amyn := amy * amn, amyni := amyi * amni,
    amyni2 := amyi * amni * (amyi * amni), aypni2 := amyi * amyi + amni * amni }

/-- The couplings of `NYMCOP`, P:1388-1447, of P:882 and of the isospin part P:926-940, as far as they are used (`GFM..` and `ALVM`, `ALGS` are not). -/
structure NijCop where
  fpi2 : ℝ
  feta2 : ℝ
  fetp2 : ℝ
  gro2 : ℝ
  gom2 : ℝ
  gfi2 : ℝ
  fro2 : ℝ
  fom2 : ℝ
  ffi2 : ℝ
  gfpro : ℝ
  gfpom : ℝ
  gfpfi : ℝ
  ga02 : ℝ
  gep2 : ℝ
  gf02 : ℝ
  fpic2 : ℝ
  groc2 : ℝ
  froc2 : ℝ
  gfproc : ℝ
  ga0c2 : ℝ
  fpom2 : ℝ
  fa2d2 : ℝ
  faciso : ℝ
def nijConv : ℝ := Real.pi / 180
def nymcop (N : NijNum) (p : NijPars) (typ : NijType) (iso : Nat) (is1S0 : Bool) : NijCop :=
  let isign : ℝ := nijIsign typ
  let sr3 := Real.sqrt 3
  let fpi := Real.sqrt (0.075 * N.fdexp (-((nijAmpi / p.alamp) ^ 2)))
  let pv8 := fpi * (4 * p.alpv - 1) / sr3
  let feta := Real.cos (p.thpv * nijConv) * pv8 - Real.sin (p.thpv * nijConv) * p.pv1
  let fetp := Real.sin (p.thpv * nijConv) * pv8 + Real.cos (p.thpv * nijConv) * p.pv1
  let gv8 := p.gro * (4 * p.alve - 1) / sr3
  let gfi := Real.cos (p.thv * nijConv) * gv8 - Real.sin (p.thv * nijConv) * p.gv1
  let gom := Real.sin (p.thv * nijConv) * gv8 + Real.cos (p.thv * nijConv) * p.gv1
  let faciso : ℝ := 4 * iso - 2
  let extra : ℝ := if is1S0 = true ∧ typ = .pn then 1 + p.rhoc else 1
  { fpi2 := fpi * fpi / (nijAmpv * nijAmpv) * isign, feta2 := feta * feta / (nijAmpv * nijAmpv), fetp2 := fetp * fetp / (nijAmpv * nijAmpv),
    gro2 := p.gro * p.gro * isign, gom2 := gom * gom, gfi2 := gfi * gfi,
    fro2 := p.fro * p.fro / (4 * nijAmt * nijAmt) * isign, fom2 := p.fom * p.fom / (4 * nijAmt * nijAmt), ffi2 := p.ffi * p.ffi / (4 * nijAmt * nijAmt),
    gfpro := (p.gro * p.fro + p.fro * p.gro) / (2 * nijAmt) * isign, gfpom := (gom * p.fom + p.fom * gom) / (2 * nijAmt), gfpfi := (gfi * p.ffi + p.ffi * gfi) / (2 * nijAmt),
    ga02 := p.ga0 * p.ga0 * isign, gep2 := p.gep * p.gep, gf02 := p.gf0 * p.gf0,
    fpic2 := faciso * fpi * fpi / (nijAmpv * nijAmpv), groc2 := faciso * p.gro * p.gro * extra, froc2 := faciso * p.fro * p.fro / (4 * nijAmt * nijAmt) * extra,
    gfproc := faciso * (p.gro * p.fro + p.fro * p.gro) / (2 * nijAmt), ga0c2 := faciso * p.ga0 * p.ga0,
    fpom2 := (p.gpom / nijAmt) ^ 2, fa2d2 := (p.ga2d / nijAmt) ^ 2, faciso := faciso }

/-- The arrays `U`, `R`, `S`, `G` of the exchange routines; entries below zero keep the zeros of their DATA statements. -/
structure NijArr where
  u : Int → ℝ
  r : Int → ℝ
  s : Int → ℝ
  g : Int → ℝ

/-- The loops over `K` in PSVECT, VECTOR and SCALAR (P:1504-1507, 1542-1545, 1656-1666, 1771-1781, 1898-1906, 1953-1961). -/
def yukArr (N : NijNum) (eln ern : Nat → ℝ) (qipf2 ames2 alam2 : ℝ) : NijArr where
  u k := if k < 0 then 0 else eln (k.toNat + 1)
  r k := if k < 0 then 0 else ern (k.toNat + 1)
  s k := if k < 0 then 0 else if k = 0 then ern 2 else (k.toNat * ern k.toNat + (k.toNat + 1) * ern (k.toNat + 2)) / (2 * k.toNat + 1)
  g k := if k < 0 then 0 else if k = 0 then eln 2 - eln 1 - N.fdexp (-(qipf2 / alam2)) * N.ce1 ((qipf2 + ames2) / alam2)
    else (eln (k.toNat + 2) - eln k.toNat) / (2 * k.toNat + 1)

/-- The loops over `K` in DIFRAC, P:2040-2047 and P:2094-2101. -/
def difArr (N : NijNum) (ern : Nat → ℝ) (qipf2 qiqf ames2 : ℝ) : NijArr where
  u _ := 0
  r k := if k < 0 then 0 else ern (k.toNat + 1)
  s k := if k < 0 then 0 else if k = 0 then ern 2 else (k.toNat * ern k.toNat + (k.toNat + 1) * ern (k.toNat + 2)) / (2 * k.toNat + 1)
  g k := if k < 0 then 0 else if k = 0 then ern 2 - ern 1 - 2 * N.fdexp (-(qipf2 / 4 / ames2)) * ames2 / qiqf
    else (ern (k.toNat + 2) - ern k.toNat) / (2 * k.toNat + 1)

/-- The coefficients `X..`, `Y..`, `Z..` of the routines (zero where a routine has none). -/
structure NijCoef where
  xc : ℝ := 0
  yc : ℝ := 0
  zc : ℝ := 0
  xs : ℝ := 0
  ys : ℝ := 0
  zs : ℝ := 0
  xt : ℝ := 0
  yt : ℝ := 0
  xls : ℝ := 0
  yls : ℝ := 0
  xq : ℝ := 0
  xnl : ℝ := 0

/-- What one exchange adds to `COMMON/POTMOM/`: the assignments P:1508-1515, 1546-1553, 1667-1709, 1782-1829, 1907-1935, 1962-1990 in one form.  The program keeps
the entries |k| ≤ 1 of `VC`, `VS`, |k| ≤ 2 of `VT`, `VLS`, `VQP` and |k| ≤ 3 of `VQ`. -/
def yukAdd (J : Nat) (x qiqf : ℝ) (c : NijCoef) (A : NijArr) : PotMom where
  vc k := (c.xc + x * c.yc + x * x * c.zc) * A.u (J + k) - (c.yc + x * c.zc) * A.r (J + k) - c.zc * A.s (J + k) + c.xnl * A.u (J + k)
  vs k := (c.xs + x * c.ys + x * x * c.zs) * A.u (J + k) - (c.ys + x * c.zs) * A.r (J + k) - c.zs * A.s (J + k)
  vt k := (c.xt + x * c.yt) * A.u (J + k) - c.yt * A.r (J + k)
  vls k := (c.xls + x * c.yls) * A.u (J + k) - c.yls * A.r (J + k)
  vq k := c.xq * A.u (J + k)
  vqp k := c.xq * qiqf * A.g (J + k)

/-- The same for DIFRAC, P:2048-2076 and P:2102-2130. -/
def difAdd (J : Nat) (qiqf : ℝ) (c : NijCoef) (A : NijArr) : PotMom where
  vc k := c.xc * A.r (J + k) + c.yc * A.s (J + k) + c.xnl * A.r (J + k)
  vs _ := 0
  vt _ := 0
  vls k := c.xls * A.r (J + k)
  vq k := c.xq * A.r (J + k)
  vqp k := c.xq * qiqf * A.g (J + k)

def PotMom.add (a b : PotMom) : PotMom :=
  ⟨fun k => a.vc k + b.vc k, fun k => a.vs k + b.vs k, fun k => a.vt k + b.vt k, fun k => a.vls k + b.vls k, fun k => a.vq k + b.vq k, fun k => a.vqp k + b.vqp k⟩
/-- The zeros of P:942-952. -/
def PotMom.zero : PotMom := ⟨fun _ => 0, fun _ => 0, fun _ => 0, fun _ => 0, fun _ => 0, fun _ => 0⟩

section
variable (N : NijNum) (J : Nat) (qi qf : ℝ)
/-- One exchange with a propagator: `X`, `Y`, the call of `SEX` with `JMAX` (VECTOR and SCALAR pass `JMAX+1`), the arrays and the assignments. -/
def yukExchange (alam ames : ℝ) (jmax : Nat) (c : NijCoef) : PotMom :=
  let qiqf := qi * qf
  let x := 0.5 * (qi * qi + qf * qf) / qiqf + 0.5 * (ames * ames) / qiqf
  let y := 2 * qiqf / (alam * alam)
  let e := N.sex x y (ames / alam) jmax 1
  yukAdd J x qiqf c (yukArr N e.1 e.2 ((qi + qf) * (qi + qf)) (ames * ames) (alam * alam))
/-- One diffractive part, P:2031-2033 and P:2085-2087. -/
def difExchange (ames2 : ℝ) (jmax : Nat) (c : NijCoef) : PotMom :=
  let qiqf := qi * qf
  let e := N.sex (0.5 * (qi * qi + qf * qf) / qiqf) (0.5 * qiqf / ames2) 0 jmax 2
  difAdd J qiqf c (difArr N e.2 ((qi + qf) * (qi + qf)) qiqf ames2)

/-- `FAC` of PSVECT, VECTOR, SCALAR (P:1481, 1605, 1872) and of DIFRAC (P:2020). -/
def facYuk : ℝ := 2 * Real.pi / (qi * qf)
def facDif : ℝ := 4 * Real.pi

/-- Coefficients of PSVECT, P:1498-1500; the charged pion has `FP2/ALF`, P:1536-1538. -/
def coefPs (fp2 : ℝ) : NijCoef :=
  let q2 := qi * qi + qf * qf
  { xs := -facYuk qi qf * fp2 * q2 / 3, ys := facYuk qi qf * fp2 * 2 * (qi * qf) / 3, xt := -facYuk qi qf * fp2 }

/-- Coefficients of VECTOR, P:1637-1655. -/
def coefVec (m : AmCoef) (gv2 fv2 gfv : ℝ) : NijCoef :=
  let fac := facYuk qi qf
  let q2 := qi * qi + qf * qf
  let q22 := q2 * q2
  let qq := qi * qf
  let mag := gv2 + m.amypn * gfv + 4 * m.amyn * fv2
  { xc := fac * (gv2 * (1 - m.amyni / 2 / m.alf * q2) - gfv / 4 / m.redm * q2 + fv2 * m.amyni / 4 * q22),
    yc := fac * (gv2 * m.amyni / m.alf * qq + gfv / 2 / m.redm * qq - fv2 * m.amyni * qq * q2),
    zc := fac * fv2 * m.amyni * (qi * qi) * (qf * qf),
    xs := -fac * (mag * m.amyni / 6 * q2 - fv2 * m.amyni / 12 * q22),
    ys := fac * (mag * m.amyni / 3 * qq - fv2 * m.amyni / 3 * qq * q2),
    zs := fac * fv2 * m.amyni / 3 * (qi * qi) * (qf * qf),
    xt := fac * (mag * m.amyni / 4 - fv2 * m.amyni / 8 * q2),
    yt := fac * fv2 * m.amyni / 4 * qq,
    xls := -fac * ((gv2 * (0.5 + 1 / m.alf) + m.amypn * gfv) * m.amyni - fv2 * (0.5 + 1 / m.alf) * m.amyni * q2),
    yls := -fac * fv2 * (1 + 2 / m.alf) * m.amyni * qq,
    xq := -fac * (gv2 + 4 * m.amypn * gfv + 8 * m.amypn2 * fv2) * m.amyni2 / 16,
    xnl := fac * gv2 * (m.aypni2 + m.amyni) / 4 * q2 }

/-- Coefficients of VECTOR for the charged rho, P:1735-1769; `avsc` gives `FFAC = FAC*AVSC`. -/
def coefVecC (m : AmCoef) (gv2 fv2 gfv avsc : ℝ) : NijCoef :=
  let fac := facYuk qi qf
  let ffac := fac * avsc
  let q2 := qi * qi + qf * qf
  let q22 := q2 * q2
  let qq := qi * qf
  let mag := gv2 + m.amypn * gfv + m.amypn2 * fv2
  let cor := 1 + (m.ay2mn2 ^ 2 + 2 * m.amyn * m.amymn2) * m.amyni2 / 16
  { xc := fac * (gv2 * (m.alf - m.amyni / 2 * q2) - m.alf * (gfv * m.amypn + fv2 * m.amymn2) * m.aypni2 / 8 * q2 + fv2 * m.amyni / 4 * cor * q22)
      + ffac * m.alf * gv2 * (1 + m.amyni / 4 * q2),
    yc := fac * (gv2 * m.amyni * qq + m.alf * (gfv * m.amypn + fv2 * m.amymn2) * m.aypni2 / 4 * qq - fv2 * m.amyni * cor * q2 * qq)
      - ffac * m.alf * gv2 * m.amyni / 2 * qq,
    zc := fac * fv2 * m.amyni * cor * (qi * qi) * (qf * qf),
    xs := fac * (-mag * (m.amyni / 6 + m.alf * m.amymn2 * m.amyni2 / 16) * q2 + fv2 / m.alf * m.aypni2 / 24 * q22),
    ys := fac * (mag * (m.amyni / 3 + m.alf * m.amymn2 * m.amyni2 / 8) * qq - fv2 / m.alf * m.aypni2 / 6 * qq * q2),
    zs := fac * fv2 / m.alf * m.aypni2 / 6 * (qi * qi) * (qf * qf),
    xt := fac * (mag * m.amyni / 4 - fv2 / m.alf * m.aypni2 / 16 * q2),
    yt := fac * fv2 / m.alf * m.aypni2 / 8 * qq,
    xls := fac * (-(gv2 * (2 - m.alf / 2) + 2 * m.ay2pn2 / m.amypn * gfv + 2 * m.amymn2 * fv2) * m.amyni
        + fv2 * ((2 / m.alf - 0.5) / m.alf - m.amymn2 * m.amyni / 8) * m.amyni * q2) + ffac * m.alf * gv2 * m.amyni / 2,
    yls := -fac * fv2 * ((4 / m.alf - 1) / m.alf - m.amymn2 * m.amyni / 4) * m.amyni * qq,
    xq := -fac * m.alf * (gv2 + 4 * m.amypn * gfv + 8 * m.amypn2 * fv2) * m.amyni2 / 16 - ffac * m.alf * gv2 * m.amyni2 / 16,
    xnl := fac * (m.alf * gv2 * (m.aypni2 + m.amyni) / 2 + gfv * m.amymn2 / m.amypn * m.amyni + fv2 * (4 / m.alf - 2 * m.alf * m.ay2pn2 * m.amyni)) * q2 / 2
      + ffac * m.alf * gv2 * (m.aypni2 / 4 - m.amyni) * q2 / 2 }

/-- Coefficients of SCALAR, P:1892-1897, and for the charged a0, P:1947-1952. -/
def coefSc (m : AmCoef) (gs2 : ℝ) : NijCoef :=
  let fac := facYuk qi qf
  let q2 := qi * qi + qf * qf
  { xc := -fac * gs2 * (1 + m.aypni2 / 8 * q2), yc := fac * gs2 * m.aypni2 / 4 * (qi * qf), xls := -fac * gs2 * m.aypni2 / 4, xq := fac * gs2 * m.amyni2 / 16,
    xnl := fac * gs2 * m.amyni / 4 * q2 }
def coefScC (m : AmCoef) (gs2 : ℝ) : NijCoef :=
  let fac := facYuk qi qf
  let q2 := qi * qi + qf * qf
  { xc := -fac * m.alf * gs2 * (1 + m.amyni / 4 * q2), yc := fac * m.alf * gs2 * m.amyni / 2 * (qi * qf), xls := -fac * m.alf * gs2 * m.amyni / 2,
    xq := fac * m.alf * gs2 * m.amyni2 / 16, xnl := -fac * m.alf * gs2 * (m.aypni2 / 4 - m.amyni) * q2 / 2 }

/-- Coefficients of DIFRAC, P:2034-2039, and P:2088-2093. -/
def coefDif (m : AmCoef) (gd2 : ℝ) : NijCoef :=
  let q2 := qi * qi + qf * qf
  { xc := facDif * gd2 * (1 + m.aypni2 / 8 * q2), yc := -facDif * gd2 * m.aypni2 / 4 * (qi * qf), xls := facDif * gd2 * m.aypni2 / 4,
    xq := -facDif * gd2 * m.amyni2 / 16, xnl := -facDif * gd2 * m.amyni / 4 * q2 }
def coefDifC (m : AmCoef) (gd2 : ℝ) : NijCoef :=
  let q2 := qi * qi + qf * qf
  { xc := facDif * m.alf * gd2 * (1 + m.amyni / 4 * q2), yc := -facDif * m.alf * gd2 * m.amyni / 2 * (qi * qf), xls := facDif * m.alf * gd2 * m.amyni / 2,
    xq := -facDif * m.alf * gd2 * m.amyni2 / 16, xnl := facDif * m.alf * gd2 * (m.aypni2 / 4 - m.amyni) * q2 / 2 }

/-- The exchanges in the order of the calls P:954-957 and of the loops in PSVECT (P:1484-1494, 1531-1532), VECTOR (P:1608-1633, 1716-1731), SCALAR (P:1875-1888,
1942-1943) and DIFRAC (P:2023-2030, 2083-2084); `typ` ends each routine before its charged part for pp and nn. -/
def nijTerms (p : NijPars) (k : NijCop) (m : AmCoef) (typ : NijType) : List PotMom :=
  [yukExchange N J qi qf p.alamp nijAmpi (J + 2) (coefPs qi qf k.fpi2),
   yukExchange N J qi qf p.alamp nijAmeta (J + 2) (coefPs qi qf k.feta2),
   yukExchange N J qi qf p.alamp nijAmetp (J + 2) (coefPs qi qf k.fetp2)]
  ++ (if typ = .pn then [yukExchange N J qi qf p.alamp nijAwpic (J + 2) (coefPs qi qf (k.fpic2 / m.alf))] else [])
  ++ [yukExchange N J qi qf p.alamv nijAmr1 (J + 4) (coefVec qi qf m (k.gro2 * nijAro) (k.fro2 * nijAro) (k.gfpro * nijAro)),
   yukExchange N J qi qf p.alamv nijAmr2 (J + 4) (coefVec qi qf m (k.gro2 * nijBro) (k.fro2 * nijBro) (k.gfpro * nijBro)),
   yukExchange N J qi qf p.alamv nijAmom (J + 4) (coefVec qi qf m k.gom2 k.fom2 k.gfpom),
   yukExchange N J qi qf p.alamv nijAmfi (J + 4) (coefVec qi qf m k.gfi2 k.ffi2 k.gfpfi)]
  ++ (if typ = .pn then
    [yukExchange N J qi qf p.alamv nijAwrc1 (J + 4) (coefVecC qi qf m (k.groc2 * nijAroc) (k.froc2 * nijAroc) (k.gfproc * nijAroc) nijAvsc1),
     yukExchange N J qi qf p.alamv nijAwrc2 (J + 4) (coefVecC qi qf m (k.groc2 * nijBroc) (k.froc2 * nijBroc) (k.gfproc * nijBroc) nijAvsc2)] else [])
  ++ [yukExchange N J qi qf p.alams nijAma0 (J + 4) (coefSc qi qf m k.ga02),
   yukExchange N J qi qf p.alams p.ame1 (J + 4) (coefSc qi qf m (k.gep2 * p.aeps)),
   yukExchange N J qi qf p.alams p.ame2 (J + 4) (coefSc qi qf m (k.gep2 * p.beps)),
   yukExchange N J qi qf p.alams nijAmf0 (J + 4) (coefSc qi qf m k.gf02)]
  ++ (if typ = .pn then [yukExchange N J qi qf p.alams nijAwa0c (J + 4) (coefScC qi qf m k.ga0c2)] else [])
  ++ [difExchange N J qi qf (p.ampom * p.ampom) (J + 4) (coefDif qi qf m k.fpom2),
   difExchange N J qi qf (p.ama2d * p.ama2d) (J + 4) (coefDif qi qf m (k.fa2d2 * nijIsign typ))]
  ++ (if typ = .pn then [difExchange N J qi qf (p.ama2d * p.ama2d) (J + 4) (coefDifC qi qf m (k.fa2d2 * k.faciso))] else [])
end

/-- `VMOM`, P:752-960, for the wave `w` (`p`) of `PNIJMLSJ`; what it keeps between calls is recomputed here. -/
def vmom (N : NijNum) (p : PhName) (typ : NijType) (qi qf : ℝ) : PotMom :=
  let w := waveOf p
  let pars := nijPars (nijTable p (nijIsign typ))
  let cop := nymcop N pars typ w.iso (p = ⟨'1', 'S', 0⟩)
  (nijTerms N w.j qi qf pars cop (amfacs (nijAmy typ) (nijAmn typ)) typ).foldl PotMom.add PotMom.zero

/-- `inn` of nijmegen_interface.f90:34-44 and `TYPE`, P:253-255; other values of `tz` keep the type of the previous call, which is `old`. -/
def nijTypeOf (tz : Int) (old : NijType) : NijType := if tz = -1 then .pp else if tz = 0 then .pn else if tz = 1 then .nn else old

/-- `vnijm` (nijmegen_interface.f90) and `nijm`: `QI = ymev = pin`, `QF = xmev = pout`. -/
def vnijm (N : NijNum) (pout pin : ℝ) (coup : Bool) (S : Int) (j : Nat) (tz : Int) (old : NijType) : Six :=
  nijmCollect j (S = 0) (S = 1) coup fun _ p => pnijmlsj p pin pout (vmom N p (nijTypeOf tz old) pin pout)

/-- `nijmegen::V`, Interactions/nijmegen.cpp:19-47. -/
def nijmegenV (N : NijNum) (qi qo : ℝ) (coup : Bool) (S : Int) (J : Nat) (Tz : Int) (old : NijType) : Six :=
  reorderExternal (vnijm N qi qo coup S J (-Tz) old)

end TicTac
end
