import Verif.Model.Potential
import Verif.Model.Numeric
/-! Model of the potentials computed by the program itself: `OPEP` (CPP/Interactions/OPEP.cpp), `chiral_LO_internal`
(CPP/Interactions/chiral_LO_internal.cpp) and `malfliet_tjon` (CPP/Interactions/malfliet_tjon.cpp).  `double` is idealised as ℝ;
`none` stands for reading outside a table. -/
noncomputable section
namespace TicTac

/-- constants.h:26-30. -/
def cLambda : ℝ := 450
def gA : ℝ := 1.289
def fpi : ℝ := 92.2
def mpi : ℝ := 138.039
def hbarc : ℝ := 197.327
/-- `parameters_LO`, constants.h:40-41 and chiral_LO_internal.h:18-19. -/
def C1S0 : ℝ := -0.112927 / 100
def C3S1 : ℝ := -0.087340 / 100

/-- `OPEP::isoFac`, OPEP.cpp:17-22. `& 1` is the remainder modulo 2 (two's complement). -/
def isoFac (L S : Int) : Int :=
  let T := (1 - L - S) % 2;
  -3 * (1 - T) + 1 * T

/-- `LegendrePolynomial::fetchRoot`, legendre.cpp:115-117. -/
def fetchRoot (tbl : List (List ℝ)) (d : Int) (i : Nat) : Option ℝ :=
  if d < 0 then none else (tbl[d.toNat]?).bind (·[i]?)

/-- `OPEP::potOPEPmom`, OPEP.cpp:86-90. -/
def potOPEPmom (qi qo z : ℝ) : ℝ :=
  let q2 := qi * qi + qo * qo - 2 * qi * qo * z;
  -(gA * gA / (4 * fpi * fpi)) * (1 / (q2 + mpi * mpi))

/-- `OPEP::angIntegral`, OPEP.cpp:65-84. -/
def angIntegral (tbl : List (List ℝ)) (z wz : List ℝ) (qi qo : ℝ) (J : Int) (l : Nat) : Option ℝ :=
  ((List.range wz.length).foldlM (fun (s : ℝ) (i : Nat) => (fetchRoot tbl J i).map fun root =>
    if l = 0 then s + wz.getD i 0 * potOPEPmom qi qo (z.getD i 0) * root
    else s + wz.getD i 0 * potOPEPmom qi qo (z.getD i 0) * z.getD i 0 * root) 0).map fun integral => Real.pi * integral

/-- `OPEP::potential`, OPEP.cpp:24-63, with the table of the constructor, OPEP.cpp:4-15 (the quadrature `z`, `wz` is a parameter). -/
def opepPotential (Jmax : Nat) (z wz : List ℝ) (qi qo : ℝ) (J : Int) : Option Six :=
  let tbl := findRoots (Jmax + 1) z
  (angIntegral tbl z wz qi qo J 0).bind fun I0 =>
  (angIntegral tbl z wz qi qo J 1).bind fun I1 =>
  (angIntegral tbl z wz qi qo (J + 1) 0).bind fun IP =>
  let S0 := 2 * (-(qo * qo + qi * qi) * I0 + 2 * qo * qi * I1) * isoFac J 0
  let pp := (2 / (2 * J + 1)) * (-(qo * qo + qi * qi) * IP + 2 * qo * qi * I0) * isoFac (J + 1) 1
  if J ≠ 0 then
    (angIntegral tbl z wz qi qo (J - 1) 0).map fun IM =>
    let S1 := 2 * ((qo * qo + qi * qi) * I0 - 2 * qo * qi * (1 / (2 * J + 1)) * (J * IP + (J + 1) * IM)) * isoFac J 1
    let mm := (2 / (2 * J + 1)) * ((qo * qo + qi * qi) * IM - 2 * qo * qi * I0) * isoFac (J - 1) 1
    let pm := (4 * Real.sqrt (J * (J + 1)) / (2 * J + 1)) * (qi * qi * IP + qo * qo * IM - 2 * qo * qi * I0) * isoFac (J - 1) 1
    let mp := (4 * Real.sqrt (J * (J + 1)) / (2 * J + 1)) * (qi * qi * IM + qo * qo * IP - 2 * qo * qi * I0) * isoFac (J + 1) 1
    (![S0, S1, mm, pm, mp, pp] : Six)
  else some ![S0, 0, 0, 0, 0, pp]

/-- The factor of chiral_LO_internal.cpp:45-58. -/
def loCoeff (M qi qo : ℝ) : ℝ :=
  let Epi := Real.sqrt (M * M + qi * qi)
  let Epo := Real.sqrt (M * M + qo * qo)
  let ri := Real.sqrt (M / Epi)
  let ro := Real.sqrt (M / Epo)
  let t1 := qi / cLambda
  let f1 := Real.exp (-(t1 * t1 * t1 * t1 * t1 * t1))
  let t2 := qo / cLambda
  let f2 := Real.exp (-(t2 * t2 * t2 * t2 * t2 * t2))
  f1 * f2 * ri * ro / (8 * Real.pi * Real.pi * Real.pi)

/-- `chiral_LO_internal::V`, chiral_LO_internal.cpp:24-67, for the object made by `fetch_potential_ptr`
(potential_model.cpp:23: `M = MN`, `Jmax = 100`). -/
def loV (z wz : List ℝ) (qi qo : ℝ) (J : Int) : Option Six :=
  (opepPotential 100 z wz qi qo J).map fun V =>
    let V := if J = 0 then Function.update V 0 (V 0 + C1S0) else if J = 1 then Function.update V 2 (V 2 + C3S1) else V
    fun k => V k * loCoeff MN qi qo

/-- `malfliet_tjon::V`, malfliet_tjon.cpp:28-66. -/
def mtV (qi qo : ℝ) (J : Int) : Six :=
  let VA_I : ℝ := 513.968
  let VA_III : ℝ := 626.885
  let VR : ℝ := 1438.720
  let muA : ℝ := 1.550 * hbarc
  let muR : ℝ := 3.110 * hbarc
  let numA := (qo + qi) * (qo + qi) + muA * muA
  let numR := (qo + qi) * (qo + qi) + muR * muR
  let denA := (qo - qi) * (qo - qi) + muA * muA
  let denR := (qo - qi) * (qo - qi) + muR * muR
  if J = 0 then ![((VR / hbarc) * Real.log (numR / denR) - (VA_I / hbarc) * Real.log (numA / denA)) / (2 * Real.pi * qi * qo), 0, 0, 0, 0, 0]
  else if J = 1 then ![0, 0, ((VR / hbarc) * Real.log (numR / denR) - (VA_III / hbarc) * Real.log (numA / denA)) / (2 * Real.pi * qi * qo), 0, 0, 0]
  else fun _ => 0

end TicTac
end
