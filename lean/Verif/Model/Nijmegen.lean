import Verif.Model.Potential
import Mathlib.Analysis.SpecialFunctions.Pow.Real
import Mathlib.Analysis.SpecialFunctions.Trigonometric.Basic
/-! The Nijmegen potential: Interactions/nijmegen/pnijm.f (P), nijmegen_interface.f90 (I) and Interactions/nijmegen.cpp.  Arithmetic is exact (real numbers). -/
noncomputable section
namespace TicTac

/-- `PHNAME`, a name of three characters: multiplicity, letter, total angular momentum. -/
structure PhName where
  mult : Char
  letter : Char
  j : Nat
deriving DecidableEq

/-- The labels 100-193 of `nijm`, P:322-425: the name for `j` and `i` = 1 (singlet), 2 (triplet), 3 (coupled); `none` jumps to 295. -/
def nijName (j i : Nat) : Option PhName :=
  match j, i with
  | 0, 1 => some ⟨'1', 'S', 0⟩ | 0, 2 => some ⟨'3', 'P', 0⟩
  | 1, 1 => some ⟨'1', 'P', 1⟩ | 1, 2 => some ⟨'3', 'P', 1⟩ | 1, 3 => some ⟨'3', 'C', 1⟩
  | 2, 1 => some ⟨'1', 'D', 2⟩ | 2, 2 => some ⟨'3', 'D', 2⟩ | 2, 3 => some ⟨'3', 'C', 2⟩
  | 3, 1 => some ⟨'1', 'F', 3⟩ | 3, 2 => some ⟨'3', 'F', 3⟩ | 3, 3 => some ⟨'3', 'C', 3⟩
  | 4, 1 => some ⟨'1', 'G', 4⟩ | 4, 2 => some ⟨'3', 'G', 4⟩ | 4, 3 => some ⟨'3', 'C', 4⟩
  | 5, 1 => some ⟨'1', 'H', 5⟩ | 5, 2 => some ⟨'3', 'H', 5⟩ | 5, 3 => some ⟨'3', 'C', 5⟩
  | 6, 1 => some ⟨'1', 'I', 6⟩ | 6, 2 => some ⟨'3', 'I', 6⟩ | 6, 3 => some ⟨'3', 'C', 6⟩
  | 7, 1 => some ⟨'1', 'J', 7⟩ | 7, 2 => some ⟨'3', 'J', 7⟩ | 7, 3 => some ⟨'3', 'C', 7⟩
  | 8, 1 => some ⟨'1', 'K', 8⟩ | 8, 2 => some ⟨'3', 'K', 8⟩ | 8, 3 => some ⟨'3', 'C', 8⟩
  | 9, 1 => some ⟨'1', 'L', 9⟩ | 9, 2 => some ⟨'3', 'L', 9⟩ | 9, 3 => some ⟨'3', 'C', 9⟩
  | _, _ => none

/-- What `PNIJMLSJ` reads off a new name and keeps, P:627-645: `NCHAN`, `SPIN`, `J`, `L`, `ISO`.  (`SPIN` stays undefined for other first characters than 1 and 3;
the names of `nijName` have no other.) -/
structure NijWave where
  nchan : Nat
  spin : Nat
  j : Nat
  l : Nat
  iso : Nat
deriving DecidableEq
def waveOf (p : PhName) : NijWave :=
  let nchan := if p.letter = 'C' then 2 else 1
  let spin := if p.mult = '1' then 0 else 1
  let l := if nchan = 2 then p.j - 1 else if p = ⟨'3', 'P', 0⟩ then 1 else p.j
  ⟨nchan, spin, p.j, l, (spin + l + 1) % 2⟩

/-- `COMMON/POTMOM/`, P:607-608: the partial-wave amplitudes; index `k` belongs to the wave `J + k`. -/
structure PotMom where
  vc : Int → ℝ
  vs : Int → ℝ
  vt : Int → ℝ
  vls : Int → ℝ
  vq : Int → ℝ
  vqp : Int → ℝ

/-- `VPOT(2,2)`. -/
structure VPot where
  v11 : ℝ
  v12 : ℝ
  v21 : ℝ
  v22 : ℝ

section
variable (j qi qf : ℝ) (a : PotMom)
/-- The singlet branch, P:697-698 with the coefficients P:659-661, and the extra term P:732 (`NQ12` is 1). -/
def vpotSinglet : ℝ :=
  let jm := j - 1; let jp := j + 1; let jpp := j + 2
  let tjm := 2 * j - 1; let tj := 2 * j + 1; let tjp := 2 * j + 3
  let e00 := j * jm / tjm / tj
  let f00 := -2 * (j * j + jm) / tjm / tjp
  let g00 := jp * jpp / tj / tjp
  a.vc 0 - 3 * a.vs 0 + qi * qi * (qf * qf) * (e00 * a.vq (-2) + f00 * a.vq 0 + g00 * a.vq 2)
    - 2 * (qi * qf) / tj * (j * a.vqp (-1) + jp * a.vqp 1)

/-- The uncoupled triplet branch, P:700-703 with P:662-664, and P:734. -/
def vpotTriplet : ℝ :=
  let jm := j - 1; let jpp := j + 2
  let tjm := 2 * j - 1; let tj := 2 * j + 1; let tjp := 2 * j + 3
  let qi2f2 := qi * qi + qf * qf
  let s2psi := 2 * (qi * qf) / qi2f2
  let e11 := jm * jpp / tjm / tj
  let f11 := -2 * jm * jpp / tjm / tjp
  let g11 := jm * jpp / tj / tjp
  a.vc 0 + a.vs 0 - qi * qf * (a.vls (-1) - a.vls 1) / tj
    + 2 / 3 * qi2f2 * (a.vt 0 - 1 / 2 * s2psi * (tjp * a.vt (-1) + tjm * a.vt 1) / tj)
    + qi * qi * (qf * qf) * (e11 * a.vq (-2) + f11 * a.vq 0 + g11 * a.vq 2)
    + qi * qf * (-a.vqp (-1) + a.vqp 1) / tj

/-- `VPOT(2,2)` of the coupled branch and `VPOT(1,1)` of 3P0 (the same lines, P:705-708 and P:721-724) with P:666, 668, 671, and P:736-737, 744-745. -/
def vpotUpper : ℝ :=
  let jp := j + 1; let jpp := j + 2; let jppp := j + 3
  let tj := 2 * j + 1; let tjp := 2 * j + 3; let tjpp := 2 * j + 5
  let qi2f2 := qi * qi + qf * qf
  let s2psi := 2 * (qi * qf) / qi2f2
  let epp := -j * (2 * j * j + 7 * jp) / tj / tj / tjp
  let gpp := -jpp * jppp / tjp / tjpp
  let fpp := 2 * (2 * j * j * j + 9 * j * j + 10 * j + 1) / tj / tj / tjpp
  a.vc 1 + a.vs 1 - qi * qf * jpp / tjp * (a.vls 0 - a.vls 2)
    + 2 / 3 * qi2f2 * jpp / tj * (-a.vt 1 + 1 / 2 * s2psi * (tjpp * a.vt 0 + tj * a.vt 2) / tjp)
    + qi * qi * (qf * qf) * (epp * a.vq (-1) + fpp * a.vq 1 + gpp * a.vq 3)
    + qi * qf * ((2 * j * j + 5 * j + 4) / tj * a.vqp 0 + jpp * a.vqp 2) / tjp

/-- `VPOT(1,1)` of the coupled branch, P:711-714 with P:665, 667, 669, and P:740-741. -/
def vpotLower : ℝ :=
  let jm := j - 1; let jmm := j - 2; let jp := j + 1
  let tjmm := 2 * j - 3; let tjm := 2 * j - 1; let tj := 2 * j + 1
  let qi2f2 := qi * qi + qf * qf
  let s2psi := 2 * (qi * qf) / qi2f2
  let emm := -jm * jmm / tjm / tjmm
  let gmm := -(2 * j * j - 3 * j + 2) * jp / tjm / tj / tj
  let fmm := 2 * (2 * j * j * j - 3 * j * j - 2 * jm) / tj / tj / tjmm
  a.vc (-1) + a.vs (-1) + qi * qf * jm / tjm * (a.vls (-2) - a.vls 0)
    + 2 / 3 * qi2f2 * jm / tj * (-a.vt (-1) + 1 / 2 * s2psi * (tjmm * a.vt 0 + tj * a.vt (-2)) / tjm)
    + qi * qi * (qf * qf) * (emm * a.vq (-3) + fmm * a.vq (-1) + gmm * a.vq 1)
    + qi * qf * (jm * a.vqp (-2) + (2 * j * j - jm) / tj * a.vqp 0) / tjm

/-- `VPOT(1,2)`, P:715-717 with `FPM` P:670, and P:742. -/
def vpotMix12 : ℝ :=
  let tj := 2 * j + 1
  let tjj := Real.sqrt (j * (j + 1))
  let qi2f2 := qi * qi + qf * qf
  let s2psi := 2 * (qi * qf) / qi2f2
  let spsi2 := qf * qf / qi2f2
  let cpsi2 := qi * qi / qi2f2
  let fpm := 2 * tjj / tj / tj;
  -2 * qi2f2 * tjj / tj * (-s2psi * a.vt 0 + cpsi2 * a.vt (-1) + spsi2 * a.vt 1)
    - qi * qi * (qf * qf) * fpm * (a.vq 1 - a.vq (-1)) + 2 * (qi * qf) * tjj / tj * a.vqp 0

/-- `VPOT(2,1)`, P:718-720 and P:743. -/
def vpotMix21 : ℝ :=
  let tj := 2 * j + 1
  let tjj := Real.sqrt (j * (j + 1))
  let qi2f2 := qi * qi + qf * qf
  let s2psi := 2 * (qi * qf) / qi2f2
  let spsi2 := qf * qf / qi2f2
  let cpsi2 := qi * qi / qi2f2
  let fpm := 2 * tjj / tj / tj;
  -2 * qi2f2 * tjj / tj * (-s2psi * a.vt 0 + spsi2 * a.vt (-1) + cpsi2 * a.vt 1)
    - qi * qi * (qf * qf) * fpm * (a.vq 1 - a.vq (-1)) + 2 * (qi * qf) * tjj / tj * a.vqp 0
end

/-- `HBARC` in `PNIJMLSJ`, P:610. -/
def nijHbarc : ℝ := 197.326971941683

/-- `PNIJMLSJ`, P:486-750, from the amplitudes `VMOM` leaves; the early return P:621. -/
def pnijmlsj (p : PhName) (qi qf : ℝ) (a : PotMom) : VPot :=
  let w := waveOf p
  if |qi - qf| > 30 * nijHbarc then ⟨0, 0, 0, 0⟩
  else if w.nchan = 1 then
    if w.spin = 0 then ⟨vpotSinglet w.j qi qf a, 0, 0, 0⟩
    else if w.l = w.j then ⟨vpotTriplet w.j qi qf a, 0, 0, 0⟩
    else if p = ⟨'3', 'P', 0⟩ then ⟨vpotUpper w.j qi qf a, 0, 0, 0⟩
    else ⟨0, 0, 0, 0⟩
  else ⟨vpotLower w.j qi qf a, vpotMix12 w.j qi qf a, vpotMix21 w.j qi qf a, vpotUpper w.j qi qf a⟩

/-- `fa`, P:245, with the number `pi` of P:201 replaced by π. -/
def nijFa : ℝ := 1 / (2 * Real.pi * Real.pi)

/-- `nijm`, P:303-481: `v` from the matrices of the three kinds of wave (`heform` is false).  `res i` is what the call of `pnijmlsj` for `i` gives, asked only where
the loop makes that call. -/
def nijmCollect (j : Nat) (sing trip coup : Bool) (res : Nat → PhName → VPot) : Six :=
  let call := fun i (on : Bool) => if j > 9 ∨ on = false then none else (nijName j i).map (res i)
  let vv1 := ((call 1 sing).map VPot.v11).getD 0
  let vv2 := ((call 2 trip).map VPot.v11).getD 0
  let vv3 := ((call 3 coup).map VPot.v22).getD 0
  let vv4 := ((call 3 coup).map VPot.v11).getD 0
  let vv5 := ((call 3 coup).map VPot.v21).getD 0
  let vv6 := ((call 3 coup).map VPot.v12).getD 0
  let v := if j = 0 then (![vv1, 0, vv2, vv4, vv5, vv6] : Six) else ![vv1, vv2, vv3, vv4, vv5, vv6]
  fun k => v k * nijFa

end TicTac
end
