import Verif.Model.NijmegenForce
/-! What the Nijmegen routines keep from call to call in COMMON blocks and saved variables: Interactions/nijmegen/pnijm.f (P) and nijmegen_interface.f90.
As in Model/NijmegenForce, `IDPAR` = 1, `NQ12` = 1 and `NLOC` = 1; the quadratures are the functions of `NijNum` (their own memory is the subject of Model/NijmegenRun). -/
noncomputable section
namespace TicTac

/-- The couplings left by `NYMCOP`, P:1388-1447, and `FPI` of P:882, before the isospin part (those of the isospin part are kept as they were). -/
def copKept (N : NijNum) (p : NijPars) (isign : Int) (old : NijCop) : NijCop :=
  let sr3 := Real.sqrt 3
  let fpi := Real.sqrt (0.075 * N.fdexp (-((nijAmpi / p.alamp) ^ 2)))
  let pv8 := fpi * (4 * p.alpv - 1) / sr3
  let feta := Real.cos (p.thpv * nijConv) * pv8 - Real.sin (p.thpv * nijConv) * p.pv1
  let fetp := Real.sin (p.thpv * nijConv) * pv8 + Real.cos (p.thpv * nijConv) * p.pv1
  let gv8 := p.gro * (4 * p.alve - 1) / sr3
  let gfi := Real.cos (p.thv * nijConv) * gv8 - Real.sin (p.thv * nijConv) * p.gv1
  let gom := Real.sin (p.thv * nijConv) * gv8 + Real.cos (p.thv * nijConv) * p.gv1
  { old with
    fpi2 := fpi * fpi / (nijAmpv * nijAmpv) * isign, feta2 := feta * feta / (nijAmpv * nijAmpv), fetp2 := fetp * fetp / (nijAmpv * nijAmpv),
    gro2 := p.gro * p.gro * isign, gom2 := gom * gom, gfi2 := gfi * gfi,
    fro2 := p.fro * p.fro / (4 * nijAmt * nijAmt) * isign, fom2 := p.fom * p.fom / (4 * nijAmt * nijAmt), ffi2 := p.ffi * p.ffi / (4 * nijAmt * nijAmt),
    gfpro := (p.gro * p.fro + p.fro * p.gro) / (2 * nijAmt) * isign, gfpom := (gom * p.fom + p.fom * gom) / (2 * nijAmt), gfpfi := (gfi * p.ffi + p.ffi * gfi) / (2 * nijAmt),
    ga02 := p.ga0 * p.ga0 * isign, gep2 := p.gep * p.gep, gf02 := p.gf0 * p.gf0 }

/-- The isospin part, P:926-940, done in every call from what is kept: `FPI`, the parameters and `ISO`. -/
def copIso (fpi : ℝ) (p : NijPars) (typ : NijType) (iso : Nat) (name : PhName) (k : NijCop) : NijCop :=
  let faciso : ℝ := 4 * iso - 2
  let extra : ℝ := if name = ⟨'1', 'S', 0⟩ ∧ typ = .pn then 1 + p.rhoc else 1
  { k with
    ga0c2 := faciso * p.ga0 * p.ga0, fpic2 := faciso * fpi * fpi / (nijAmpv * nijAmpv), groc2 := faciso * p.gro * p.gro * extra,
    froc2 := faciso * p.fro * p.fro / (4 * nijAmt * nijAmt) * extra, gfproc := faciso * (p.gro * p.fro + p.fro * p.gro) / (2 * nijAmt),
    fpom2 := (p.gpom / nijAmt) ^ 2, fa2d2 := (p.ga2d / nijAmt) ^ 2, faciso := faciso }

/-- What is kept: `inn` (`none`: not yet set); of `PNIJMLSJ` the name `PHNAM0` (`none`: '***') and what was read off it (P:611-614); of `VMOM` the type `TYP0` (`none`: 'XX'), its own
`PHNAM0`, `ISIGN`, the masses of `AMFACS`, the parameters, `FPI` and the couplings (P:783-785 and the COMMON blocks). -/
structure NijMem where
  inn : Option NijType
  waveName : Option PhName
  wave : NijWave
  typ0 : Option NijType
  name0 : Option PhName
  isign : Int
  am : AmCoef
  pars : NijPars
  fpi : ℝ
  cop : NijCop

/-- P:831-923: what `VMOM` brings up to date before the isospin part, for the name and type of this call. -/
def vmomKeep (N : NijNum) (name : PhName) (typ : NijType) (m : NijMem) : NijMem :=
  let load := fun (m : NijMem) =>
    let p := nijPars (nijTable name m.isign)
    { m with name0 := some name, pars := p, fpi := Real.sqrt (0.075 * N.fdexp (-((nijAmpi / p.alamp) ^ 2))), cop := copKept N p m.isign m.cop }
  if some typ = m.typ0 then (if some name ≠ m.name0 then load m else m)
  else load { m with typ0 := some typ, isign := nijIsign typ, am := amfacs (nijAmy typ) (nijAmn typ) }

/-- `VMOM`, P:752-960, with its memory; `J` and `ISO` are those kept by `PNIJMLSJ`. -/
def vmomMem (N : NijNum) (name : PhName) (typ : NijType) (w : NijWave) (qi qf : ℝ) (m : NijMem) : NijMem × PotMom :=
  let m := vmomKeep N name typ m
  let cop := copIso m.fpi m.pars typ w.iso name m.cop
  ({ m with cop := cop }, (nijTerms N w.j qi qf m.pars cop m.am typ).foldl PotMom.add PotMom.zero)

/-- `PNIJMLSJ`, P:486-750, with its memory: the early return comes first, a new name is read, `VMOM` is called, the matrix is put together. -/
def pnijmlsjMem (N : NijNum) (name : PhName) (typ : NijType) (qi qf : ℝ) (m : NijMem) : NijMem × VPot :=
  if |qi - qf| > 30 * nijHbarc then (m, ⟨0, 0, 0, 0⟩)
  else
    let m := if some name ≠ m.waveName then { m with waveName := some name, wave := waveOf name } else m
    let w := m.wave
    let r := vmomMem N name typ w qi qf m
    (r.1,
      if w.nchan = 1 then
        if w.spin = 0 then ⟨vpotSinglet w.j qi qf r.2, 0, 0, 0⟩
        else if w.l = w.j then ⟨vpotTriplet w.j qi qf r.2, 0, 0, 0⟩
        else if name = ⟨'3', 'P', 0⟩ then ⟨vpotUpper w.j qi qf r.2, 0, 0, 0⟩
        else ⟨0, 0, 0, 0⟩
      else ⟨vpotLower w.j qi qf r.2, vpotMix12 w.j qi qf r.2, vpotMix21 w.j qi qf r.2, vpotUpper w.j qi qf r.2⟩)

/-- A call of `nijmegen::V`. -/
structure NijArgs where
  qi : ℝ
  qo : ℝ
  coup : Bool
  S : Int
  J : Nat
  Tz : Int

/-- One turn of the loop over `i` in `nijm`, P:310-312 and P:433-446. -/
def nijmTurn (N : NijNum) (typ : NijType) (a : NijArgs) (on : Bool) (i : Nat) (m : NijMem) : NijMem × Option VPot :=
  if a.J > 9 ∨ on = false then (m, none)
  else match nijName a.J i with
    | none => (m, none)
    | some name => let r := pnijmlsjMem N name typ a.qo a.qi m; (r.1, some r.2)

/-- `nijmegen::V` (Interactions/nijmegen.cpp:19-47), `vnijm` and `nijm` with their memory.  `TYPE` is a local variable of `nijm` set from `inn`; `undef` is what it holds while `inn` has no value. -/
def nijmegenCall (N : NijNum) (undef : NijType) (a : NijArgs) (m : NijMem) : NijMem × Six :=
  let m := { m with inn := if -a.Tz = -1 then some .pp else if -a.Tz = 0 then some .pn else if -a.Tz = 1 then some .nn else m.inn }
  let typ := m.inn.getD undef
  let t1 := nijmTurn N typ a (a.S = 0) 1 m
  let t2 := nijmTurn N typ a (a.S = 1) 2 t1.1
  let t3 := nijmTurn N typ a a.coup 3 t2.1
  let vv1 := (t1.2.map VPot.v11).getD 0
  let vv2 := (t2.2.map VPot.v11).getD 0
  let vv3 := (t3.2.map VPot.v22).getD 0
  let vv4 := (t3.2.map VPot.v11).getD 0
  let vv5 := (t3.2.map VPot.v21).getD 0
  let vv6 := (t3.2.map VPot.v12).getD 0
  let v := if a.J = 0 then (![vv1, 0, vv2, vv4, vv5, vv6] : Six) else ![vv1, vv2, vv3, vv4, vv5, vv6]
  (t3.1, reorderExternal fun k => v k * nijFa)

/-- Calls one after the other: the memory and the results. -/
def nijmegenCalls (N : NijNum) (undef : NijType) : List NijArgs → NijMem → NijMem × List Six
  | [], m => (m, [])
  | a :: as, m => let r := nijmegenCall N undef a m; let s := nijmegenCalls N undef as r.1; (s.1, r.2 :: s.2)

/-- The memory at the start of the program; the numbers of `junk` are whatever the uninitialised storage holds. -/
def NijMem.start (junk : NijMem) : NijMem := { junk with inn := none, waveName := none, typ0 := none, name0 := none }

end TicTac
end
