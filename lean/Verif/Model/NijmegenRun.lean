import Verif.Model.NijmegenForce
import Verif.Model.NijmegenSml
import Verif.Spec.NijmegenSex
/-! `VMOM` of Interactions/nijmegen/pnijm.f (P) together with the routine `SEX` it calls, which keeps tables from call to call. -/
noncomputable section
namespace TicTac

/-- One meson: the call of `SEX` and what is added to `COMMON/POTMOM/` from the arrays `ELN`, `ERN`. -/
structure NijExchange where
  call : SexCall
  add : (Nat → ℝ) → (Nat → ℝ) → PotMom

section
variable (N : NijNum) (J : Nat) (qi qf : ℝ)
/-- As `yukExchange`: P:1495-1515, 1533-1553 and the like. -/
def yukEx (alam ames : ℝ) (jmax : Nat) (c : NijCoef) : NijExchange :=
  let qiqf := qi * qf
  let x := 0.5 * (qi * qi + qf * qf) / qiqf + 0.5 * (ames * ames) / qiqf
  let y := 2 * qiqf / (alam * alam)
  ⟨⟨x, y, ames / alam, jmax, 1⟩, fun eln ern => yukAdd J x qiqf c (yukArr N eln ern ((qi + qf) * (qi + qf)) (ames * ames) (alam * alam))⟩
/-- As `difExchange`: P:2031-2076 and P:2085-2130. -/
def difEx (ames2 : ℝ) (jmax : Nat) (c : NijCoef) : NijExchange :=
  let qiqf := qi * qf
  ⟨⟨0.5 * (qi * qi + qf * qf) / qiqf, 0.5 * qiqf / ames2, 0, jmax, 2⟩, fun _ ern => difAdd J qiqf c (difArr N ern ((qi + qf) * (qi + qf)) qiqf ames2)⟩

/-- The exchanges of PSVECT, VECTOR, SCALAR and DIFRAC in their order, as in `nijTerms`. -/
def nijPs (p : NijPars) (k : NijCop) (m : AmCoef) (typ : NijType) : List NijExchange :=
  [yukEx N J qi qf p.alamp nijAmpi (J + 2) (coefPs qi qf k.fpi2), yukEx N J qi qf p.alamp nijAmeta (J + 2) (coefPs qi qf k.feta2), yukEx N J qi qf p.alamp nijAmetp (J + 2) (coefPs qi qf k.fetp2)]
  ++ (if typ = .pn then [yukEx N J qi qf p.alamp nijAwpic (J + 2) (coefPs qi qf (k.fpic2 / m.alf))] else [])
def nijVec (p : NijPars) (k : NijCop) (m : AmCoef) (typ : NijType) : List NijExchange :=
  [yukEx N J qi qf p.alamv nijAmr1 (J + 4) (coefVec qi qf m (k.gro2 * nijAro) (k.fro2 * nijAro) (k.gfpro * nijAro)),
   yukEx N J qi qf p.alamv nijAmr2 (J + 4) (coefVec qi qf m (k.gro2 * nijBro) (k.fro2 * nijBro) (k.gfpro * nijBro)),
   yukEx N J qi qf p.alamv nijAmom (J + 4) (coefVec qi qf m k.gom2 k.fom2 k.gfpom),
   yukEx N J qi qf p.alamv nijAmfi (J + 4) (coefVec qi qf m k.gfi2 k.ffi2 k.gfpfi)]
  ++ (if typ = .pn then
    [yukEx N J qi qf p.alamv nijAwrc1 (J + 4) (coefVecC qi qf m (k.groc2 * nijAroc) (k.froc2 * nijAroc) (k.gfproc * nijAroc) nijAvsc1),
     yukEx N J qi qf p.alamv nijAwrc2 (J + 4) (coefVecC qi qf m (k.groc2 * nijBroc) (k.froc2 * nijBroc) (k.gfproc * nijBroc) nijAvsc2)] else [])
def nijSc (p : NijPars) (k : NijCop) (m : AmCoef) (typ : NijType) : List NijExchange :=
  [yukEx N J qi qf p.alams nijAma0 (J + 4) (coefSc qi qf m k.ga02),
   yukEx N J qi qf p.alams p.ame1 (J + 4) (coefSc qi qf m (k.gep2 * p.aeps)),
   yukEx N J qi qf p.alams p.ame2 (J + 4) (coefSc qi qf m (k.gep2 * p.beps)),
   yukEx N J qi qf p.alams nijAmf0 (J + 4) (coefSc qi qf m k.gf02)]
  ++ (if typ = .pn then [yukEx N J qi qf p.alams nijAwa0c (J + 4) (coefScC qi qf m k.ga0c2)] else [])
def nijDif (p : NijPars) (k : NijCop) (m : AmCoef) (typ : NijType) : List NijExchange :=
  [difEx N J qi qf (p.ampom * p.ampom) (J + 4) (coefDif qi qf m k.fpom2), difEx N J qi qf (p.ama2d * p.ama2d) (J + 4) (coefDif qi qf m (k.fa2d2 * nijIsign typ))]
  ++ (if typ = .pn then [difEx N J qi qf (p.ama2d * p.ama2d) (J + 4) (coefDifC qi qf m (k.fa2d2 * k.faciso))] else [])
end

/-- An evaluation of `VMOM`: the name of the wave, the type and the momenta. -/
structure NijEval where
  p : PhName
  typ : NijType
  qi : ℝ
  qf : ℝ

/-- All exchanges of an evaluation, P:954-957. -/
def NijEval.exchanges (N : NijNum) (e : NijEval) : List NijExchange :=
  let w := waveOf e.p
  let pars := nijPars (nijTable e.p (nijIsign e.typ))
  let cop := nymcop N pars e.typ w.iso (e.p = ⟨'1', 'S', 0⟩)
  let m := amfacs (nijAmy e.typ) (nijAmn e.typ)
  nijPs N w.j e.qi e.qf pars cop m e.typ ++ nijVec N w.j e.qi e.qf pars cop m e.typ ++ nijSc N w.j e.qi e.qf pars cop m e.typ ++ nijDif N w.j e.qi e.qf pars cop m e.typ

/-- The exchanges in turn with the memory of `SEX`; `junk` is what the local arrays `ELN`, `ERN` hold before each call.  `none` if a call leaves its tables. -/
def runEx (ce1 : ℝ → ℝ) (fuel : Nat) : List NijExchange → (Nat → (Nat → ℝ) × (Nat → ℝ)) → SexAll → PotMom → Option (SexAll × PotMom)
  | [], _, m, v => some (m, v)
  | e :: es, junk, m, v => (sexTop ce1 fuel m e.call.x e.call.y e.call.a e.call.j e.call.kom (junk 0).1 (junk 0).2).bind fun r =>
      runEx ce1 fuel es (fun k => junk (k + 1)) r.1 (v.add (e.add r.2.1 r.2.2))

/-- `VMOM`, P:752-960, with what `SEX` keeps between calls (`N.sex` is not used). -/
def vmomRun (N : NijNum) (fuel : Nat) (junk : Nat → (Nat → ℝ) × (Nat → ℝ)) (m : SexAll) (e : NijEval) : Option (SexAll × PotMom) :=
  runEx N.ce1 fuel (e.exchanges N) junk m PotMom.zero

end TicTac
end
