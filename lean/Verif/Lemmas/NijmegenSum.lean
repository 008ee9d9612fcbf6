import Verif.Lemmas.NijmegenCoef
/-! The amplitudes `VMOM` collects are those of the Nijmegen force. -/
noncomputable section
namespace TicTac
open Polynomial Spec MeasureTheory Set intervalIntegral

theorem foldl_get (l : List PotMom) (a : PotMom) (c : Fin 6) (k : Int) : (l.foldl PotMom.add a).get c k = a.get c k + (l.map fun b => b.get c k).sum := by
  induction l generalizing a with
  | nil => simp
  | cons b l ih =>
    rw [List.foldl_cons, ih, List.map_cons, List.sum_cons]
    have : (a.add b).get c k = a.get c k + b.get c k := by fin_cases c <;> rfl
    rw [this]; ring

theorem yuk_agree (N : NijNum) (J : Nat) (po pi lam m : ℝ) (jmax : Nat) (c : NijCoef) (e : Exchange) (m2 : ℝ) (hq1 : 0 < po) (hq2 : 0 < pi) (hm : 0 < m) (hl : 0 < lam)
    (hN : NijExact N po pi) (hp : e.prop = yukawaSq m2 lam) (hm2 : m2 = m * m) (hc : CoefOK c (facYuk po pi) po pi e) (hj : J + 4 ≤ jmax ∨ (J + 2 ≤ jmax ∧ e.quad = 0)) :
    (yukExchange N J po pi lam m jmax c).agree (exAmp e po pi J) := by
  subst hm2
  have hA := arrOK_yuk N po pi m lam hq1 hq2 hm hl hN jmax
  exact yukAdd_agree J jmax _ (facYuk po pi) po pi c _ e (exOK_yuk e po pi (m * m) lam (by positivity) hl hp) (by rw [hp]; exact hA) hc hj

theorem dif_agree (N : NijNum) (J : Nat) (po pi m : ℝ) (jmax : Nat) (c : NijCoef) (e : Exchange) (hq1 : 0 < po) (hq2 : 0 < pi) (hm : 0 < m)
    (hN : NijExact N po pi) (hp : e.prop = gaussian m) (hc : CoefOK c facDif po pi e) (hj : J + 4 ≤ jmax)
    (hz : e.central2 = 0 ∧ e.spin1 = 0 ∧ e.spin2 = 0 ∧ e.tensor0 = 0 ∧ e.tensor1 = 0 ∧ e.orbit1 = 0) :
    (difExchange N J po pi (m * m) jmax c).agree (exAmp e po pi J) := by
  obtain ⟨hr, hs, hg⟩ := arrOK_dif N po pi m hq1 hq2 hm hN jmax
  obtain ⟨z1, z2, z3, z4, z5, z6⟩ := hz
  have ok := exOK_gauss e po pi m hm hp
  rw [← hp] at hr hs hg
  have tr : ∀ z, transfer po pi z = po ^ 2 + pi ^ 2 - 2 * (po * pi) * z := fun z => by unfold transfer; ring
  unfold difExchange
  dsimp only
  generalize difArr N _ _ _ _ = A at *
  intro i k h1 h2
  fin_cases i
  · have h2 : k ≤ 1 := h2
    show c.xc * A.r (J + k) + c.yc * A.s (J + k) + c.xnl * A.r (J + k) = _
    have e1 : (exAmp e po pi J).get 0 k = legCoef (fun z => (e.central0 + (e.central1 + e.nonlocal) * (po ^ 2 + pi ^ 2)) * e.prop (transfer po pi z) +
        -(2 * (po * pi)) * e.central1 * (z * e.prop (transfer po pi z))) (J + k) := by
      apply legCoef_congr
      intro z _
      rw [z1]
      generalize e.prop (transfer po pi z) = P
      rw [tr]
      ring
    refine Eq.trans ?_ e1.symm
    rw [legCoef_add (by exact continuousOn_const.mul ok.p) (by exact continuousOn_const.mul (continuousOn_id.mul ok.p)), legCoef_smul, legCoef_smul, ← hr _ (by omega), ← hs _ (by omega)]
    have c0 := hc.c0
    have c1 := hc.c1
    rw [z1] at c0 c1
    linear_combination A.r (J + k) * c0 + A.s (J + k) * c1
  · show (0 : ℝ) = legCoef (fun z => (e.spin1 * transfer po pi z + e.spin2 * transfer po pi z ^ 2) * e.prop (transfer po pi z)) (J + k)
    rw [z2, z3]; simp [legCoef_zero]
  · show (0 : ℝ) = legCoef (fun z => (e.tensor0 + e.tensor1 * transfer po pi z) * e.prop (transfer po pi z)) (J + k)
    rw [z4, z5]; simp [legCoef_zero]
  · have h2 : k ≤ 2 := h2
    show c.xls * A.r (J + k) = legCoef (fun z => (e.orbit0 + e.orbit1 * transfer po pi z) * e.prop (transfer po pi z)) (J + k)
    rw [z6]
    simp only [zero_mul, add_zero]
    have l0 := hc.l0
    rw [z6] at l0
    rw [legCoef_smul, ← hr _ (by omega), l0]
    ring
  · have h2 : k ≤ 3 := h2
    show c.xq * A.r (J + k) = legCoef (fun z => e.quad * e.prop (transfer po pi z)) (J + k)
    rw [legCoef_smul, hc.q, ← hr _ (by omega)]
    ring
  · have h2 : k ≤ 2 := h2
    show c.xq * (po * pi) * A.g (J + k) = -legCoef (fun z => 1 / 2 * (e.quad * ∫ k2 in Ioi (transfer po pi z), e.prop k2)) (J + k)
    rw [legCoef_smul, legCoef_smul, hc.q]
    have := hg (J + k) (by omega)
    linear_combination e.quad * this

/-- The program's parameter record of a set. -/
def parsOf (c : NijSet) : NijPars where
  pv1 := c.etaSinglet
  alpv := c.pvRatio
  thpv := c.pvAngle
  gro := c.gRho
  gv1 := c.gSinglet
  alve := c.vRatio
  thv := c.vAngle
  fro := c.fRho
  fom := c.fOmega
  ffi := c.fPhi
  ga0 := c.gA0
  gep := c.gEps
  gf0 := c.gF0
  rhoc := 0
  gpom := c.gPom
  ga2d := c.gPom'
  ampom := c.mPom
  ama2d := c.mPom'
  alamp := c.cutP
  alamv := c.cutV
  alams := c.cutS
  aeps := c.eps1
  ame1 := c.mEps1
  beps := c.eps2
  ame2 := c.mEps2

theorem pars_singlet (J : Nat) (hJ : J ≤ 9) (p : PhName) (hp : nijName J 1 = some p) (typ : NijType) :
    nijPars (nijTable p (nijIsign typ)) = parsOf (nijSet (decide (typ = .pn)) 0 J false) := by
  interval_cases J <;> cases hp <;> cases typ <;> decide +kernel

theorem pars_triplet (J : Nat) (hJ : J ≤ 9) (p : PhName) (hp : nijName J 2 = some p) (typ : NijType) :
    nijPars (nijTable p (nijIsign typ)) = parsOf (nijSet (decide (typ = .pn)) 1 J false) := by
  interval_cases J <;> cases hp <;> cases typ <;> decide +kernel

theorem pars_coupled (J : Nat) (h0 : 1 ≤ J) (hJ : J ≤ 9) (p : PhName) (hp : nijName J 3 = some p) (typ : NijType) :
    nijPars (nijTable p (nijIsign typ)) = parsOf (nijSet (decide (typ = .pn)) 1 J true) := by
  interval_cases J <;> cases hp <;> cases typ <;> decide +kernel

/-- Cutoffs and masses are positive. -/
def NijSet.Pos (c : NijSet) : Prop := 0 < c.cutP ∧ 0 < c.cutV ∧ 0 < c.cutS ∧ 0 < c.mEps1 ∧ 0 < c.mEps2 ∧ 0 < c.mPom ∧ 0 < c.mPom'
instance (c : NijSet) : Decidable (NijSet.Pos c) := by unfold NijSet.Pos; infer_instance

theorem nijSet_pos (np : Bool) (S : Int) (J : Nat) (cpl : Bool) : NijSet.Pos (nijSet np S J cpl) := by
  unfold nijSet
  split
  all_goals first | decide +kernel | (split <;> decide +kernel)

/-- The charge state of a type. -/
def tzOf : NijType → Int | .pp => 1 | .pn => 0 | .nn => -1

theorem nucleons_eq (typ : NijType) : nucleons (tzOf typ) = ⟨nijAmy typ, nijAmn typ⟩ := by cases typ <;> simp [nucleons, tzOf, nijAmy, nijAmn, protm, neutm, protonMass, neutronMass]

theorem sign_eq (typ : NijType) : (nijIsign typ : ℝ) = if tzOf typ = 0 then -1 else 1 := by cases typ <;> simp [nijIsign, tzOf]

theorem mass_pos (typ : NijType) : 0 < nijAmy typ ∧ 0 < nijAmn typ := by cases typ <;> constructor <;> norm_num [nijAmy, nijAmn, protm, neutm]

theorem charged_eq (m : ℝ) (hm : 100 < m) :
    nijFac * Real.sqrt (m ^ 2 - (neutm - protm) ^ 2) * (nijFac * Real.sqrt (m ^ 2 - (neutm - protm) ^ 2)) = chargedSq (nucleons 0) m ∧
    0 < nijFac * Real.sqrt (m ^ 2 - (neutm - protm) ^ 2) := by
  have h1 : 0 < protm * neutm := by norm_num [protm, neutm]
  have h2 : 0 < protm + neutm := by norm_num [protm, neutm]
  have h3 : 0 < m ^ 2 - (neutm - protm) ^ 2 := by
    have : (neutm - protm) ^ 2 < 100 := by norm_num [protm, neutm]
    nlinarith
  have h4 := Real.sqrt_pos.2 h1
  have h5 := Real.sqrt_pos.2 h3
  constructor
  · have e1 := Real.mul_self_sqrt h1.le
    have e2 := Real.mul_self_sqrt h3.le
    have e3 : nijFac * nijFac = 4 * (protm * neutm) / (protm + neutm) ^ 2 := by
      unfold nijFac
      rw [div_mul_div_comm, mul_mul_mul_comm, e1]
      ring
    rw [mul_mul_mul_comm, e2, e3]
    simp only [chargedSq, nucleons, Pair.alpha, Pair.prod, Pair.sum, Pair.diffSq, if_neg (by decide : ¬ (0 : Int) = 1), if_true]
    unfold protm neutm protonMass neutronMass
    ring
  · unfold nijFac; positivity

section
variable (N : NijNum) (hf : ∀ x, N.fdexp x = Real.exp x) (c : NijSet) (typ : NijType) (iso : Nat) (b : Bool)
include hf

/-- The couplings of `NYMCOP`. -/
theorem cop_eq : let k := nymcop N (parsOf c) typ iso b
    let t3 : ℝ := if tzOf typ = 0 then -1 else 1
    let tc : ℝ := 4 * iso - 2
    k.fpi2 = t3 * (fPi c / scaleMass) ^ 2 ∧ k.feta2 = (fEta c / scaleMass) ^ 2 ∧ k.fetp2 = (fEta' c / scaleMass) ^ 2 ∧
    k.gro2 = t3 * (c.gRho : ℝ) ^ 2 ∧ k.gom2 = (gOmega c) ^ 2 ∧ k.gfi2 = (gPhi c) ^ 2 ∧
    k.fro2 = t3 * ((c.fRho : ℝ) / (2 * protonMass)) ^ 2 ∧ k.fom2 = ((c.fOmega : ℝ) / (2 * protonMass)) ^ 2 ∧ k.ffi2 = ((c.fPhi : ℝ) / (2 * protonMass)) ^ 2 ∧
    k.gfpro = t3 * (2 * ((c.gRho : ℝ) * c.fRho) / (2 * protonMass)) ∧ k.gfpom = 2 * (gOmega c * c.fOmega) / (2 * protonMass) ∧ k.gfpfi = 2 * (gPhi c * c.fPhi) / (2 * protonMass) ∧
    k.ga02 = t3 * (c.gA0 : ℝ) ^ 2 ∧ k.gep2 = (c.gEps : ℝ) ^ 2 ∧ k.gf02 = (c.gF0 : ℝ) ^ 2 ∧
    k.fpic2 = tc * (fPi c / scaleMass) ^ 2 ∧ k.groc2 = tc * (c.gRho : ℝ) ^ 2 ∧ k.froc2 = tc * ((c.fRho : ℝ) / (2 * protonMass)) ^ 2 ∧
    k.gfproc = tc * (2 * ((c.gRho : ℝ) * c.fRho) / (2 * protonMass)) ∧ k.ga0c2 = tc * (c.gA0 : ℝ) ^ 2 ∧
    k.fpom2 = ((c.gPom : ℝ) / protonMass) ^ 2 ∧ k.fa2d2 = ((c.gPom' : ℝ) / protonMass) ^ 2 ∧ k.faciso = tc := by
  have ex : (if b = true ∧ typ = .pn then 1 + (((parsOf c).rhoc : ℚ) : ℝ) else (1 : ℝ)) = 1 := by
    split_ifs
    · simp [parsOf]
    · rfl
  have e0 : Real.sqrt (0.075 * N.fdexp (-((nijAmpi / ((parsOf c).alamp : ℚ)) ^ 2))) = fPi c := by rw [hf]; rfl
  have e1 : nijAmpv = scaleMass := rfl
  have e2 : nijAmt = protonMass := rfl
  intro k t3 tc
  simp only [k, nymcop, ex, e0, e1, e2, sign_eq]
  refine ⟨?_, ?_, ?_, ?_, ?_, ?_, ?_, ?_, ?_, ?_, ?_, ?_, ?_, ?_, ?_, ?_, ?_, ?_, ?_, ?_, rfl, rfl, rfl⟩ <;>
  simp only [parsOf, fEta, fEta', gOmega, gPhi, mixLow, mixHigh, octet, nijConv, Spec.degree, t3, tc] <;> ring
end

/-- The sum of a list's amplitudes, entry by entry. -/
def sumGet (es : List Exchange) (po pi : ℝ) (J : Nat) (i : Fin 6) (k : Int) : ℝ := (es.map fun e => (exAmp e po pi J).get i k).sum

section
variable (N : NijNum) (po pi : ℝ) (hq1 : 0 < po) (hq2 : 0 < pi) (hN : NijExact N po pi) (c : NijSet) (hc : NijSet.Pos c) (J : Nat) (typ : NijType) (iso : Nat) (b : Bool)
include hN hc hq1 hq2

theorem terms_agree (i : Fin 6) (n : Int) (w1 : -window i ≤ n) (w2 : n ≤ window i) :
    ((nijTerms N J po pi (parsOf c) (nymcop N (parsOf c) typ iso b) (amfacs (nijAmy typ) (nijAmn typ)) typ).map fun a => a.get i n).sum
      = sumGet (nijExchanges c (tzOf typ) iso) po pi J i n := by
  obtain ⟨c1, c2, c3, c4, c5, c6, c7⟩ := hc
  have c1 : (0 : ℝ) < c.cutP := by exact_mod_cast c1
  have c2 : (0 : ℝ) < c.cutV := by exact_mod_cast c2
  have c3 : (0 : ℝ) < c.cutS := by exact_mod_cast c3
  have c4 : (0 : ℝ) < c.mEps1 := by exact_mod_cast c4
  have c5 : (0 : ℝ) < c.mEps2 := by exact_mod_cast c5
  have c6 : (0 : ℝ) < c.mPom := by exact_mod_cast c6
  have c7 : (0 : ℝ) < c.mPom' := by exact_mod_cast c7
  obtain ⟨k1, k2, k3, k4, k5, k6, k7, k8, k9, k10, k11, k12, k13, k14, k15, k16, k17, k18, k19, k20, k21, k22, k23⟩ := cop_eq N hN.fdexp c typ iso b
  obtain ⟨m1, m2⟩ := mass_pos typ
  have hnuc := nucleons_eq typ
  have hsg := sign_eq typ
  set t3 : ℝ := if tzOf typ = 0 then -1 else 1 with ht3
  generalize nymcop N (parsOf c) typ iso b = K at *
  set a : Pair := nucleons (tzOf typ) with ha
  have am1 : 0 < a.m1 := by rw [hnuc]; exact m1
  have am2 : 0 < a.m2 := by rw [hnuc]; exact m2
  have ham : amfacs (nijAmy typ) (nijAmn typ) = amfacs a.m1 a.m2 := by rw [hnuc]
  have half := (amfacs_eq a am1 am2).1
  rw [ham]
  have cf : ∀ {x y fac : _} {e e' : Exchange}, CoefOK x fac po pi e → x = y → e = e' → CoefOK y fac po pi e' := by
    rintro x y fac e e' h rfl rfl; exact h
  have A1 := yuk_agree N J po pi c.cutP nijAmpi (J + 2) (coefPs po pi K.fpi2) (pseudoscalar (t3 * (fPi c / scaleMass) ^ 2) (yukawaSq (pion0 ^ 2) c.cutP)) (pion0 ^ 2) hq1 hq2
    (by norm_num [nijAmpi]) c1 hN rfl (by unfold pion0 nijAmpi; ring) (by rw [← k1]; exact coefOK_ps ..) (Or.inr ⟨le_refl _, rfl⟩) i n w1 w2
  have A2 := yuk_agree N J po pi c.cutP nijAmeta (J + 2) (coefPs po pi K.feta2) (pseudoscalar ((fEta c / scaleMass) ^ 2) (yukawaSq (548.8 ^ 2) c.cutP)) (548.8 ^ 2) hq1 hq2
    (by norm_num [nijAmeta]) c1 hN rfl (by unfold nijAmeta; ring) (by rw [← k2]; exact coefOK_ps ..) (Or.inr ⟨le_refl _, rfl⟩) i n w1 w2
  have A3 := yuk_agree N J po pi c.cutP nijAmetp (J + 2) (coefPs po pi K.fetp2) (pseudoscalar ((fEta' c / scaleMass) ^ 2) (yukawaSq (957.5 ^ 2) c.cutP)) (957.5 ^ 2) hq1 hq2
    (by norm_num [nijAmetp]) c1 hN rfl (by unfold nijAmetp; ring) (by rw [← k3]; exact coefOK_ps ..) (Or.inr ⟨le_refl _, rfl⟩) i n w1 w2
  have A4 := yuk_agree N J po pi c.cutV nijAmr1 (J + 4) (coefVec po pi (amfacs a.m1 a.m2) (K.gro2 * nijAro) (K.fro2 * nijAro) (K.gfpro * nijAro))
    (vectorMeson a (t3 * 0.2655205) c.gRho c.fRho (yukawaSq (645.3772 ^ 2) c.cutV)) (645.3772 ^ 2) hq1 hq2
    (by norm_num [nijAmr1]) c2 hN rfl (by unfold nijAmr1; ring)
    (cf (coefOK_vec po pi a am1 am2 _ (K.gro2 * nijAro) (K.fro2 * nijAro) (K.gfpro * nijAro)) rfl
      (by rw [k4, k7, k10]; unfold vectorMeson nijAro; congr 1 <;> ring)) (Or.inl le_rfl) i n w1 w2
  have A5 := yuk_agree N J po pi c.cutV nijAmr2 (J + 4) (coefVec po pi (amfacs a.m1 a.m2) (K.gro2 * nijBro) (K.fro2 * nijBro) (K.gfpro * nijBro))
    (vectorMeson a (t3 * 0.5607493) c.gRho c.fRho (yukawaSq (878.3667 ^ 2) c.cutV)) (878.3667 ^ 2) hq1 hq2
    (by norm_num [nijAmr2]) c2 hN rfl (by unfold nijAmr2; ring)
    (cf (coefOK_vec po pi a am1 am2 _ (K.gro2 * nijBro) (K.fro2 * nijBro) (K.gfpro * nijBro)) rfl
      (by rw [k4, k7, k10]; unfold vectorMeson nijBro; congr 1 <;> ring)) (Or.inl le_rfl) i n w1 w2
  have A6 := yuk_agree N J po pi c.cutV nijAmom (J + 4) (coefVec po pi (amfacs a.m1 a.m2) K.gom2 K.fom2 K.gfpom)
    (vectorMeson a 1 (gOmega c) c.fOmega (yukawaSq (781.95 ^ 2) c.cutV)) (781.95 ^ 2) hq1 hq2
    (by norm_num [nijAmom]) c2 hN rfl (by unfold nijAmom; ring)
    (cf (coefOK_vec po pi a am1 am2 _ K.gom2 K.fom2 K.gfpom) rfl (by rw [k5, k8, k11]; unfold vectorMeson; congr 1 <;> ring)) (Or.inl le_rfl) i n w1 w2
  have A7 := yuk_agree N J po pi c.cutV nijAmfi (J + 4) (coefVec po pi (amfacs a.m1 a.m2) K.gfi2 K.ffi2 K.gfpfi)
    (vectorMeson a 1 (gPhi c) c.fPhi (yukawaSq (1019.412 ^ 2) c.cutV)) (1019.412 ^ 2) hq1 hq2
    (by norm_num [nijAmfi]) c2 hN rfl (by unfold nijAmfi; ring)
    (cf (coefOK_vec po pi a am1 am2 _ K.gfi2 K.ffi2 K.gfpfi) rfl (by rw [k6, k9, k12]; unfold vectorMeson; congr 1 <;> ring)) (Or.inl le_rfl) i n w1 w2
  have A8 := yuk_agree N J po pi c.cutS nijAma0 (J + 4) (coefSc po pi (amfacs a.m1 a.m2) K.ga02)
    (scalarNeutral a (t3 * c.gA0 ^ 2) (yukawaSq (983.3 ^ 2) c.cutS)) (983.3 ^ 2) hq1 hq2
    (by norm_num [nijAma0]) c3 hN rfl (by unfold nijAma0; ring) (by rw [← k13]; exact coefOK_sc _ _ _ am1 am2 ..) (Or.inl le_rfl) i n w1 w2
  have A9 := yuk_agree N J po pi c.cutS c.mEps1 (J + 4) (coefSc po pi (amfacs a.m1 a.m2) (K.gep2 * c.eps1))
    (scalarNeutral a (c.eps1 * c.gEps ^ 2) (yukawaSq (c.mEps1 ^ 2) c.cutS)) (c.mEps1 ^ 2) hq1 hq2
    c4 c3 hN rfl (by ring) (by rw [← k14, mul_comm]; exact coefOK_sc _ _ _ am1 am2 ..) (Or.inl le_rfl) i n w1 w2
  have A10 := yuk_agree N J po pi c.cutS c.mEps2 (J + 4) (coefSc po pi (amfacs a.m1 a.m2) (K.gep2 * c.eps2))
    (scalarNeutral a (c.eps2 * c.gEps ^ 2) (yukawaSq (c.mEps2 ^ 2) c.cutS)) (c.mEps2 ^ 2) hq1 hq2
    c5 c3 hN rfl (by ring) (by rw [← k14, mul_comm]; exact coefOK_sc _ _ _ am1 am2 ..) (Or.inl le_rfl) i n w1 w2
  have A11 := yuk_agree N J po pi c.cutS nijAmf0 (J + 4) (coefSc po pi (amfacs a.m1 a.m2) K.gf02)
    (scalarNeutral a (c.gF0 ^ 2) (yukawaSq (975.6 ^ 2) c.cutS)) (975.6 ^ 2) hq1 hq2
    (by norm_num [nijAmf0]) c3 hN rfl (by unfold nijAmf0; ring) (by rw [← k15]; exact coefOK_sc _ _ _ am1 am2 ..) (Or.inl le_rfl) i n w1 w2
  have A12 := dif_agree N J po pi c.mPom (J + 4) (coefDif po pi (amfacs a.m1 a.m2) K.fpom2) (diffractive a ((c.gPom / protonMass) ^ 2) (gaussian c.mPom)) hq1 hq2
    c6 hN rfl (by rw [← k21]; exact coefOK_dif _ _ _ am1 am2 ..) le_rfl ⟨rfl, rfl, rfl, rfl, rfl, rfl⟩ i n w1 w2
  have A13 := dif_agree N J po pi c.mPom' (J + 4) (coefDif po pi (amfacs a.m1 a.m2) (K.fa2d2 * nijIsign typ))
    (diffractive a (t3 * (c.gPom' / protonMass) ^ 2) (gaussian c.mPom')) hq1 hq2
    c7 hN rfl (by rw [← k22, mul_comm, hsg]; exact coefOK_dif _ _ _ am1 am2 ..) le_rfl ⟨rfl, rfl, rfl, rfl, rfl, rfl⟩ i n w1 w2
  have hsum : ∀ l l' : List PotMom, ((l ++ l').map fun a => a.get i n).sum = (l.map fun a => a.get i n).sum + (l'.map fun a => a.get i n).sum := by
    intro l l'; rw [List.map_append, List.sum_append]
  have hsumE : ∀ l l' : List Exchange, sumGet (l ++ l') po pi J i n = sumGet l po pi J i n + sumGet l' po pi J i n := by
    intro l l'; unfold sumGet; rw [List.map_append, List.sum_append]
  by_cases ht : typ = .pn
  · have hz : tzOf typ = 0 := by rw [ht]; rfl
    have hz' : a = nucleons 0 := by rw [ha, hz]
    obtain ⟨g1, g1'⟩ := charged_eq nijAmpic (by norm_num [nijAmpic])
    obtain ⟨g2, g2'⟩ := charged_eq nijAmrc1 (by norm_num [nijAmrc1])
    obtain ⟨g3, g3'⟩ := charged_eq nijAmrc2 (by norm_num [nijAmrc2])
    obtain ⟨g4, g4'⟩ := charged_eq nijAma0c (by norm_num [nijAma0c])
    rw [← hz'] at g1 g2 g3 g4
    have hdiff : (neutm - protm) ^ 2 = a.diffSq := by
      rw [hz']; simp only [nucleons, Pair.diffSq, if_neg (by decide : ¬ (0 : Int) = 1), if_true]; unfold protm neutm protonMass neutronMass; ring
    have B1 := yuk_agree N J po pi c.cutP nijAwpic (J + 2) (coefPs po pi (K.fpic2 / (amfacs a.m1 a.m2).alf))
      (pseudoscalar ((4 * iso - 2) * (fPi c / scaleMass) ^ 2 / a.alpha) (yukawaSq (chargedSq a pionC) c.cutP)) (chargedSq a pionC) hq1 hq2 g1' c1 hN rfl g1.symm
      (by rw [← k16, half]; exact coefOK_ps ..) (Or.inr ⟨le_refl _, rfl⟩) i n w1 w2
    have B2 := yuk_agree N J po pi c.cutV nijAwrc1 (J + 4) (coefVecC po pi (amfacs a.m1 a.m2) (K.groc2 * nijAroc) (K.froc2 * nijAroc) (K.gfproc * nijAroc) nijAvsc1)
      (vectorMesonCharged a ((4 * iso - 2) * 0.3875515) c.gRho c.fRho 674.1521 (yukawaSq (chargedSq a 674.1521) c.cutV)) (chargedSq a 674.1521) hq1 hq2 g2' c2 hN rfl g2.symm
      (cf (coefOK_vecC po pi a am1 am2 _ (K.groc2 * nijAroc) (K.froc2 * nijAroc) (K.gfproc * nijAroc) nijAvsc1) rfl
        (by rw [k17, k18, k19]; unfold vectorMesonCharged nijAroc nijAvsc1; rw [show ((neutm - protm) / nijAmrc1) ^ 2 = a.diffSq / nijAmrc1 ^ 2 by rw [div_pow, hdiff]]; unfold nijAmrc1; congr 1 <;> ring)) (Or.inl le_rfl) i n w1 w2
    have B3 := yuk_agree N J po pi c.cutV nijAwrc2 (J + 4) (coefVecC po pi (amfacs a.m1 a.m2) (K.groc2 * nijBroc) (K.froc2 * nijBroc) (K.gfproc * nijBroc) nijAvsc2)
      (vectorMesonCharged a ((4 * iso - 2) * 0.4508341) c.gRho c.fRho 929.9742 (yukawaSq (chargedSq a 929.9742) c.cutV)) (chargedSq a 929.9742) hq1 hq2 g3' c2 hN rfl g3.symm
      (cf (coefOK_vecC po pi a am1 am2 _ (K.groc2 * nijBroc) (K.froc2 * nijBroc) (K.gfproc * nijBroc) nijAvsc2) rfl
        (by rw [k17, k18, k19]; unfold vectorMesonCharged nijBroc nijAvsc2; rw [show ((neutm - protm) / nijAmrc2) ^ 2 = a.diffSq / nijAmrc2 ^ 2 by rw [div_pow, hdiff]]; unfold nijAmrc2; congr 1 <;> ring)) (Or.inl le_rfl) i n w1 w2
    have B4 := yuk_agree N J po pi c.cutS nijAwa0c (J + 4) (coefScC po pi (amfacs a.m1 a.m2) K.ga0c2)
      (scalarCharged a ((4 * iso - 2) * c.gA0 ^ 2) (yukawaSq (chargedSq a 983.3) c.cutS)) (chargedSq a 983.3) hq1 hq2 g4' c3 hN rfl g4.symm
      (by rw [← k20]; exact coefOK_scC _ _ _ am1 am2 ..) (Or.inl le_rfl) i n w1 w2
    have B5 := dif_agree N J po pi c.mPom' (J + 4) (coefDifC po pi (amfacs a.m1 a.m2) (K.fa2d2 * K.faciso))
      (diffractiveCharged a ((4 * iso - 2) * (c.gPom' / protonMass) ^ 2) (gaussian c.mPom')) hq1 hq2
      c7 hN rfl (by rw [← k22, ← k23, mul_comm]; exact coefOK_difC _ _ _ am1 am2 ..) le_rfl ⟨rfl, rfl, rfl, rfl, rfl, rfl⟩ i n w1 w2
    have t3v : t3 = -1 := by rw [ht3, if_pos hz]
    rw [t3v] at A1 A4 A5 A8 A13
    unfold nijTerms nijExchanges
    simp only [hsum, hsumE, if_pos ht, if_pos hz]
    simp only [sumGet, List.map_cons, List.map_nil, List.sum_cons, List.sum_nil, Int.cast_natCast]
    dsimp only [parsOf]
    rw [A1, A2, A3, A4, A5, A6, A7, A8, A9, A10, A11, A12, A13, B1, B2, B3, B4, B5]
    ring
  · have hz : ¬ tzOf typ = 0 := by cases typ <;> simp [tzOf] at ht ⊢
    have t3v : t3 = 1 := by rw [ht3, if_neg hz]
    rw [t3v] at A1 A4 A5 A8 A13
    unfold nijTerms nijExchanges
    simp only [hsum, hsumE, if_neg ht, if_neg hz]
    simp only [sumGet, List.map_cons, List.map_nil, List.sum_cons, List.sum_nil]
    dsimp only [parsOf]
    rw [A1, A2, A3, A4, A5, A6, A7, A8, A9, A10, A11, A12, A13]
    ring
end

theorem exchanges_ok (c : NijSet) (hc : NijSet.Pos c) (Tz T : Int) (po pi : ℝ) : ∀ e ∈ nijExchanges c Tz T, ExOK e po pi := by
  obtain ⟨c1, c2, c3, c4, c5, c6, c7⟩ := hc
  have c1 : (0 : ℝ) < c.cutP := by exact_mod_cast c1
  have c2 : (0 : ℝ) < c.cutV := by exact_mod_cast c2
  have c3 : (0 : ℝ) < c.cutS := by exact_mod_cast c3
  have c4 : (0 : ℝ) < c.mEps1 := by exact_mod_cast c4
  have c5 : (0 : ℝ) < c.mEps2 := by exact_mod_cast c5
  have c6 : (0 : ℝ) < c.mPom := by exact_mod_cast c6
  have c7 : (0 : ℝ) < c.mPom' := by exact_mod_cast c7
  have hch : ∀ m : ℝ, 100 < m → 0 < chargedSq (nucleons 0) m := by
    intro m hm
    obtain ⟨h1, h2⟩ := charged_eq m hm
    rw [← h1]; positivity
  intro e he
  unfold nijExchanges at he
  rw [List.mem_append] at he
  rcases he with he | he
  · simp only [List.mem_cons, List.not_mem_nil, or_false] at he
    rcases he with rfl | rfl | rfl | rfl | rfl | rfl | rfl | rfl | rfl | rfl | rfl | rfl | rfl
    · exact exOK_yuk _ po pi _ _ (by norm_num [pion0]) c1 rfl
    · exact exOK_yuk _ po pi _ _ (by norm_num) c1 rfl
    · exact exOK_yuk _ po pi _ _ (by norm_num) c1 rfl
    · exact exOK_yuk _ po pi _ _ (by norm_num) c2 rfl
    · exact exOK_yuk _ po pi _ _ (by norm_num) c2 rfl
    · exact exOK_yuk _ po pi _ _ (by norm_num) c2 rfl
    · exact exOK_yuk _ po pi _ _ (by norm_num) c2 rfl
    · exact exOK_yuk _ po pi _ _ (by norm_num) c3 rfl
    · exact exOK_yuk _ po pi _ _ (by positivity) c3 rfl
    · exact exOK_yuk _ po pi _ _ (by positivity) c3 rfl
    · exact exOK_yuk _ po pi _ _ (by norm_num) c3 rfl
    · exact exOK_gauss _ po pi _ c6 rfl
    · exact exOK_gauss _ po pi _ c7 rfl
  · split_ifs at he with hz
    · subst hz
      simp only [List.mem_cons, List.not_mem_nil, or_false] at he
      rcases he with rfl | rfl | rfl | rfl | rfl
      · exact exOK_yuk _ po pi _ _ (hch _ (by norm_num [pionC])) c1 rfl
      · exact exOK_yuk _ po pi _ _ (hch _ (by norm_num)) c2 rfl
      · exact exOK_yuk _ po pi _ _ (hch _ (by norm_num)) c2 rfl
      · exact exOK_yuk _ po pi _ _ (hch _ (by norm_num)) c3 rfl
      · exact exOK_gauss _ po pi _ c7 rfl
    · simp at he

theorem force_cont (c : NijSet) (hc : NijSet.Pos c) (Tz T : Int) (po pi : ℝ) : NijCont (exchangeForce (nijExchanges c Tz T) po pi) :=
  (potMom_list _ po pi 0 (exchanges_ok c hc Tz T po pi)).1

theorem vmom_agree (N : NijNum) (po pi : ℝ) (hq1 : 0 < po) (hq2 : 0 < pi) (hN : NijExact N po pi) (p : PhName) (typ : NijType) (c : NijSet) (hc : NijSet.Pos c)
    (hp : nijPars (nijTable p (nijIsign typ)) = parsOf c) :
    (vmom N p typ po pi).agree (potMomOf (exchangeForce (nijExchanges c (tzOf typ) (waveOf p).iso) po pi) (waveOf p).j) := by
  intro i k h1 h2
  rw [(potMom_list _ po pi _ (exchanges_ok c hc _ _ po pi)).2]
  unfold vmom
  dsimp only
  rw [hp, foldl_get, terms_agree N po pi hq1 hq2 hN c hc _ typ _ _ i k h1 h2]
  have : PotMom.zero.get i k = 0 := by fin_cases i <;> rfl
  rw [this, zero_add]
  rfl

end TicTac
end
