import Verif.Model.Loops
import Verif.Lemmas.Spectral
import Verif.Props.Chp
/-! C99, C100: the two-pion exchange of the chiral models is the published one, with the loop functions given by the two-pion spectrum up to the
spectral cutoff. -/
noncomputable section
namespace TicTac
open Spec MeasureTheory Set

theorem loopW_sq (p : PionData) (q2 : ℝ) (hq : 0 < q2) : loopW p q2 ^ 2 = 4 * p.mpi 2 ^ 2 + q2 := by
  unfold loopW fourmpi2 mpi2
  rw [Real.sq_sqrt (by nlinarith [sq_nonneg (p.mpi 2)])]
  ring

theorem loopW_pos (p : PionData) (q2 : ℝ) (hq : 0 < q2) : 0 < loopW p q2 := by
  unfold loopW fourmpi2 mpi2
  exact Real.sqrt_pos.2 (by nlinarith [sq_nonneg (p.mpi 2)])

/-- C100 (1): the loop function `A` of the program is the spectral integral. -/
theorem C100_A (p : PionData) (q2 : ℝ) (hm : 0 < p.mpi 2) (hq2 : 0 < q2) : loopA p q2 = spectralA (p.mpi 2) p.sfr q2 := by
  have hq : 0 < Real.sqrt q2 := Real.sqrt_pos.2 hq2
  have hqq : Real.sqrt q2 ^ 2 = q2 := Real.sq_sqrt hq2.le
  have ha : 0 < 2 * p.mpi 2 := by positivity
  have hd : ∀ x ∈ Ioi (2 * p.mpi 2), HasDerivAt (antiA (2 * p.mpi 2) (Real.sqrt q2)) (1 / (x ^ 2 + q2)) x := fun x hx => by
    have := antiA_deriv ha hq (ha.trans hx)
    rwa [hqq] at this
  have hc := antiA_cont ha hq
  have h0 : ∀ x ∈ Ioi (2 * p.mpi 2), 0 ≤ 1 / (x ^ 2 + q2) := fun x _ => by positivity
  unfold loopA spectralA twoPionSpectrum twompi
  dsimp only
  rcases p.sfr with _ | Λ
  · dsimp only
    rw [integral_Ioi_deriv hc hd h0 (antiA_lim ha hq), antiA_self]
    field_simp
    ring
  · dsimp only
    by_cases hΛ : Λ - 2 * p.mpi 2 < 0
    · rw [if_pos hΛ, Ioc_eq_empty (by linarith)]; simp
    · rw [if_neg hΛ, integral_Ioc_deriv (by linarith) hc hd h0, antiA_self, sub_zero]
      unfold antiA
      rw [hqq]
      field_simp

/-- C100 (2): the loop function `L` of the program is the spectral integral. -/
theorem C100_L (p : PionData) (q2 : ℝ) (hm : 0 < p.mpi 2) (hq2 : 0 < q2) : loopL p q2 = spectralL (p.mpi 2) p.sfr q2 := by
  have hq : 0 < Real.sqrt q2 := Real.sqrt_pos.2 hq2
  have hqq : Real.sqrt q2 ^ 2 = q2 := Real.sq_sqrt hq2.le
  have ha : 0 < 2 * p.mpi 2 := by positivity
  have hw := loopW_pos p q2 hq2
  have hww := loopW_sq p q2 hq2
  have hw2 : loopW p q2 ^ 2 = (2 * p.mpi 2) ^ 2 + Real.sqrt q2 ^ 2 := by rw [hww, hqq]; ring
  have e4 : (2 * p.mpi 2) ^ 2 = 4 * p.mpi 2 ^ 2 := by ring
  have hd : ∀ x ∈ Ioi (2 * p.mpi 2), HasDerivAt (antiL (2 * p.mpi 2) (Real.sqrt q2) (loopW p q2))
      (1 / ((x ^ 2 + q2) * Real.sqrt (x ^ 2 - 4 * p.mpi 2 ^ 2))) x := fun x hx => by
    have := antiL_deriv ha hq hw hw2 hx
    rwa [hqq, e4] at this
  have hc := antiL_cont ha hq hw
  have h0 : ∀ x ∈ Ioi (2 * p.mpi 2), 0 ≤ 1 / ((x ^ 2 + q2) * Real.sqrt (x ^ 2 - 4 * p.mpi 2 ^ 2)) := fun x _ => by positivity
  unfold loopL spectralL twoPionSpectrum twompi
  dsimp only
  rw [← hww]
  generalize loopW p q2 = w at *
  rcases p.sfr with _ | Λ
  · dsimp only
    rw [integral_Ioi_deriv hc hd h0 (antiL_lim ha hq hw), antiL_self ha hw2]
    field_simp
    ring
  · dsimp only
    by_cases hΛ : Λ - 2 * p.mpi 2 < 0
    · rw [if_pos hΛ, Ioc_eq_empty (by linarith)]; simp
    · have hs : 0 ≤ Λ ^ 2 - (2 * p.mpi 2) ^ 2 := by nlinarith
      rw [if_neg hΛ, integral_Ioc_deriv (by linarith) hc hd h0, antiL_self ha hw2, sub_zero]
      unfold antiL fourmpi2 mpi2
      rw [show Λ * Λ - 4 * (p.mpi 2 * p.mpi 2) = Λ ^ 2 - (2 * p.mpi 2) ^ 2 by ring]
      have hss := Real.sq_sqrt hs
      generalize Real.sqrt (Λ ^ 2 - (2 * p.mpi 2) ^ 2) = s at *
      generalize Real.sqrt q2 = q at *
      subst hqq
      rw [show (Λ * Λ * w * w + q ^ 2 * s * s + 2 * Λ * q * w * s) / (4 * (p.mpi 2 * p.mpi 2) * (Λ * Λ + q ^ 2)) =
        (Λ * w + q * s) ^ 2 / ((2 * p.mpi 2) ^ 2 * (Λ ^ 2 + q ^ 2)) by ring_nf]
      generalize Real.log _ = l
      field_simp

/-! ### The published expressions -/

/-- The inputs of the expressions for any setting of the program. -/
def tpeOf (p : PionData) (im : Int) (q2 k2 : ℝ) : TPE where
  g := p.gA
  f := p.fpi
  m := p.mpi 2
  u := 1 / p.mnuc im
  c1 := p.c1
  c2 := p.c2
  c3 := p.c3
  c4 := p.c4
  d12 := p.d12
  d3 := p.d3
  d5 := p.d5
  d1415 := p.d1415
  L := spectralL (p.mpi 2) p.sfr q2
  A := spectralA (p.mpi 2) p.sfr q2
  q2 := q2
  k2 := k2

variable (r : LoopRules) (p : PionData) (im : Int) (q2 k2 : ℝ) (hm : 0 < p.mpi 2) (hq2 : 0 < q2)
include hm hq2

theorem class_l0 (A : Amp) : loopProf r p .l0 A im q2 k2 = (tpeOf p im q2 k2).nlo A := by
  have hw := loopW_sq p q2 hq2
  have hL := C100_L p q2 hm hq2
  cases A <;> simp only [loopProf, loopCall, oneLoop, TPE.nlo, withSpin, mul_zero]
  all_goals simp only [l0Wc, l0Vs, l0VT, tpeOf, hL, TPE.w2, ← hw, loopConst, gA4, gA2, fpi4, fpi2, mpi4, mpi2, fourmpi2, pi2]
  all_goals ring

theorem class_ld (A : Amp) : loopProf r p .ld A im q2 k2 = { tpeOf p im q2 k2 with u := 0 }.n2lo A := by
  have hw := loopW_sq p q2 hq2
  have hA := C100_A p q2 hm hq2
  cases A <;> simp only [loopProf, loopCall, oneLoop, TPE.n2lo, withSpin, mul_zero, zero_mul, zero_div]
  all_goals simp only [ldVc, ldWT, ldWs, tpeOf, hA, TPE.w2, TPE.wt2, loopWt2, ← hw, loopConst, gA4, gA2, fpi4, fpi2, mpi2]
  all_goals ring

theorem class_lr_201 (hr : p.rMode = 201) (A : Amp) : loopProf r p .lr A im q2 k2 =
    (tpeOf p im q2 k2).n2lo A - { tpeOf p im q2 k2 with u := 0 }.n2lo A + (tpeOf p im q2 k2).iterated A := by
  have hw := loopW_sq p q2 hq2
  have hA := C100_A p q2 hm hq2
  cases A <;> simp only [loopProf, loopCall, oneLoop, TPE.n2lo, TPE.iterated, withSpin, mul_zero, zero_mul, zero_div, sub_zero, add_zero]
  all_goals simp only [lrVc, lrWc, lrVT, lrVs, lrWT, lrWs, lrVLS, lrWLS, if_pos hr, tpeOf, hA, TPE.w2, TPE.wt2, loopWt2, ← hw, loopConst, gA4,
    gA2, fpi4, fpi2, mpi5, mpi4, mpi2, fourmpi2]
  all_goals generalize Real.pi = π
  all_goals ring

theorem class_lr_202 (hr : p.rMode = 202) (A : Amp) : loopProf r p .lr A im q2 k2 = (tpeOf p im q2 k2).recoil A := by
  have hw := loopW_sq p q2 hq2
  have hA := C100_A p q2 hm hq2
  cases A <;> simp only [loopProf, loopCall, oneLoop, TPE.recoil, withSpin, mul_zero]
  all_goals simp only [lrVc, lrWc, lrVT, lrVs, lrWT, lrWs, lrVLS, lrWLS, hr, if_neg (show ¬ (202 : Int) = 201 by decide),
    if_neg (show ¬ (202 : Int) = 203 by decide), if_true, tpeOf, hA, TPE.w2, TPE.wt2, loopWt2, ← hw, loopConst, gA4,
    gA2, fpi4, fpi2, mpi5, mpi4, mpi2, fourmpi2]
  all_goals generalize Real.pi = π
  all_goals ring

theorem class_lr_204 (hr : p.rMode = 204) (A : Amp) : loopProf r p .lr A im q2 k2 = (tpeOf p im q2 k2).recoil A := by
  have hw := loopW_sq p q2 hq2
  have hw' : loopW p q2 * loopW p q2 = 4 * p.mpi 2 ^ 2 + q2 := by rw [← hw]; ring
  have hA := C100_A p q2 hm hq2
  cases A <;> simp only [loopProf, loopCall, oneLoop, TPE.recoil, withSpin]
  case VLS | WLS =>
    simp only [lrVLS, lrWLS, tpeOf, hA, TPE.w2, loopWt2, ← hw, loopConst, gA4, gA2, fpi4, fpi2, mpi2]
    ring
  case Vc | Wc =>
    simp only [lrVc, lrWc, hr, if_neg (show ¬ (204 : Int) = 201 by decide), if_neg (show ¬ (204 : Int) = 202 by decide),
      if_neg (show ¬ (204 : Int) = 203 by decide), if_true, tpeOf, hA, TPE.w2, loopWt2, ← hw, loopConst, gA4, gA2, fpi4, fpi2, mpi5, mpi4, mpi2]
    ring
  all_goals simp only [lrVT, lrVs, lrWT, lrWs, hr, if_neg (show ¬ (204 : Int) = 201 by decide),
    if_neg (show ¬ (204 : Int) = 202 by decide), if_neg (show ¬ (204 : Int) = 203 by decide), if_true, tpeOf, hA, TPE.w2, loopWt2,
    hw, hw', loopConst, gA4, gA2, fpi4, fpi2, mpi5, mpi4, mpi2]
  all_goals generalize Real.pi = π
  all_goals ring

theorem class_ldd (A : Amp) : loopProf r p .ldd A im q2 k2 = (tpeOf p im q2 k2).ci2 A := by
  have hw := loopW_sq p q2 hq2
  have hL := C100_L p q2 hm hq2
  cases A <;> simp only [loopProf, loopCall, oneLoop, TPE.ci2, withSpin, mul_zero]
  all_goals simp only [lddVc, lddWT, lddWs, tpeOf, hL, TPE.w2, TPE.wt2, loopWt2, ← hw, loopConst, fpi4, fpi2, mpi2, fourmpi2, pi2]
  all_goals ring

theorem class_ldr (A : Amp) : loopProf r p .ldr A im q2 k2 = (tpeOf p im q2 k2).ciM A := by
  have hw := loopW_sq p q2 hq2
  have hL := C100_L p q2 hm hq2
  cases A <;> simp only [loopProf, loopCall, oneLoop, TPE.ciM, withSpin, mul_zero]
  all_goals simp only [ldrVc, ldrWc, ldrVLS, ldrWLS, ldrWT, ldrWs, mnucInv, tpeOf, hL, TPE.w2, ← hw, loopConst, gA2, fpi4, fpi2, mpi4, mpi2, pi2]
  all_goals ring

theorem class_lrr (A : Amp) : loopProf r p .lrr A im q2 k2 = (tpeOf p im q2 k2).overM2 A := by
  have hw := loopW_sq p q2 hq2
  have hL := C100_L p q2 hm hq2
  cases A <;> simp only [loopProf, loopCall, oneLoop, TPE.overM2, withSpin]
  all_goals simp only [lrrVc, lrrWc, lrrVLS, lrrWLS, lrrVT, lrrVs, lrrWT, lrrWs, lrrVsigL, mnucInv, tpeOf, hL, TPE.w2, ← hw, loopConst, gA2, fpi4,
    fpi2, mpi4, mpi3, mpi2, pi2]
  all_goals ring

theorem class_l2 (hs : p.sfr = none) (hl : p.loopInt = false) (A : Amp) : loopProf r p .l2 A im q2 k2 = (tpeOf p im q2 k2).twoLoop A := by
  have hw := loopW_sq p q2 hq2
  have hL := C100_L p q2 hm hq2
  have hA := C100_A p q2 hm hq2
  have hi : p.sfr.isSome = false := by rw [hs]; rfl
  cases A <;> simp only [loopProf, loopCall, twoLoopDR, hi, hl, TPE.twoLoop, withSpin, mul_zero, add_zero, if_false, Bool.false_eq_true]
  all_goals simp only [l2VcDR, l2WcDRa, l2VTDRa, l2WTDR, l2VsDRa, l2WsDR, tpeOf, hL, hA, TPE.w2, TPE.wt2, loopWt2, ← hw, loopConst, gA2, fpi4,
    fpi2, fpiInv, mpi2, pi2]
  all_goals ring

end TicTac
end
