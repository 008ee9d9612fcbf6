import Verif.Model.Loops
import Verif.Spec.TwoPion
import Mathlib.Analysis.SpecialFunctions.Arsinh
import Mathlib.Analysis.SpecialFunctions.Sqrt
/-! C103: accuracy of the bracket in the integrals of the two-loop terms. -/
noncomputable section
namespace TicTac
open Spec Set

/-- The expansion used below 0.05. -/
def helperTaylor (y : ℝ) : ℝ := -(8 / 315) * y ^ 6 + 2 / 35 * y ^ 4 - y ^ 2 / 5 - 4 / 3

theorem bracket_eq (y : ℝ) (h : 0 < y) : bracket y = 1 / y ^ 2 - Real.sqrt (1 + y ^ 2) ^ 3 / y ^ 3 * Real.arsinh y := by
  unfold bracket Real.arsinh
  rw [show 1 + 1 / y ^ 2 = (1 + y ^ 2) / y ^ 2 by field_simp; ring, Real.sqrt_div (by positivity), Real.sqrt_sq h.le, div_pow]

theorem helper_large (y : ℝ) (h : 0.05 ≤ y) : loopHelper y = bracket y := by
  have h0 : 0 < y := lt_of_lt_of_le (by norm_num) h
  have hs : Real.sqrt (1 + 1 / (y * y)) = Real.sqrt (1 + y ^ 2) / y := by
    rw [show 1 + 1 / (y * y) = (1 + y ^ 2) / y ^ 2 by field_simp; ring, Real.sqrt_div (by positivity), Real.sqrt_sq h0.le]
  unfold loopHelper
  rw [if_neg (not_lt.2 h), bracket_eq y h0]
  dsimp only
  rw [hs]
  have e : y * (1 + Real.sqrt (1 + y ^ 2) / y) = y + Real.sqrt (1 + y ^ 2) := by field_simp
  rw [e]
  unfold Real.arsinh
  have h2 : Real.sqrt (1 + y ^ 2) ^ 2 = 1 + y ^ 2 := Real.sq_sqrt (by positivity)
  generalize Real.log _ = l
  generalize Real.sqrt (1 + y ^ 2) = s at *
  have : 1 + 1 / (y * y) = s ^ 2 / y ^ 2 := by rw [h2]; field_simp; ring
  rw [this]
  field_simp

def helperGap (y : ℝ) : ℝ := Real.arsinh y - (y - y ^ 3 * helperTaylor y) / Real.sqrt (1 + y ^ 2) ^ 3

theorem helperGap_deriv (y : ℝ) : HasDerivAt helperGap (-(16 / 105) * y ^ 10 / Real.sqrt (1 + y ^ 2) ^ 5) y := by
  have hs0 : 0 < Real.sqrt (1 + y ^ 2) := Real.sqrt_pos.2 (by positivity)
  have h2 : Real.sqrt (1 + y ^ 2) ^ 2 = 1 + y ^ 2 := Real.sq_sqrt (by positivity)
  have hq : HasDerivAt (fun y : ℝ => 1 + y ^ 2) (2 * y) y := by simpa using (hasDerivAt_pow 2 y).const_add 1
  have hs : HasDerivAt (fun y : ℝ => Real.sqrt (1 + y ^ 2)) (2 * y / (2 * Real.sqrt (1 + y ^ 2))) y := hq.sqrt (by positivity)
  have hn : HasDerivAt (fun y : ℝ => y - y ^ 3 * helperTaylor y) (1 + 4 * y ^ 2 + y ^ 4 - 2 / 5 * y ^ 6 + 8 / 35 * y ^ 8) y := by
    have e : (fun y : ℝ => y - y ^ 3 * helperTaylor y) = fun y => y + (4 / 3 * y ^ 3 + (1 / 5 * y ^ 5 + (-(2 / 35) * y ^ 7 + 8 / 315 * y ^ 9))) := by
      funext y; unfold helperTaylor; ring
    rw [e]
    have h3 := (hasDerivAt_pow 3 y).const_mul (4 / 3)
    have h5 := (hasDerivAt_pow 5 y).const_mul (1 / 5)
    have h7 := (hasDerivAt_pow 7 y).const_mul (-(2 / 35))
    have h9 := (hasDerivAt_pow 9 y).const_mul (8 / 315)
    refine ((hasDerivAt_id y).add (h3.add (h5.add (h7.add h9)))).congr_deriv ?_
    norm_num
    ring
  have h := (Real.hasDerivAt_arsinh y).sub (hn.div (hs.pow 3) (by simp only [Pi.pow_apply]; positivity))
  refine h.congr_deriv ?_
  simp only [Pi.pow_apply, helperTaylor]
  generalize Real.sqrt (1 + y ^ 2) = s at *
  have hs' : s ^ 4 = (1 + y ^ 2) ^ 2 := by rw [← h2]; ring
  have e4 : s ^ 5 = s * (1 + y ^ 2) ^ 2 := by rw [← hs']; ring
  field_simp
  rw [show s ^ 4 = (1 + y ^ 2) ^ 2 from hs', h2]
  have h6 : s ^ 6 = (1 + y ^ 2) ^ 3 := by rw [← h2]; ring
  linear_combination 17364375 * h6

theorem helperGap_bounds (y : ℝ) (h : 0 ≤ y) : helperGap y ≤ 0 ∧ -(16 / 1155) * y ^ 11 ≤ helperGap y := by
  have h00 : helperGap 0 = 0 := by simp [helperGap]
  have hc : Continuous helperGap := continuous_iff_continuousAt.2 fun y => (helperGap_deriv y).continuousAt
  constructor
  · have := antitoneOn_of_deriv_nonpos (convex_Ici (0 : ℝ)) hc.continuousOn (fun y _ => (helperGap_deriv y).differentiableAt.differentiableWithinAt)
      (fun y _ => by
        rw [(helperGap_deriv y).deriv, neg_mul, neg_div, neg_nonpos]; positivity)
    have := this self_mem_Ici h h
    rwa [h00] at this
  · have hd : ∀ y : ℝ, HasDerivAt (fun y => helperGap y + 16 / 1155 * y ^ 11) (-(16 / 105) * y ^ 10 / Real.sqrt (1 + y ^ 2) ^ 5 + 16 / 105 * y ^ 10) y := fun y => by
      refine ((helperGap_deriv y).add ((hasDerivAt_pow 11 y).const_mul (16 / 1155))).congr_deriv ?_
      norm_num; ring
    have := monotoneOn_of_deriv_nonneg (convex_Ici (0 : ℝ)) (f := fun y => helperGap y + 16 / 1155 * y ^ 11) (by fun_prop)
      (fun y _ => (hd y).differentiableAt.differentiableWithinAt) (fun y _ => by
        rw [(hd y).deriv]
        have h1 : 1 ≤ Real.sqrt (1 + y ^ 2) ^ 5 := one_le_pow₀ (Real.one_le_sqrt.2 (by nlinarith [sq_nonneg y]))
        have h2 : 16 / 105 * y ^ 10 / Real.sqrt (1 + y ^ 2) ^ 5 ≤ 16 / 105 * y ^ 10 := div_le_self (by positivity) h1
        rw [neg_mul, neg_div]
        linarith)
    have := this self_mem_Ici h h
    simp only [h00] at this
    norm_num at this
    linarith

/-- **C103.** The function used for the bracket in the integrals of the two-loop terms is the bracket for arguments from 0.05 on, and below differs from it by less
than `5.5·10⁻¹³`, while the bracket is below `-1.3`. -/
theorem C103_bracket (y : ℝ) (h : 0 < y) :
    (0.05 ≤ y → loopHelper y = bracket y) ∧
    (y < 0.05 → loopHelper y ≤ bracket y ∧ bracket y ≤ loopHelper y + 5.5e-13 ∧ bracket y ≤ -1.3) := by
  refine ⟨helper_large y, fun hs => ?_⟩
  obtain ⟨h1, h2⟩ := helperGap_bounds y h.le
  have ht : loopHelper y = helperTaylor y := by
    unfold loopHelper helperTaylor; rw [if_pos hs]; ring
  have hs0 : 0 < Real.sqrt (1 + y ^ 2) := Real.sqrt_pos.2 (by positivity)
  have hb : bracket y = helperTaylor y - Real.sqrt (1 + y ^ 2) ^ 3 / y ^ 3 * helperGap y := by
    rw [bracket_eq y h]; unfold helperGap; field_simp; ring
  have hsq : Real.sqrt (1 + y ^ 2) ≤ 1.002 := by
    rw [Real.sqrt_le_left (by norm_num)]
    norm_num at hs ⊢
    nlinarith
  norm_num at hs
  have hk : 0 < Real.sqrt (1 + y ^ 2) ^ 3 / y ^ 3 := by positivity
  have hup : -(Real.sqrt (1 + y ^ 2) ^ 3 / y ^ 3 * helperGap y) ≤ 5.5e-13 := by
    have a1 : Real.sqrt (1 + y ^ 2) ^ 3 / y ^ 3 * (-(16 / 1155) * y ^ 11) ≤ Real.sqrt (1 + y ^ 2) ^ 3 / y ^ 3 * helperGap y :=
      mul_le_mul_of_nonneg_left h2 hk.le
    have a2 : Real.sqrt (1 + y ^ 2) ^ 3 / y ^ 3 * (-(16 / 1155) * y ^ 11) = -(16 / 1155) * (Real.sqrt (1 + y ^ 2) ^ 3 * y ^ 8) := by field_simp
    have a3 : Real.sqrt (1 + y ^ 2) ^ 3 * y ^ 8 ≤ 1.002 ^ 3 * (1 / 20) ^ 8 :=
      mul_le_mul (pow_le_pow_left₀ hs0.le hsq 3) (pow_le_pow_left₀ h.le hs.le 8) (by positivity) (by positivity)
    norm_num at a3 ⊢
    linarith
  have hneg : Real.sqrt (1 + y ^ 2) ^ 3 / y ^ 3 * helperGap y ≤ 0 := mul_nonpos_of_nonneg_of_nonpos hk.le h1
  have ht2 : helperTaylor y ≤ -1.31 := by
    unfold helperTaylor
    have y2 : y ^ 2 ≤ 1 / 400 := by nlinarith
    have y4 : y ^ 4 ≤ 1 / 400 := by nlinarith [sq_nonneg y, sq_nonneg (y ^ 2)]
    have y6 : 0 ≤ y ^ 6 := by positivity
    norm_num
    nlinarith [sq_nonneg y]
  rw [ht, hb]
  refine ⟨by linarith, by linarith, ?_⟩
  norm_num at hup ht2 ⊢
  linarith

end TicTac
end
