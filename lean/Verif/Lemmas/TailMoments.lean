import Mathlib.MeasureTheory.Integral.IntervalIntegral.FundThmCalculus
import Mathlib.Analysis.SpecialFunctions.Integrability.Basic
import Mathlib.Analysis.SpecialFunctions.Log.Deriv
import Mathlib.Analysis.SpecialFunctions.Log.NegMulLog
/-! The moments `∫ z (2-z²)²(8-z²) artanh z (1-z²)ⁿ dz` from 0.95 to 1, as rational numbers and `log 39`. -/
noncomputable section
namespace TicTac
open MeasureTheory Set

/-- `∫ (1 - z²)ᵏ` from 0.95 to 1. -/
def momE : Nat → ℚ
  | 0 => 1 / 20
  | k + 1 => (2 * (k + 1) * momE k - 19 / 20 * (39 / 400) ^ (k + 1)) / (2 * k + 3)

theorem momE_eq (k : Nat) : ∫ z in (0.95 : ℝ)..1, (1 - z ^ 2) ^ k = (momE k : ℝ) := by
  induction k with
  | zero => simp [momE]; norm_num
  | succ k ih =>
    have hd : ∀ z : ℝ, HasDerivAt (fun z => z * (1 - z ^ 2) ^ (k + 1)) ((2 * k + 3) * (1 - z ^ 2) ^ (k + 1) - 2 * (k + 1) * (1 - z ^ 2) ^ k) z := by
      intro z
      have h1 : HasDerivAt (fun z : ℝ => 1 - z ^ 2) (-(2 * z)) z := by
        have := (hasDerivAt_pow 2 z).const_sub 1
        simpa using this
      refine ((hasDerivAt_id z).mul (h1.pow (k + 1))).congr_deriv ?_
      simp only [id, Nat.add_sub_cancel, Pi.pow_apply]
      push_cast
      ring
    have hf := intervalIntegral.integral_eq_sub_of_hasDerivAt (a := 0.95) (b := 1) (fun z _ => hd z) (Continuous.intervalIntegrable (by fun_prop) _ _)
    rw [intervalIntegral.integral_sub (Continuous.intervalIntegrable (by fun_prop) _ _) (Continuous.intervalIntegrable (by fun_prop) _ _),
      intervalIntegral.integral_const_mul, intervalIntegral.integral_const_mul, ih] at hf
    have h3 : (2 * (k : ℝ) + 3) ≠ 0 := by positivity
    simp only [momE]
    push_cast
    rw [eq_div_iff h3]
    have : (1 - (0.95 : ℝ) ^ 2) = 39 / 400 := by norm_num
    rw [this] at hf
    norm_num at hf
    linarith

/-- `(2-z²)²(8-z²) z artanh z` times `(1-z²)ⁿ`. -/
def momH (n : Nat) (z : ℝ) : ℝ := (2 - z ^ 2) ^ 2 * (8 - z ^ 2) * z / 2 * (Real.log (1 + z) - Real.log (1 - z)) * (1 - z ^ 2) ^ n

/-- `∫ (1+t)²(7+t)tⁿ dt/2` from 0 to `e`, divided by `e`. -/
def momG (n : Nat) (e : ℝ) : ℝ := (7 * e ^ n / (n + 1) + 15 * e ^ (n + 1) / (n + 2) + 9 * e ^ (n + 2) / (n + 3) + e ^ (n + 3) / (n + 4)) / 2

def momA (n : Nat) : ℚ := 39 / 400 * (7 * (39 / 400) ^ n / (n + 1) + 15 * (39 / 400) ^ (n + 1) / (n + 2) + 9 * (39 / 400) ^ (n + 2) / (n + 3)
  + (39 / 400) ^ (n + 3) / (n + 4)) / 4
def momB (n : Nat) : ℚ := (7 * momE n / (n + 1) + 15 * momE (n + 1) / (n + 2) + 9 * momE (n + 2) / (n + 3) + momE (n + 3) / (n + 4)) / 2

theorem momG_cont (n : Nat) : Continuous (momG n) := by unfold momG; fun_prop

theorem momH_integrable (n : Nat) : IntervalIntegrable (momH n) volume 0.95 1 := by
  have hl : IntervalIntegrable (fun z => Real.log (1 - z)) volume 0.95 1 := by
    have := (intervalIntegral.intervalIntegrable_log' (a := 1 - 0.95) (b := 1 - 1)).comp_sub_left 1
    simpa using this
  have hl2 : IntervalIntegrable (fun z => Real.log (1 + z)) volume 0.95 1 := by
    refine ContinuousOn.intervalIntegrable ?_
    rw [uIcc_of_le (by norm_num)]
    refine ContinuousOn.log (by fun_prop) fun z hz => ?_
    have := hz.1
    norm_num at this
    linarith
  have hc : ContinuousOn (fun z : ℝ => (2 - z ^ 2) ^ 2 * (8 - z ^ 2) * z / 2 * (1 - z ^ 2) ^ n) (uIcc 0.95 1) := by fun_prop
  refine ((hl2.sub hl).mul_continuousOn hc).congr (fun z _ => ?_)
  unfold momH; ring

theorem momG_integral (n : Nat) : ∫ z in (0.95 : ℝ)..1, momG n (1 - z ^ 2) = (momB n : ℝ) := by
  unfold momG momB
  push_cast
  have hi : ∀ (c d : ℝ) (k : Nat), IntervalIntegrable (fun z : ℝ => c * (1 - z ^ 2) ^ k / d) volume 0.95 1 := fun c d k =>
    Continuous.intervalIntegrable (by fun_prop) _ _
  have hi1 : ∀ (d : ℝ) (k : Nat), IntervalIntegrable (fun z : ℝ => (1 - z ^ 2) ^ k / d) volume 0.95 1 := fun d k =>
    Continuous.intervalIntegrable (by fun_prop) _ _
  rw [intervalIntegral.integral_div, intervalIntegral.integral_add (((hi _ _ _).add (hi _ _ _)).add (hi _ _ _)) (hi1 _ _),
    intervalIntegral.integral_add ((hi _ _ _).add (hi _ _ _)) (hi _ _ _), intervalIntegral.integral_add (hi _ _ _) (hi _ _ _)]
  simp only [intervalIntegral.integral_div, intervalIntegral.integral_const_mul, momE_eq]

theorem mom_eq (n : Nat) : ∫ z in (0.95 : ℝ)..1, momH n z = momA n * Real.log 39 + momB n := by
  have hcF : ContinuousOn (fun z : ℝ => ((1 + z) * momG n (1 - z ^ 2) * ((1 - z) * Real.log (1 - z)) - (1 - z ^ 2) * momG n (1 - z ^ 2) * Real.log (1 + z)) / 2)
      (Icc 0.95 1) := by
    have hG : Continuous fun z : ℝ => momG n (1 - z ^ 2) := (momG_cont n).comp (by fun_prop)
    have hL : Continuous fun z : ℝ => (1 - z) * Real.log (1 - z) := Real.continuous_mul_log.comp (by fun_prop)
    have hL2 : ContinuousOn (fun z : ℝ => Real.log (1 + z)) (Icc 0.95 1) := ContinuousOn.log (by fun_prop) fun z hz => by
      have := hz.1
      norm_num at this
      linarith
    have h1 : ContinuousOn (fun z : ℝ => (1 + z) * momG n (1 - z ^ 2) * ((1 - z) * Real.log (1 - z))) (Icc 0.95 1) :=
      (((by fun_prop : Continuous fun z : ℝ => 1 + z).mul hG).mul hL).continuousOn
    have h2 : ContinuousOn (fun z : ℝ => (1 - z ^ 2) * momG n (1 - z ^ 2) * Real.log (1 + z)) (Icc 0.95 1) :=
      ((by fun_prop : Continuous fun z : ℝ => 1 - z ^ 2).mul hG).continuousOn.mul hL2
    exact (h1.sub h2).div_const 2
  have hd : ∀ z ∈ Ioo (0.95 : ℝ) 1, HasDerivAt
      (fun z : ℝ => ((1 + z) * momG n (1 - z ^ 2) * ((1 - z) * Real.log (1 - z)) - (1 - z ^ 2) * momG n (1 - z ^ 2) * Real.log (1 + z)) / 2)
      (momH n z - momG n (1 - z ^ 2)) z := by
    rintro z ⟨h0, h1⟩
    norm_num at h0
    have he : HasDerivAt (fun z : ℝ => 1 - z ^ 2) (-(2 * z)) z := by simpa using (hasDerivAt_pow 2 z).const_sub 1
    have hl1 : HasDerivAt (fun z : ℝ => Real.log (1 - z)) (-1 / (1 - z)) z := ((hasDerivAt_id z).const_sub 1).log (by simp; linarith)
    have hl2 : HasDerivAt (fun z : ℝ => Real.log (1 + z)) (1 / (1 + z)) z := ((hasDerivAt_id z).const_add 1).log (by simp; linarith)
    have hP : HasDerivAt (fun e : ℝ => e * momG n e) ((7 + 15 * (1 - z ^ 2) + 9 * (1 - z ^ 2) ^ 2 + (1 - z ^ 2) ^ 3) * (1 - z ^ 2) ^ n / 2) (1 - z ^ 2) := by
      have h1 := ((hasDerivAt_pow (n + 1) (1 - z ^ 2)).const_mul 7).div_const ((n : ℝ) + 1)
      have h2 := ((hasDerivAt_pow (n + 2) (1 - z ^ 2)).const_mul 15).div_const ((n : ℝ) + 2)
      have h3 := ((hasDerivAt_pow (n + 3) (1 - z ^ 2)).const_mul 9).div_const ((n : ℝ) + 3)
      have h4 := (hasDerivAt_pow (n + 4) (1 - z ^ 2)).div_const ((n : ℝ) + 4)
      have h := (((h1.add h2).add h3).add h4).div_const 2
      refine (h.congr_deriv ?_).congr_of_eventuallyEq (Filter.Eventually.of_forall fun e => ?_)
      · have a1 : (n : ℝ) + 1 ≠ 0 := by positivity
        have a2 : (n : ℝ) + 2 ≠ 0 := by positivity
        have a3 : (n : ℝ) + 3 ≠ 0 := by positivity
        have a4 : (n : ℝ) + 4 ≠ 0 := by positivity
        simp only [Nat.add_sub_cancel, show n + 2 - 1 = n + 1 by omega, show n + 3 - 1 = n + 2 by omega, show n + 4 - 1 = n + 3 by omega]
        push_cast
        field_simp
        ring
      · simp only [Pi.add_apply, momG]
        ring
    have hP' : HasDerivAt (fun z : ℝ => (1 - z ^ 2) * momG n (1 - z ^ 2))
        ((7 + 15 * (1 - z ^ 2) + 9 * (1 - z ^ 2) ^ 2 + (1 - z ^ 2) ^ 3) * (1 - z ^ 2) ^ n / 2 * -(2 * z)) z :=
      HasDerivAt.comp (h₂ := fun e : ℝ => e * momG n e) z hP he
    have hF := ((hP'.mul hl1).sub (hP'.mul hl2)).div_const 2
    refine (hF.congr_deriv ?_).congr_of_eventuallyEq (Filter.Eventually.of_forall fun e => ?_)
    · have b1 : 1 - z ≠ 0 := by linarith
      have b2 : 1 + z ≠ 0 := by linarith
      unfold momH
      generalize Real.log (1 - z) = l1
      generalize Real.log (1 + z) = l2
      generalize momG n (1 - z ^ 2) = G
      generalize (1 - z ^ 2) ^ n = E
      field_simp
      ring
    · simp only [Pi.sub_apply, Pi.mul_apply]
      ring
  have hG : IntervalIntegrable (fun z : ℝ => momG n (1 - z ^ 2)) volume 0.95 1 :=
    ((momG_cont n).comp (by fun_prop : Continuous fun z : ℝ => 1 - z ^ 2)).intervalIntegrable _ _
  have hf := intervalIntegral.integral_eq_sub_of_hasDerivAt_of_le (by norm_num) hcF hd ((momH_integrable n).sub hG)
  rw [intervalIntegral.integral_sub (momH_integrable n) hG, momG_integral] at hf
  have hlog : Real.log 39 = Real.log (1 + 0.95) - Real.log (1 - 0.95) := by
    rw [← Real.log_div (by norm_num) (by norm_num)]; norm_num
  have hA : (momA n : ℝ) = (1 - (0.95 : ℝ) ^ 2) * momG n (1 - 0.95 ^ 2) / 2 := by
    unfold momA momG
    push_cast
    rw [show (1 - (0.95 : ℝ) ^ 2) = 39 / 400 by norm_num]
    ring
  rw [hlog, hA]
  have e0 : (1 - (1 : ℝ) ^ 2) = 0 := by norm_num
  have e1 : (1 - (1 : ℝ)) = 0 := by norm_num
  rw [e0, e1, zero_mul, zero_mul, zero_mul, mul_zero, sub_zero, zero_div, zero_sub] at hf
  linear_combination hf

/-- `log 39` to fifteen digits. -/
theorem log39_bounds : (3.663561646129646 : ℝ) ≤ Real.log 39 ∧ Real.log 39 ≤ 3.663561646129647 := by
  have h2a := Real.sum_range_le_log_div (x := 1 / 3) (by norm_num) (by norm_num) 18
  have h2b := Real.log_div_le_sum_range_add (x := 1 / 3) (by norm_num) (by norm_num) 18
  have h3a := Real.sum_range_le_log_div (x := 7 / 71) (by norm_num) (by norm_num) 10
  have h3b := Real.log_div_le_sum_range_add (x := 7 / 71) (by norm_num) (by norm_num) 10
  rw [show ((1 : ℝ) + 1 / 3) / (1 - 1 / 3) = 2 by norm_num] at h2a h2b
  rw [show ((1 : ℝ) + 7 / 71) / (1 - 7 / 71) = 39 / 32 by norm_num] at h3a h3b
  have e : Real.log 39 = 5 * Real.log 2 + Real.log (39 / 32) := by
    rw [show (39 : ℝ) = 2 ^ 5 * (39 / 32) by norm_num, Real.log_mul (by norm_num) (by norm_num), Real.log_pow]; norm_num
  rw [e]
  norm_num [Finset.sum_range_succ] at h2a h2b h3a h3b
  constructor <;> linarith

end TicTac
end
