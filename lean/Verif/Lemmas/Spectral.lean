import Verif.Spec.TwoPion
import Mathlib.MeasureTheory.Integral.IntegralEqImproper
import Mathlib.MeasureTheory.Integral.IntervalIntegral.FundThmCalculus
import Mathlib.Analysis.SpecialFunctions.Trigonometric.ArctanDeriv
import Mathlib.Analysis.SpecialFunctions.Log.Deriv
import Mathlib.Analysis.SpecialFunctions.Sqrt
/-! The spectral integrals of the loop functions in closed form. -/
noncomputable section
namespace TicTac
open MeasureTheory Set Filter Topology

/-- An integral of a non-negative derivative over `(a, b]`, with the derivative known inside. -/
theorem integral_Ioc_deriv {F f : ℝ → ℝ} {a b : ℝ} (hab : a ≤ b) (hc : ContinuousOn F (Ici a))
    (hd : ∀ x ∈ Ioi a, HasDerivAt F (f x) x) (hf : ∀ x ∈ Ioi a, 0 ≤ f x) : ∫ x in Ioc a b, f x = F b - F a := by
  have hc' : ContinuousOn F (Icc a b) := hc.mono Icc_subset_Ici_self
  have hd' : ∀ x ∈ Ioo a b, HasDerivAt F (f x) x := fun x hx => hd x hx.1
  have hi : IntervalIntegrable f volume a b := by
    rw [intervalIntegrable_iff_integrableOn_Ioc_of_le hab]
    exact intervalIntegral.integrableOn_deriv_of_nonneg hc' hd' fun x hx => hf x hx.1
  rw [← intervalIntegral.integral_of_le hab]
  exact intervalIntegral.integral_eq_sub_of_hasDerivAt_of_le hab hc' hd' hi

theorem integral_Ioi_deriv {F f : ℝ → ℝ} {a l : ℝ} (hc : ContinuousOn F (Ici a))
    (hd : ∀ x ∈ Ioi a, HasDerivAt F (f x) x) (hf : ∀ x ∈ Ioi a, 0 ≤ f x) (hl : Tendsto F atTop (𝓝 l)) : ∫ x in Ioi a, f x = l - F a :=
  integral_Ioi_of_hasDerivAt_of_nonneg (hc a self_mem_Ici) hd hf hl

/-! ### `A` -/

/-- The antiderivative of `1/(μ² + q²)` that vanishes at `a`. -/
def antiA (a q x : ℝ) : ℝ := Real.arctan (q * (x - a) / (q ^ 2 + x * a)) / q

theorem antiA_deriv {a q x : ℝ} (ha : 0 < a) (hq : 0 < q) (hx : 0 < x) : HasDerivAt (antiA a q) (1 / (x ^ 2 + q ^ 2)) x := by
  have hD : q ^ 2 + x * a ≠ 0 := by positivity
  have h1 : HasDerivAt (fun x => q * (x - a)) q x := by
    simpa using ((hasDerivAt_id x).sub_const a).const_mul q
  have h2 : HasDerivAt (fun x => q ^ 2 + x * a) a x := by
    simpa using ((hasDerivAt_id x).mul_const a).const_add (q ^ 2)
  have h3 := ((h1.div h2 hD).arctan).div_const q
  refine h3.congr_deriv ?_
  have h5 : q ^ 2 + a ^ 2 ≠ 0 := by positivity
  have h6 : x ^ 2 + q ^ 2 ≠ 0 := by positivity
  have h7 : 1 + (q * (x - a) / (q ^ 2 + x * a)) ^ 2 = (q ^ 2 + a ^ 2) * (x ^ 2 + q ^ 2) / (q ^ 2 + x * a) ^ 2 := by
    field_simp; ring
  simp only [Pi.div_apply]
  rw [h7]
  field_simp
  ring

theorem antiA_cont {a q : ℝ} (ha : 0 < a) (hq : 0 < q) : ContinuousOn (antiA a q) (Ici a) := fun x hx =>
  (antiA_deriv ha hq (lt_of_lt_of_le ha hx)).continuousAt.continuousWithinAt

theorem antiA_self (a q : ℝ) : antiA a q a = 0 := by simp [antiA]

theorem antiA_lim {a q : ℝ} (ha : 0 < a) (hq : 0 < q) : Tendsto (antiA a q) atTop (𝓝 (Real.arctan (q / a) / q)) := by
  have h1 : Tendsto (fun x : ℝ => q * (1 - a * x⁻¹) / (q ^ 2 * x⁻¹ + a)) atTop (𝓝 (q * (1 - a * 0) / (q ^ 2 * 0 + a))) := by
    have hi : Tendsto (fun x : ℝ => x⁻¹) atTop (𝓝 0) := tendsto_inv_atTop_zero
    refine Tendsto.div ?_ ?_ (by simpa using ha.ne')
    · exact (tendsto_const_nhds.sub (hi.const_mul a)).const_mul q
    · exact (hi.const_mul (q ^ 2)).add_const a
  have h2 : Tendsto (fun x : ℝ => q * (x - a) / (q ^ 2 + x * a)) atTop (𝓝 (q / a)) := by
    have : q * (1 - a * 0) / (q ^ 2 * 0 + a) = q / a := by simp
    rw [this] at h1
    refine h1.congr' ?_
    filter_upwards [eventually_gt_atTop 0] with x hx
    have : q ^ 2 + x * a ≠ 0 := by positivity
    have : q ^ 2 * x⁻¹ + a ≠ 0 := by positivity
    field_simp
  exact ((Real.continuous_arctan.tendsto _).comp h2).div_const q

/-! ### `L` -/

/-- The antiderivative of `1/((μ² + q²)√(μ² - a²))` that vanishes at `a`; `w² = a² + q²`. -/
def antiL (a q w x : ℝ) : ℝ :=
  Real.log ((x * w + q * Real.sqrt (x ^ 2 - a ^ 2)) ^ 2 / (a ^ 2 * (x ^ 2 + q ^ 2))) / (2 * w * q)

theorem antiL_algebra {a q w x s : ℝ} (ha : a ≠ 0) (hq : q ≠ 0) (hw : w ≠ 0) (hs : s ≠ 0) (hD : x ^ 2 + q ^ 2 ≠ 0) (hN : x * w + q * s ≠ 0)
    (hw2 : w ^ 2 = a ^ 2 + q ^ 2) (hss : s ^ 2 = x ^ 2 - a ^ 2) :
    (↑2 * (x * w + q * s) ^ (2 - 1) * (w + q * (2 * x / (2 * s))) * (a ^ 2 * (x ^ 2 + q ^ 2)) - (x * w + q * s) ^ 2 * (a ^ 2 * (2 * x))) /
        (a ^ 2 * (x ^ 2 + q ^ 2)) ^ 2 / ((x * w + q * s) ^ 2 / (a ^ 2 * (x ^ 2 + q ^ 2))) / (2 * w * q) =
      1 / ((x ^ 2 + q ^ 2) * s) := by
  norm_num
  field_simp
  linear_combination (-x * q) * hss + (-x * q) * hw2

theorem antiL_deriv {a q w x : ℝ} (ha : 0 < a) (hq : 0 < q) (hw : 0 < w) (hw2 : w ^ 2 = a ^ 2 + q ^ 2) (hx : a < x) :
    HasDerivAt (antiL a q w) (1 / ((x ^ 2 + q ^ 2) * Real.sqrt (x ^ 2 - a ^ 2))) x := by
  have hx0 : 0 < x := ha.trans hx
  have hs2 : 0 < x ^ 2 - a ^ 2 := by nlinarith
  have hs : 0 < Real.sqrt (x ^ 2 - a ^ 2) := Real.sqrt_pos.2 hs2
  have hss : Real.sqrt (x ^ 2 - a ^ 2) ^ 2 = x ^ 2 - a ^ 2 := Real.sq_sqrt hs2.le
  have h1 : HasDerivAt (fun x : ℝ => x ^ 2 - a ^ 2) (2 * x) x := by
    simpa using (hasDerivAt_pow 2 x).sub_const (a ^ 2)
  have h2 := h1.sqrt hs2.ne'
  have h3 : HasDerivAt (fun x : ℝ => x * w + q * Real.sqrt (x ^ 2 - a ^ 2)) (w + q * (2 * x / (2 * Real.sqrt (x ^ 2 - a ^ 2)))) x := by
    have := (hasDerivAt_mul_const w (x := x)).add (h2.const_mul q)
    exact this
  have h4 : HasDerivAt (fun x : ℝ => a ^ 2 * (x ^ 2 + q ^ 2)) (a ^ 2 * (2 * x)) x := by
    have := ((hasDerivAt_pow 2 x).add_const (q ^ 2)).const_mul (a ^ 2)
    simpa using this
  have hden : a ^ 2 * (x ^ 2 + q ^ 2) ≠ 0 := by positivity
  have hN : x * w + q * Real.sqrt (x ^ 2 - a ^ 2) ≠ 0 := by positivity
  have h5 := (h3.pow 2).div h4 hden
  have h6 := (h5.log (by
    simp only [Pi.div_apply, Pi.pow_apply]
    positivity)).div_const (2 * w * q)
  refine h6.congr_deriv ?_
  simp only [Pi.div_apply, Pi.pow_apply]
  clear h6 h5 h4 h3 h2 h1
  generalize Real.sqrt (x ^ 2 - a ^ 2) = s at *
  exact antiL_algebra ha.ne' hq.ne' hw.ne' hs.ne' (by positivity) hN hw2 hss

theorem antiL_cont {a q w : ℝ} (ha : 0 < a) (hq : 0 < q) (hw : 0 < w) : ContinuousOn (antiL a q w) (Ici a) := by
  intro x hx
  have hx0 : 0 < x := lt_of_lt_of_le ha hx
  have hs : 0 ≤ Real.sqrt (x ^ 2 - a ^ 2) := Real.sqrt_nonneg _
  have hd : a ^ 2 * (x ^ 2 + q ^ 2) ≠ 0 := by positivity
  refine ContinuousAt.continuousWithinAt ?_
  have hn : ContinuousAt (fun x : ℝ => (x * w + q * Real.sqrt (x ^ 2 - a ^ 2)) ^ 2) x := by fun_prop
  have hdc : ContinuousAt (fun x : ℝ => a ^ 2 * (x ^ 2 + q ^ 2)) x := by fun_prop
  refine ContinuousAt.div_const (ContinuousAt.log (ContinuousAt.div hn hdc hd) ?_) _
  have h1 : 0 < x * w + q * Real.sqrt (x ^ 2 - a ^ 2) := by positivity
  exact div_ne_zero (pow_ne_zero 2 h1.ne') hd

theorem antiL_self {a q w : ℝ} (ha : 0 < a) (hw2 : w ^ 2 = a ^ 2 + q ^ 2) : antiL a q w a = 0 := by
  have : 0 < a ^ 2 + q ^ 2 := by positivity
  unfold antiL
  rw [sub_self, Real.sqrt_zero, mul_zero, add_zero, mul_pow, hw2, div_self (by positivity), Real.log_one, zero_div]

theorem antiL_lim {a q w : ℝ} (ha : 0 < a) (hq : 0 < q) (hw : 0 < w) :
    Tendsto (antiL a q w) atTop (𝓝 (Real.log ((w + q) / a) / (w * q))) := by
  have hi : Tendsto (fun x : ℝ => x⁻¹) atTop (𝓝 0) := tendsto_inv_atTop_zero
  have hi2 : Tendsto (fun x : ℝ => (x⁻¹) ^ 2) atTop (𝓝 0) := by simpa using hi.pow 2
  have hs : Tendsto (fun x : ℝ => Real.sqrt (1 - a ^ 2 * (x⁻¹) ^ 2)) atTop (𝓝 1) := by
    have h : Tendsto (fun x : ℝ => 1 - a ^ 2 * (x⁻¹) ^ 2) atTop (𝓝 1) := by
      simpa using tendsto_const_nhds (x := (1 : ℝ)).sub (hi2.const_mul (a ^ 2))
    simpa using h.sqrt
  have h1 : Tendsto (fun x : ℝ => (w + q * Real.sqrt (1 - a ^ 2 * (x⁻¹) ^ 2)) ^ 2 / (a ^ 2 * (1 + q ^ 2 * (x⁻¹) ^ 2))) atTop
      (𝓝 ((w + q * 1) ^ 2 / (a ^ 2 * (1 + q ^ 2 * 0)))) := by
    refine Tendsto.div ?_ ?_ (by simp [ha.ne'])
    · exact ((hs.const_mul q).const_add w).pow 2
    · exact ((hi2.const_mul (q ^ 2)).const_add 1).const_mul (a ^ 2)
  have e : (w + q * 1) ^ 2 / (a ^ 2 * (1 + q ^ 2 * 0)) = ((w + q) / a) ^ 2 := by rw [mul_zero, add_zero, mul_one, mul_one, div_pow]
  rw [e] at h1
  have h2 : Tendsto (fun x : ℝ => (x * w + q * Real.sqrt (x ^ 2 - a ^ 2)) ^ 2 / (a ^ 2 * (x ^ 2 + q ^ 2))) atTop (𝓝 (((w + q) / a) ^ 2)) := by
    refine h1.congr' ?_
    filter_upwards [eventually_gt_atTop 0] with x hx
    have e1 : x ^ 2 - a ^ 2 = x ^ 2 * (1 - a ^ 2 * (x⁻¹) ^ 2) := by field_simp
    rw [e1, Real.sqrt_mul (by positivity), Real.sqrt_sq hx.le]
    have : 1 + q ^ 2 * (x⁻¹) ^ 2 ≠ 0 := by positivity
    have : x ^ 2 + q ^ 2 ≠ 0 := by positivity
    generalize Real.sqrt (1 - a ^ 2 * (x⁻¹) ^ 2) = s
    field_simp
  have h3 : Tendsto (antiL a q w) atTop (𝓝 (Real.log (((w + q) / a) ^ 2) / (2 * w * q))) :=
    (h2.log (by positivity)).div_const _
  have e2 : Real.log (((w + q) / a) ^ 2) / (2 * w * q) = Real.log ((w + q) / a) / (w * q) := by
    rw [Real.log_pow]; push_cast; field_simp
  rwa [e2] at h3

end TicTac
end
