import Verif.Props.Dispersion
import Mathlib.MeasureTheory.Function.JacobianOneDim
import Mathlib.Analysis.SpecialFunctions.Integrability.Basic
/-! C101: the two-loop isoscalar central potential of IS_N3LO. -/
noncomputable section
namespace TicTac
open Spec MeasureTheory Set

/-- Change of variables `μ = 2m/z`. -/
theorem integral_inZ (m Λ : ℝ) (hm : 0 < m) (hΛ : 2 * m ≤ Λ) (F : ℝ → ℝ) :
    ∫ μ in Ioc (2 * m) Λ, F μ = ∫ z in Ico (2 * m / Λ) 1, inZ m F z := by
  have hΛ0 : 0 < Λ := by linarith
  have him : (fun z : ℝ => 2 * m / z) '' Ico (2 * m / Λ) 1 = Ioc (2 * m) Λ := by
    ext μ
    constructor
    · rintro ⟨z, ⟨h1, h2⟩, rfl⟩
      have hz : 0 < z := lt_of_lt_of_le (by positivity) h1
      dsimp only
      constructor
      · rw [lt_div_iff₀ hz]; nlinarith
      · rw [div_le_iff₀ hz]; rw [div_le_iff₀ hΛ0] at h1; linarith
    · rintro ⟨h1, h2⟩
      have hμ : 0 < μ := by linarith
      refine ⟨2 * m / μ, ⟨?_, ?_⟩, ?_⟩
      · gcongr
      · rw [div_lt_one hμ]; exact h1
      · field_simp
  rw [← him, integral_image_eq_integral_abs_deriv_smul (f' := fun z => -(2 * m) / z ^ 2) measurableSet_Ico]
  · refine setIntegral_congr_fun measurableSet_Ico fun z hz => ?_
    have hz0 : 0 < z := lt_of_lt_of_le (by positivity) hz.1
    simp only [smul_eq_mul, inZ]
    rw [neg_div, abs_neg, abs_of_pos (by positivity), mul_comm]
  · intro z hz
    have hz0 : 0 < z := lt_of_lt_of_le (by positivity) hz.1
    have := ((hasDerivAt_inv hz0.ne').const_mul (2 * m)).hasDerivWithinAt (s := Ico (2 * m / Λ) 1)
    refine (this.congr_deriv ?_).congr (fun y _ => div_eq_mul_inv _ _) (div_eq_mul_inv _ _)
    ring
  · intro x hx y hy h
    have hx0 : 0 < x := lt_of_lt_of_le (by positivity) hx.1
    have hy0 : 0 < y := lt_of_lt_of_le (by positivity) hy.1
    simp only at h
    rw [div_eq_div_iff hx0.ne' hy0.ne'] at h
    exact (mul_left_cancel₀ (by positivity : 2 * m ≠ 0) h).symm

/-- The elementary part of the integrand. -/
def centralRational (g m q2 z : ℝ) : ℝ := 2 * z ^ 2 * (2 - z ^ 2) * ((1 + 4 * g ^ 2) * z ^ 2 - 8 * (1 + g ^ 2)) / (4 * m ^ 2 + z ^ 2 * q2)

theorem vc_point (g f m q2 z : ℝ) (hm : 0 < m) (hq2 : 0 < q2) (hf : f ≠ 0) (h0 : 0 < z) (h1 : z < 1) :
    inZ m (centralIntegrand q2 (rhoC g f m)) z = 3 * g ^ 4 / (Real.pi ^ 2 * 2 ^ 15 * f ^ 6) * q2 ^ 3 * (centralLog m q2 z + centralRational g m q2 z) := by
  unfold inZ centralIntegrand rhoC centralLog centralRational
  have hpi := Real.pi_ne_zero
  have h1' : (1 - z) ≠ 0 := by linarith
  have e : (2 * m / z + 2 * m) / (2 * m / z - 2 * m) = (1 + z) / (1 - z) := by
    have : 2 * m / z - 2 * m ≠ 0 := by
      rw [show 2 * m / z - 2 * m = 2 * m * (1 - z) / z by field_simp]; positivity
    rw [div_eq_div_iff this h1']; field_simp
  rw [e]
  generalize Real.log _ = l
  have hd : 4 * m ^ 2 + z ^ 2 * q2 ≠ 0 := by positivity
  have e2 : (2 * m / z) ^ 2 + q2 = (4 * m ^ 2 + z ^ 2 * q2) / z ^ 2 := by field_simp; ring
  rw [e2]
  generalize 4 * m ^ 2 + z ^ 2 * q2 = D at *
  generalize Real.pi = π at *
  field_simp
  ring

/-- The antiderivative of `q⁶` times the elementary part. -/
def antiRational (g m q z : ℝ) : ℝ :=
  -2 * (1 + 4 * g ^ 2) * q ^ 4 * z ^ 5 / 5 + ((20 + 32 * g ^ 2) * q ^ 4 + 8 * (1 + 4 * g ^ 2) * m ^ 2 * q ^ 2) * z ^ 3 / 3
    + (-32 * (1 + g ^ 2) * q ^ 4 - 4 * m ^ 2 * (20 + 32 * g ^ 2) * q ^ 2 - 32 * (1 + 4 * g ^ 2) * m ^ 4) * z
    + (2 * m ^ 2 + q ^ 2) * (32 * m ^ 3 * (1 + 4 * g ^ 2) + 64 * m * (1 + g ^ 2) * q ^ 2) * Real.arctan (z * (q / (2 * m))) / q

theorem antiRational_deriv (g m q z : ℝ) (hm : 0 < m) (hq : 0 < q) :
    HasDerivAt (antiRational g m q) ((q ^ 2) ^ 3 * centralRational g m (q ^ 2) z) z := by
  have ha : HasDerivAt (fun z => Real.arctan (z * (q / (2 * m)))) (1 / (1 + (z * (q / (2 * m))) ^ 2) * (q / (2 * m))) z :=
    (hasDerivAt_mul_const (q / (2 * m))).arctan
  have h5 := ((hasDerivAt_pow 5 z).const_mul (-2 * (1 + 4 * g ^ 2) * q ^ 4)).div_const 5
  have h3 := ((hasDerivAt_pow 3 z).const_mul ((20 + 32 * g ^ 2) * q ^ 4 + 8 * (1 + 4 * g ^ 2) * m ^ 2 * q ^ 2)).div_const 3
  have h1 := (hasDerivAt_id z).const_mul (-32 * (1 + g ^ 2) * q ^ 4 - 4 * m ^ 2 * (20 + 32 * g ^ 2) * q ^ 2 - 32 * (1 + 4 * g ^ 2) * m ^ 4)
  have h0 := (ha.const_mul ((2 * m ^ 2 + q ^ 2) * (32 * m ^ 3 * (1 + 4 * g ^ 2) + 64 * m * (1 + g ^ 2) * q ^ 2))).div_const q
  refine (((h5.add h3).add h1).add h0).congr_deriv ?_
  unfold centralRational
  have hd : 4 * m ^ 2 + z ^ 2 * q ^ 2 ≠ 0 := by positivity
  have e : 1 + (z * (q / (2 * m))) ^ 2 = (4 * m ^ 2 + z ^ 2 * q ^ 2) / (4 * m ^ 2) := by field_simp; ring
  rw [e]
  field_simp
  ring

theorem centralLog_integrable (m q2 a b : ℝ) (hm : 0 < m) (hq2 : 0 < q2) (ha : -1 < a) (hb : b ≤ 1) (hab : a ≤ b) :
    IntervalIntegrable (centralLog m q2) volume a b := by
  have hl : IntervalIntegrable (fun z => Real.log (1 - z)) volume a b := by
    have := (intervalIntegral.intervalIntegrable_log' (a := 1 - a) (b := 1 - b)).comp_sub_left 1
    simpa using this
  have hl2 : IntervalIntegrable (fun z => Real.log (1 + z)) volume a b := by
    refine ContinuousOn.intervalIntegrable ?_
    rw [uIcc_of_le hab]
    refine ContinuousOn.log (by fun_prop) fun z hz => ?_
    linarith [hz.1]
  have hd : IntervalIntegrable (fun z => Real.log (1 + z) - Real.log (1 - z)) volume a b := hl2.sub hl
  have hc : ContinuousOn (fun z : ℝ => (2 - z ^ 2) ^ 2 * (8 - z ^ 2) * z / 2 / (4 * m ^ 2 + z ^ 2 * q2)) (uIcc a b) := by
    refine ContinuousOn.div (by fun_prop) (by fun_prop) fun z _ => by positivity
  have h := hd.mul_continuousOn hc
  rw [intervalIntegrable_iff_integrableOn_Ioo_of_le hab] at h ⊢
  refine h.congr_fun (fun z hz => ?_) measurableSet_Ioo
  unfold centralLog
  rw [Real.log_div (by linarith [hz.1]) (by linarith [hz.2])]
  ring

theorem centralRational_integral (g m q2 a b : ℝ) (hm : 0 < m) (hq2 : 0 < q2) :
    IntervalIntegrable (centralRational g m q2) volume a b ∧
    q2 ^ 3 * ∫ z in a..b, centralRational g m q2 z = antiRational g m (Real.sqrt q2) b - antiRational g m (Real.sqrt q2) a := by
  have hc : Continuous (centralRational g m q2) := by
    unfold centralRational
    refine Continuous.div (by fun_prop) (by fun_prop) fun z => by positivity
  have hqq : Real.sqrt q2 ^ 2 = q2 := Real.sq_sqrt hq2.le
  refine ⟨hc.intervalIntegrable _ _, ?_⟩
  rw [← intervalIntegral.integral_const_mul]
  refine intervalIntegral.integral_eq_sub_of_hasDerivAt (fun z _ => ?_) ((continuous_const.mul hc).intervalIntegrable _ _)
  have := antiRational_deriv g m (Real.sqrt q2) z hm (Real.sqrt_pos.2 hq2)
  rwa [hqq] at this

/-- The dispersion integral of the isoscalar central potential: elementary functions and one integral with a logarithm. -/
theorem central_dispersion (g f m q2 Λ : ℝ) (hm : 0 < m) (hq2 : 0 < q2) (hf : f ≠ 0) (hΛ : 2 * m ≤ Λ) :
    ∫ μ in twoPionSpectrum m (some Λ), centralIntegrand q2 (rhoC g f m) μ =
      3 * g ^ 4 / (Real.pi ^ 2 * 2 ^ 15 * f ^ 6) * (q2 ^ 3 * (∫ z in (2 * m / Λ)..1, centralLog m q2 z)
        + (antiRational g m (Real.sqrt q2) 1 - antiRational g m (Real.sqrt q2) (2 * m / Λ))) := by
  have hΛ0 : 0 < Λ := by linarith
  have hL0 : 0 < 2 * m / Λ := by positivity
  have hL1 : 2 * m / Λ ≤ 1 := by rwa [div_le_one hΛ0]
  obtain ⟨hi, he⟩ := centralRational_integral g m q2 (2 * m / Λ) 1 hm hq2
  have hl := centralLog_integrable m q2 (2 * m / Λ) 1 hm hq2 (by linarith) le_rfl hL1
  rw [twoPionSpectrum, integral_inZ m Λ hm hΛ,
    setIntegral_congr_fun measurableSet_Ico fun z hz => vc_point g f m q2 z hm hq2 hf (lt_of_lt_of_le hL0 hz.1) hz.2,
    integral_Ico_eq_integral_Ioc, ← intervalIntegral.integral_of_le hL1, intervalIntegral.integral_const_mul, intervalIntegral.integral_add hl hi, ← he]
  ring

/-- **C101 (1).** The two-loop isoscalar central potential of IS_N3LO is the dispersion integral over the published spectral function up to the
cutoff, except for the error of the two sums used for the part with the logarithm. -/
theorem C101_central (r : LoopRules) (p : PionData) (q2 Λ : ℝ) (hm : 0 < p.mpi 2) (hf : p.fpi ≠ 0) (hq2 : 0 < q2) (hs : p.sfr = some Λ)
    (hl : p.loopInt = true) (hΛ : 2 * p.mpi 2 ≤ Λ) :
    l2VcSFR r p q2 = (∫ μ in twoPionSpectrum (p.mpi 2) (some Λ), centralIntegrand q2 (rhoC p.gA p.fpi (p.mpi 2)) μ)
      + 3 * p.gA ^ 4 / (Real.pi ^ 2 * 2 ^ 15 * p.fpi ^ 6) * q2 ^ 3 *
        ((quad (r.zVC (2 * p.mpi 2 / Λ)) (centralLog (p.mpi 2) q2) - ∫ z in (2 * p.mpi 2 / Λ)..0.95, centralLog (p.mpi 2) q2 z)
          + (vcTail p q2 - ∫ z in 0.95..1, centralLog (p.mpi 2) q2 z)) := by
  have hΛ0 : 0 < Λ := by linarith
  have hL0 : 0 < 2 * p.mpi 2 / Λ := by positivity
  have hL1 : 2 * p.mpi 2 / Λ ≤ 1 := by rwa [div_le_one hΛ0]
  have hz : zLow p = 2 * p.mpi 2 / Λ := by
    unfold zLow; rw [hs]; dsimp only; rw [if_neg (by linarith)]
  have h95 := centralLog_integrable (p.mpi 2) q2 0.95 1 hm hq2 (by norm_num) le_rfl (by norm_num)
  have h1 := centralLog_integrable (p.mpi 2) q2 (2 * p.mpi 2 / Λ) 1 hm hq2 (by linarith) le_rfl hL1
  have h2 : IntervalIntegrable (centralLog (p.mpi 2) q2) volume (2 * p.mpi 2 / Λ) 0.95 := h1.trans h95.symm
  rw [central_dispersion p.gA p.fpi (p.mpi 2) q2 Λ hm hq2 hf hΛ, ← intervalIntegral.integral_add_adjacent_intervals h2 h95]
  generalize (∫ z in (2 * p.mpi 2 / Λ)..0.95, centralLog (p.mpi 2) q2 z) = I1
  generalize (∫ z in 0.95..1, centralLog (p.mpi 2) q2 z) = I2
  have hsum : ((r.zVC (2 * p.mpi 2 / Λ)).map fun zw =>
      zw.2 * (2 - zw.1 * zw.1) * (zw.1 * zw.1 - 8) * (zw.1 * zw.1 - 2) * zw.1 * 0.5 * Real.log ((1 + zw.1) / (1 - zw.1)) / (4 * mpi2 p + zw.1 * zw.1 * q2)).sum =
      quad (r.zVC (2 * p.mpi 2 / Λ)) (centralLog (p.mpi 2) q2) := by
    unfold quad centralLog mpi2
    refine congrArg List.sum (List.map_congr_left fun zw h => ?_)
    rw [show 4 * (p.mpi 2 * p.mpi 2) + zw.1 * zw.1 * q2 = 4 * p.mpi 2 ^ 2 + zw.1 ^ 2 * q2 by ring]
    ring
  have hx : 0.5 * Real.sqrt (q2 * (1 / p.mpi 2) ^ 2) = Real.sqrt q2 / (2 * p.mpi 2) := by
    rw [Real.sqrt_mul hq2.le, Real.sqrt_sq (by positivity)]; field_simp; norm_num
  unfold l2VcSFR
  simp only [hl, Bool.true_eq_false, if_false]
  rw [hz, hsum, hx]
  unfold antiRational
  rw [one_mul]
  generalize Real.arctan (Real.sqrt q2 / (2 * p.mpi 2)) = t1
  generalize Real.arctan (2 * p.mpi 2 / Λ * (Real.sqrt q2 / (2 * p.mpi 2))) = t2
  generalize 2 * p.mpi 2 / Λ = L at *
  generalize quad _ _ = Q
  generalize vcTail p q2 = V
  have hqq : Real.sqrt q2 ^ 2 = q2 := Real.sq_sqrt hq2.le
  have hq : Real.sqrt q2 ≠ 0 := (Real.sqrt_pos.2 hq2).ne'
  generalize Real.sqrt q2 = q at *
  unfold fpiInv gA2 pi2 mpi2
  have hpi := Real.pi_ne_zero
  generalize Real.pi = π at *
  generalize p.mpi 2 = m at *
  generalize p.fpi = f at *
  generalize p.gA = g at *
  subst hqq
  field_simp
  ring

end TicTac
end
