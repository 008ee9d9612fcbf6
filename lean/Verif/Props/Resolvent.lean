import Verif.Model.Resolvent
import Verif.Spec.Resolvent
import Verif.Spec.OnShell
import Verif.Props.Swp
import Verif.Lemmas.Sparse
import Verif.Lemmas.Tables
import Mathlib.Analysis.SpecialFunctions.Complex.LogDeriv
import Mathlib.Tactic.IntervalCases
import Mathlib.Analysis.SpecialFunctions.Complex.Log
import Mathlib.MeasureTheory.Integral.IntervalIntegral.FundThmCalculus
/-! Resolvent: C41, C42, C73. -/
noncomputable section
namespace TicTac
open Spec Filter Topology MeasureTheory

theorem mu1_eq (Eb : ℝ) : mu1 Eb = ndReducedMass Eb := rfl

theorem nd_unfold (Eb q : ℝ) : ndEnergy Eb q = q ^ 2 / (2 * mu1 Eb) := rfl

theorem spectatorE_eq (Eb q : ℝ) : spectatorE Eb q = ndEnergy Eb q := by
  unfold spectatorE ndEnergy; rw [sq, mu1_eq]

/-- Boundary value of the complex logarithm from above. -/
theorem log_above (x : ℝ) (hx : x ≠ 0) :
    Tendsto (fun η : ℝ => Complex.log ((x : ℂ) + η * Complex.I)) (𝓝[>] 0)
      (𝓝 (⟨Real.log |x|, if x < 0 then Real.pi else 0⟩ : ℂ)) := by
  have hlin : Tendsto (fun η : ℝ => (x : ℂ) + η * Complex.I) (𝓝[>] 0) (𝓝 (x : ℂ)) := by
    have : Continuous fun η : ℝ => (x : ℂ) + η * Complex.I := by fun_prop
    simpa using (this.tendsto 0).mono_left nhdsWithin_le_nhds
  rcases lt_or_gt_of_ne hx with h | h
  · rw [if_pos h]
    have h1 := Complex.tendsto_log_nhdsWithin_im_nonneg_of_re_neg_of_im_zero (z := (x : ℂ)) (by simpa using h) (by simp)
    have h2 : Tendsto (fun η : ℝ => (x : ℂ) + η * Complex.I) (𝓝[>] 0) (𝓝[{z : ℂ | 0 ≤ z.im}] (x : ℂ)) := by
      refine tendsto_nhdsWithin_iff.2 ⟨hlin, ?_⟩
      filter_upwards [self_mem_nhdsWithin] with η hη
      simpa using (le_of_lt hη)
    have e : (⟨Real.log |x|, Real.pi⟩ : ℂ) = ((Real.log ‖(x : ℂ)‖ : ℝ) : ℂ) + (Real.pi : ℂ) * Complex.I := by
      apply Complex.ext <;> simp
    rw [e]
    exact h1.comp h2
  · rw [if_neg (not_lt.2 h.le)]
    have e : (⟨Real.log |x|, 0⟩ : ℂ) = Complex.log (x : ℂ) := by
      rw [← Complex.ofReal_log h.le, abs_of_pos h]
      apply Complex.ext <;> simp
    rw [e]
    exact (continuousAt_clog (x := (x : ℂ)) (by simp [Complex.slitPlane, h])).tendsto.comp hlin

/-- Elementary antiderivative. -/
theorem integral_inv_shift (a lo hi η : ℝ) (hη : 0 < η) :
    (∫ ε in lo..hi, 1 / ((a : ℂ) - ε + η * Complex.I)) =
      Complex.log ((a - lo : ℝ) + η * Complex.I) - Complex.log ((a - hi : ℝ) + η * Complex.I) := by
  have hslit : ∀ ε : ℝ, (a : ℂ) - ε + η * Complex.I ∈ Complex.slitPlane := fun ε => by
    right; simp; exact hη.ne'
  have hder : ∀ ε : ℝ, HasDerivAt (fun ε : ℝ => -Complex.log ((a : ℂ) - ε + η * Complex.I)) (1 / ((a : ℂ) - ε + η * Complex.I)) ε := by
    intro ε
    have h1 : HasDerivAt (fun ε : ℝ => (a : ℂ) - ε + η * Complex.I) (-1) ε := by
      have := ((Complex.ofRealCLM.hasDerivAt (x := ε)).const_sub (a : ℂ)).add_const (η * Complex.I)
      simpa using this
    have h2 := (h1.clog_real (hslit ε)).neg
    rw [neg_div, neg_neg] at h2
    exact h2
  have hcont : Continuous fun ε : ℝ => 1 / ((a : ℂ) - ε + η * Complex.I) := by
    refine Continuous.div continuous_const (by fun_prop) fun ε => Complex.slitPlane_ne_zero (hslit ε)
  rw [intervalIntegral.integral_eq_sub_of_hasDerivAt (fun ε _ => hder ε) (hcont.intervalIntegrable _ _)]
  push_cast
  ring

theorem heaviside_eq (v : ℝ) (hv : v ≠ 0) : heaviside v = if -v < 0 then 1 else 0 := by
  unfold heaviside
  rcases lt_or_gt_of_ne hv with h | h
  · rw [if_pos h, if_neg (by linarith)]
  · rw [if_neg (by linarith), if_pos (by linarith)]

/-- **C41.** The bound-continuum resolvent of a bin is the exact bin average of 1/(E + i0 − E_b − ε) over the bin's
spectator energies, whenever E − E_b is not a bin edge. -/
theorem C41_resolvent_bc (E Eb qL qU : ℝ) (hne : ndEnergy Eb qU ≠ ndEnergy Eb qL)
    (h1 : E - Eb ≠ ndEnergy Eb qL) (h2 : E - Eb ≠ ndEnergy Eb qU) :
    IsBinAverage (E - Eb) (ndEnergy Eb qL) (ndEnergy Eb qU) (resolventBC E Eb qU qL) := by
  simp only [← spectatorE_eq] at *
  unfold IsBinAverage resolventBC
  generalize spectatorE Eb qL = lo at *
  generalize spectatorE Eb qU = hi at *
  simp only
  have hx1 : E - Eb - lo ≠ 0 := sub_ne_zero.2 h1
  have hx2 : E - Eb - hi ≠ 0 := sub_ne_zero.2 h2
  have hd : hi - lo ≠ 0 := sub_ne_zero.2 hne
  have key := ((log_above _ hx1).sub (log_above _ hx2)).div_const ((hi : ℂ) - lo)
  have heq : (fun η : ℝ => (∫ ε in lo..hi, 1 / (((E - Eb : ℝ) : ℂ) - ε + η * Complex.I)) / ((hi : ℂ) - lo)) =ᶠ[𝓝[>] 0]
      fun η : ℝ => (Complex.log ((E - Eb - lo : ℝ) + η * Complex.I) - Complex.log ((E - Eb - hi : ℝ) + η * Complex.I)) / ((hi : ℂ) - lo) := by
    filter_upwards [self_mem_nhdsWithin] with η hη
    rw [integral_inv_shift _ _ _ _ hη]
  refine (tendsto_congr' heq).2 ?_
  convert key using 2
  rw [heaviside_eq _ (show hi + Eb - E ≠ 0 by intro h; apply hx2; linarith), heaviside_eq _ (show lo + Eb - E ≠ 0 by intro h; apply hx1; linarith),
    show -(hi + Eb - E) = E - Eb - hi by ring, show -(lo + Eb - E) = E - Eb - lo by ring, abs_div,
    show |lo + Eb - E| = |E - Eb - lo| by rw [← abs_neg]; congr 1; ring, show |hi + Eb - E| = |E - Eb - hi| by rw [← abs_neg]; congr 1; ring,
    Real.log_div (abs_ne_zero.2 hx1) (abs_ne_zero.2 hx2), ← Complex.ofReal_sub]
  apply Complex.ext
  · rw [Complex.div_ofReal_re]; simp
  · rw [Complex.div_ofReal_im]; simp only [Complex.sub_im]
    by_cases ha : E - Eb - lo < 0 <;> by_cases hb : E - Eb - hi < 0 <;> simp [ha, hb]

/-- C41: imaginary part −π/width when the on-shell energy is inside the bin, 0 outside. -/
theorem C41_imaginary_part (E Eb qL qU : ℝ) (hlt : ndEnergy Eb qL < ndEnergy Eb qU) :
    (ndEnergy Eb qL < E - Eb → E - Eb < ndEnergy Eb qU → (resolventBC E Eb qU qL).im = -Real.pi / (ndEnergy Eb qU - ndEnergy Eb qL)) ∧
    (E - Eb < ndEnergy Eb qL ∨ ndEnergy Eb qU < E - Eb → (resolventBC E Eb qU qL).im = 0) := by
  simp only [← spectatorE_eq] at *
  unfold resolventBC heaviside
  simp only
  generalize spectatorE Eb qL = lo at *
  generalize spectatorE Eb qU = hi at *
  constructor
  · intro h1 h2
    rw [if_neg (by linarith), if_pos (by linarith)]; ring
  · rintro (h | h)
    · rw [if_neg (by linarith), if_neg (by linarith)]; ring
    · rw [if_pos (by linarith), if_pos (by linarith)]; ring

/-! ### C42 -/

/-- `z ↦ z log z`. -/
def zlogz (z : ℂ) : ℂ := z * Complex.log z

theorem zlogz_above (x : ℝ) (hx : x ≠ 0) :
    Tendsto (fun η : ℝ => zlogz ((x : ℂ) + η * Complex.I)) (𝓝[>] 0)
      (𝓝 (⟨x * Real.log |x|, x * if x < 0 then Real.pi else 0⟩ : ℂ)) := by
  have hlin : Tendsto (fun η : ℝ => (x : ℂ) + η * Complex.I) (𝓝[>] 0) (𝓝 (x : ℂ)) := by
    have : Continuous fun η : ℝ => (x : ℂ) + η * Complex.I := by fun_prop
    simpa using (this.tendsto 0).mono_left nhdsWithin_le_nhds
  have e : (⟨x * Real.log |x|, x * if x < 0 then Real.pi else 0⟩ : ℂ) = (x : ℂ) * ⟨Real.log |x|, if x < 0 then Real.pi else 0⟩ := by
    apply Complex.ext <;> simp
  rw [e]
  exact hlin.mul (log_above x hx)

theorem integral_log_shift (a lo hi η : ℝ) (hη : 0 < η) :
    (∫ ε in lo..hi, Complex.log ((a : ℂ) - ε + η * Complex.I)) =
      zlogz ((a - lo : ℝ) + η * Complex.I) - zlogz ((a - hi : ℝ) + η * Complex.I) - (hi - lo) := by
  have hslit : ∀ ε : ℝ, (a : ℂ) - ε + η * Complex.I ∈ Complex.slitPlane := fun ε => by
    right; simp; exact hη.ne'
  have hder : ∀ ε : ℝ, HasDerivAt (fun ε : ℝ => -(((a : ℂ) - ε + η * Complex.I) * Complex.log ((a : ℂ) - ε + η * Complex.I)
      - ((a : ℂ) - ε + η * Complex.I))) (Complex.log ((a : ℂ) - ε + η * Complex.I)) ε := by
    intro ε
    have h1 : HasDerivAt (fun ε : ℝ => (a : ℂ) - ε + η * Complex.I) (-1) ε := by
      have := ((Complex.ofRealCLM.hasDerivAt (x := ε)).const_sub (a : ℂ)).add_const (η * Complex.I)
      simpa using this
    have h2 := ((h1.mul (h1.clog_real (hslit ε))).sub h1).neg
    have hz := Complex.slitPlane_ne_zero (hslit ε)
    have e : -(-1 * Complex.log ((a : ℂ) - ε + η * Complex.I) + ((a : ℂ) - ε + η * Complex.I) * (-1 / ((a : ℂ) - ε + η * Complex.I)) - -1)
        = Complex.log ((a : ℂ) - ε + η * Complex.I) := by
      field_simp; ring
    rw [e] at h2
    exact h2
  have hcont : Continuous fun ε : ℝ => Complex.log ((a : ℂ) - ε + η * Complex.I) :=
    continuous_iff_continuousAt.2 fun ε => ContinuousAt.clog (by fun_prop) (hslit ε)
  rw [intervalIntegral.integral_eq_sub_of_hasDerivAt (fun ε _ => hder ε) (hcont.intervalIntegrable _ _)]
  unfold zlogz
  push_cast
  ring

theorem integral_cell (E pl pu ql qu η : ℝ) (hη : 0 < η) :
    (∫ εp in pl..pu, ∫ εq in ql..qu, 1 / ((E : ℂ) - εp - εq + η * Complex.I)) =
      zlogz ((E - ql - pl : ℝ) + η * Complex.I) - zlogz ((E - ql - pu : ℝ) + η * Complex.I)
      - (zlogz ((E - qu - pl : ℝ) + η * Complex.I) - zlogz ((E - qu - pu : ℝ) + η * Complex.I)) := by
  have hin : ∀ εp : ℝ, (∫ εq in ql..qu, 1 / ((E : ℂ) - εp - εq + η * Complex.I)) =
      Complex.log (((E - ql : ℝ) : ℂ) - εp + η * Complex.I) - Complex.log (((E - qu : ℝ) : ℂ) - εp + η * Complex.I) := by
    intro εp
    have := integral_inv_shift (E - εp) ql qu η hη
    push_cast at this ⊢
    rw [this]
    congr 2 <;> ring
  simp only [hin]
  have hcont : ∀ a : ℝ, Continuous fun ε : ℝ => Complex.log ((a : ℂ) - ε + η * Complex.I) := fun a =>
    continuous_iff_continuousAt.2 fun ε => ContinuousAt.clog (by fun_prop) (by right; simp; exact hη.ne')
  rw [intervalIntegral.integral_sub ((hcont _).intervalIntegrable _ _) ((hcont _).intervalIntegrable _ _),
    integral_log_shift _ _ _ _ hη, integral_log_shift _ _ _ _ hη]
  ring

theorem heaviside_mul (v : ℝ) : v * heaviside v = - (-v * if -v < 0 then 1 else 0) := by
  unfold heaviside
  rcases lt_trichotomy v 0 with h | h | h
  · rw [if_pos h, if_neg (by linarith)]; ring
  · subst h; simp
  · rw [if_neg (by linarith), if_pos (by linarith)]; ring

/-- **C42.** The continuum-continuum resolvent of a cell is the exact average of 1/(E + i0 − ε_p − ε_q) over the cell,
whenever E is not the energy of a corner of the cell. -/
theorem C42_resolvent_cc (E Eb qL qU eL eU : ℝ) (hp : eL ≠ eU) (hq : ndEnergy Eb qL ≠ ndEnergy Eb qU)
    (h1 : E ≠ eL + ndEnergy Eb qL) (h2 : E ≠ eU + ndEnergy Eb qL) (h3 : E ≠ eL + ndEnergy Eb qU) (h4 : E ≠ eU + ndEnergy Eb qU) :
    IsCellAverage E eL eU (ndEnergy Eb qL) (ndEnergy Eb qU) (resolventCC E Eb qU qL eU eL) := by
  simp only [← spectatorE_eq] at *
  unfold IsCellAverage resolventCC resolventCCcore
  generalize spectatorE Eb qL = lo at *
  generalize spectatorE Eb qU = hi at *
  simp only
  have hx1 : E - lo - eL ≠ 0 := fun h => h1 (by linarith)
  have hx2 : E - lo - eU ≠ 0 := fun h => h2 (by linarith)
  have hx3 : E - hi - eL ≠ 0 := fun h => h3 (by linarith)
  have hx4 : E - hi - eU ≠ 0 := fun h => h4 (by linarith)
  have key := (((zlogz_above _ hx1).sub (zlogz_above _ hx2)).sub ((zlogz_above _ hx3).sub (zlogz_above _ hx4))).div_const
    (((eU : ℂ) - eL) * ((hi : ℂ) - lo))
  have heq : (fun η : ℝ => (∫ εp in eL..eU, ∫ εq in lo..hi, 1 / ((E : ℂ) - εp - εq + η * Complex.I)) / (((eU : ℂ) - eL) * ((hi : ℂ) - lo)))
      =ᶠ[𝓝[>] 0] fun η : ℝ => (zlogz ((E - lo - eL : ℝ) + η * Complex.I) - zlogz ((E - lo - eU : ℝ) + η * Complex.I)
      - (zlogz ((E - hi - eL : ℝ) + η * Complex.I) - zlogz ((E - hi - eU : ℝ) + η * Complex.I))) / (((eU : ℂ) - eL) * ((hi : ℂ) - lo)) := by
    filter_upwards [self_mem_nhdsWithin] with η hη
    rw [integral_cell _ _ _ _ _ _ hη]
  refine (tendsto_congr' heq).2 ?_
  convert key using 2
  have d1 : (0.5 * (eL + eU) + 0.5 * (lo + hi) - E + 0.5 * ((eU - eL) - (hi - lo)) : ℝ) = -(E - lo - eU) := by ring
  have d2 : (0.5 * (eL + eU) + 0.5 * (lo + hi) - E - 0.5 * ((eU - eL) - (hi - lo)) : ℝ) = -(E - hi - eL) := by ring
  have d3 : (0.5 * (eL + eU) + 0.5 * (lo + hi) - E + 0.5 * ((eU - eL) + (hi - lo)) : ℝ) = -(E - hi - eU) := by ring
  have d4 : (0.5 * (eL + eU) + 0.5 * (lo + hi) - E - 0.5 * ((eU - eL) + (hi - lo)) : ℝ) = -(E - lo - eL) := by ring
  rw [d1, d2, d3, d4, heaviside_mul, heaviside_mul, heaviside_mul, heaviside_mul]
  simp only [neg_neg, abs_neg]
  rw [show ((eU : ℂ) - eL) * ((hi : ℂ) - lo) = (((eU - eL) * (hi - lo) : ℝ) : ℂ) by push_cast; ring]
  apply Complex.ext
  · rw [Complex.div_ofReal_re]
    simp only [Complex.sub_re]
    congr 1; ring
  · rw [Complex.div_ofReal_im]
    simp only [Complex.sub_im]
    have hi' : ∀ x : ℝ, (x * if x < 0 then Real.pi else 0) = (x * if x < 0 then 1 else 0) * Real.pi := fun x => by
      split <;> ring
    rw [hi', hi', hi', hi']
    congr 1; ring

/-- C42: the imaginary part is never positive, vanishes outside the cell's energy range, is negative inside it, and does not
change when the two energy intervals are exchanged. -/
theorem C42_imaginary_part (E pl pu ql qu : ℝ) (hp : pl < pu) (hq : ql < qu) :
    (resolventCCcore E qu ql pu pl).im ≤ 0 ∧
    (E ≤ pl + ql ∨ pu + qu ≤ E → (resolventCCcore E qu ql pu pl).im = 0) ∧
    (pl + ql < E → E < pu + qu → (resolventCCcore E qu ql pu pl).im < 0) ∧
    resolventCCcore E qu ql pu pl = resolventCCcore E pu pl qu ql := by
  have hH : ∀ v : ℝ, v * heaviside v = max v 0 := by
    intro v; unfold heaviside
    split
    · rw [max_eq_right (by linarith)]; ring
    · rw [max_eq_left (by linarith)]; ring
  have hpos : 0 < (pu - pl) * (qu - ql) := mul_pos (by linarith) (by linarith)
  have him : (resolventCCcore E qu ql pu pl).im =
      (max (pu + ql - E) 0 + max (pl + qu - E) 0 - max (pu + qu - E) 0 - max (pl + ql - E) 0) * Real.pi / ((pu - pl) * (qu - ql)) := by
    unfold resolventCCcore
    simp only [hH]
    congr 2
    congr 1; congr 1; congr 1
    all_goals congr 1; ring
  have hpi := Real.pi_pos
  refine ⟨?_, ?_, ?_, ?_⟩
  · rw [him]
    refine div_nonpos_of_nonpos_of_nonneg (mul_nonpos_of_nonpos_of_nonneg ?_ hpi.le) hpos.le
    rcases le_total (pu + ql - E) 0 with a | a <;> rcases le_total (pl + qu - E) 0 with b | b <;>
      rcases le_total (pu + qu - E) 0 with c | c <;> rcases le_total (pl + ql - E) 0 with d | d <;> simp only [a, b, c, d, max_eq_left, max_eq_right] <;> linarith
  · intro h
    have : max (pu + ql - E) 0 + max (pl + qu - E) 0 - max (pu + qu - E) 0 - max (pl + ql - E) 0 = 0 := by
      rcases h with h | h
      · rw [max_eq_left (by linarith), max_eq_left (by linarith), max_eq_left (by linarith), max_eq_left (by linarith)]; ring
      · rw [max_eq_right (by linarith), max_eq_right (by linarith), max_eq_right (by linarith), max_eq_right (by linarith)]; ring
    rw [him, this]; ring
  · intro h1 h2
    rw [him]
    refine div_neg_of_neg_of_pos (mul_neg_of_neg_of_pos ?_ hpi) hpos
    rcases le_total (pu + ql - E) 0 with a | a <;> rcases le_total (pl + qu - E) 0 with b | b <;>
      rw [max_eq_left (show 0 ≤ pu + qu - E by linarith), max_eq_right (show pl + ql - E ≤ 0 by linarith)] <;> simp only [a, b, max_eq_left, max_eq_right] <;> linarith
  · unfold resolventCCcore
    simp only
    apply Complex.ext
    · simp only
      have e1 : (0.5 * (pl + pu) + 0.5 * (ql + qu) - E + 0.5 * (pu - pl - (qu - ql)) : ℝ) = 0.5 * (ql + qu) + 0.5 * (pl + pu) - E - 0.5 * (qu - ql - (pu - pl)) := by ring
      have e2 : (0.5 * (pl + pu) + 0.5 * (ql + qu) - E - 0.5 * (pu - pl - (qu - ql)) : ℝ) = 0.5 * (ql + qu) + 0.5 * (pl + pu) - E + 0.5 * (qu - ql - (pu - pl)) := by ring
      have e3 : (0.5 * (pl + pu) + 0.5 * (ql + qu) - E + 0.5 * (pu - pl + (qu - ql)) : ℝ) = 0.5 * (ql + qu) + 0.5 * (pl + pu) - E + 0.5 * (qu - ql + (pu - pl)) := by ring
      have e4 : (0.5 * (pl + pu) + 0.5 * (ql + qu) - E - 0.5 * (pu - pl + (qu - ql)) : ℝ) = 0.5 * (ql + qu) + 0.5 * (pl + pu) - E - 0.5 * (qu - ql + (pu - pl)) := by ring
      rw [e1, e2, e3, e4, mul_comm (pu - pl)]
      congr 1; ring
    · simp only
      have e1 : (0.5 * (pl + pu) + 0.5 * (ql + qu) - E + 0.5 * (pu - pl - (qu - ql)) : ℝ) = 0.5 * (ql + qu) + 0.5 * (pl + pu) - E - 0.5 * (qu - ql - (pu - pl)) := by ring
      have e2 : (0.5 * (pl + pu) + 0.5 * (ql + qu) - E - 0.5 * (pu - pl - (qu - ql)) : ℝ) = 0.5 * (ql + qu) + 0.5 * (pl + pu) - E + 0.5 * (qu - ql - (pu - pl)) := by ring
      have e3 : (0.5 * (pl + pu) + 0.5 * (ql + qu) - E + 0.5 * (pu - pl + (qu - ql)) : ℝ) = 0.5 * (ql + qu) + 0.5 * (pl + pu) - E + 0.5 * (qu - ql + (pu - pl)) := by ring
      have e4 : (0.5 * (pl + pu) + 0.5 * (ql + qu) - E - 0.5 * (pu - pl + (qu - ql)) : ℝ) = 0.5 * (ql + qu) + 0.5 * (pl + pu) - E - 0.5 * (qu - ql + (pu - pl)) := by ring
      rw [e1, e2, e3, e4, mul_comm (pu - pl)]
      congr 2; ring

/-! ### Non-vacuity of C41, C42 -/

theorem spectatorE_strict (Eb qL qU : ℝ) (hEb : -(Mn + Mp) < Eb) (h0 : 0 ≤ qL) (h : qL < qU) : spectatorE Eb qL < spectatorE Eb qU := by
  have hm : 0 < mu1 Eb := by
    unfold mu1 deuteronMass
    have := Mn_pos
    have h2 : 0 < Mn + Mp + Eb := by linarith
    positivity
  unfold spectatorE
  apply div_lt_div_of_pos_right _ (by positivity)
  nlinarith

/-- At a deuteron-like bound state and E = 1 MeV above, the bin [0, 10] contains… the hypotheses of C41 are met. -/
theorem ndEnergy_strict (Eb qL qU : ℝ) (hEb : -(Mn + Mp) < Eb) (h0 : 0 ≤ qL) (h : qL < qU) : ndEnergy Eb qL < ndEnergy Eb qU := by
  simp only [← spectatorE_eq]; exact spectatorE_strict Eb qL qU hEb h0 h

example : ∃ E, IsBinAverage (E - -2.2) (ndEnergy (-2.2) 0) (ndEnergy (-2.2) 10) (resolventBC E (-2.2) 10 0) := by
  have hlt := ndEnergy_strict (-2.2) 0 10 (by have := Mn_pos; have := Mp_pos; norm_num [Mn, Mp]) le_rfl (by norm_num)
  refine ⟨(ndEnergy (-2.2) 0 + ndEnergy (-2.2) 10) / 2 - 2.2, C41_resolvent_bc _ _ _ _ hlt.ne' ?_ ?_⟩
  · intro h; linarith
  · intro h; linarith

example : IsCellAverage (-1) 1 2 (ndEnergy 0 0) (ndEnergy 0 10) (resolventCC (-1) 0 10 0 2 1) := by
  have hlt := ndEnergy_strict 0 0 10 (by have := Mn_pos; have := Mp_pos; norm_num [Mn, Mp]) le_rfl (by norm_num)
  have h0 : ndEnergy 0 0 = 0 := by unfold ndEnergy; simp
  refine C42_resolvent_cc _ _ _ _ _ _ (by norm_num) hlt.ne ?_ ?_ ?_ ?_ <;> rw [ne_eq] <;> intro h <;> linarith

/-! ### C73 -/

/-- The boundaries used for a state are those of its own channel slot and block. -/
theorem ePtr_eq {p : PWParams} (ht : p.tensor = true) (N : Nat) {s : PWState} (h : Allowed p.J2max p.twoJ3max p.isoBreak s) :
    open Classical in
    ∃ b n, slotOf p s = some (b, n) ∧ ePtr p N s = some (b, n * (eLen N b : Nat) + if SecondMember s then ((N + 1 : Nat) : Int) else 0) ∧
      (SecondMember s → b = true) := by
  classical
  have hf := h.facts
  have hiso := h.2.2.2.2.2.2.2.2.2.2.2
  obtain ⟨hS, hT, hJ, h1, h2, h3, h4⟩ := hf
  unfold slotOf ePtr coupledViaL coupledViaT is1S0 SecondMember
  simp only [ht, Bool.true_and]
  by_cases hc : s.L ≠ s.J ∧ s.J ≠ 0
  · have e1 : (s.L != s.J && s.J != 0) = true := by simpa using hc
    have e2 : (s.S == 0 && s.J == 0 && s.L == 0 && p.isoBreak) = false := by
      simp [hc.2]
    rw [e1, e2]
    simp only [Bool.or_false, Bool.true_eq_false, and_false, if_false, if_true, Bool.false_eq_true]
    obtain ⟨u, hu⟩ : ∃ u, unique2NIdx p s.L s.S s.J s.T true = some u := by unfold unique2NIdx; simp [ht]
    rw [hu]
    refine ⟨true, u, rfl, ?_, fun _ => rfl⟩
    have h3' : s.twoT3 ≠ 3 := by omega
    simp only [Option.map_some, eLen, if_true]
    congr 3
    by_cases hl : s.L < s.J
    · rw [if_pos hl, if_neg (by omega)]
    · rw [if_neg hl, if_pos (by omega)]
  · have e1 : (s.L != s.J && s.J != 0) = false := by
      by_contra hx; exact hc (by simpa using hx)
    rw [e1]
    simp only [Bool.false_or, Bool.false_eq_true, false_and, if_false]
    by_cases hd : (s.S == 0 && s.J == 0 && s.L == 0 && p.isoBreak) = true
    · rw [hd]
      simp only [if_true]
      obtain ⟨u, hu⟩ : ∃ u, unique2NIdx p s.L s.S s.J s.T true = some u := by unfold unique2NIdx; simp [ht]
      rw [hu]
      refine ⟨true, u, rfl, ?_, fun _ => rfl⟩
      simp only [Option.map_some, eLen, if_true]
      congr 3
      by_cases hl : s.twoT3 = 1
      · rw [if_pos hl, if_neg (by omega)]
      · rw [if_neg hl, if_pos (by omega)]
    · have hd' : (s.S == 0 && s.J == 0 && s.L == 0 && p.isoBreak) = false := by simpa using hd
      rw [hd']
      simp only [Bool.false_eq_true, if_false]
      obtain ⟨u, hu⟩ : ∃ u, unique2NIdx p s.L s.S s.J s.T false = some u := by unfold unique2NIdx; simp [ht]
      rw [hu]
      have hns : ¬ ((s.J < s.L ∧ s.J ≠ 0) ∨ s.twoT3 = 3) := by
        rintro (hx | hx)
        · exact hc (by omega)
        · have hb : p.isoBreak = true ∧ s.L = 0 ∧ s.S = 0 ∧ s.J = 0 := by
            rcases hiso with hi | hi
            · omega
            · exact ⟨hi.1, hi.2.2⟩
          exact hd (by simp [hb.1, hb.2.1, hb.2.2.1, hb.2.2.2])
      refine ⟨false, u, rfl, ?_, fun hx => absurd hx hns⟩
      simp only [Option.map_some, eLen, Bool.false_eq_true, if_false]
      rw [if_neg hns, add_zero]

theorem optMapM_some {α β : Type} (f : α → Option β) (g : α → β) (l : List α) (h : ∀ a ∈ l, f a = some (g a)) : l.mapM f = some (l.map g) := by
  induction l with
  | nil => rfl
  | cons a l ih =>
    rw [List.mapM_cons, h a (by simp), ih (fun x hx => h x (by simp [hx]))]
    rfl

/-- Every cell of the resolvent array is computed from the boundaries of the state's own channel and block. -/
theorem resolventArray_eq (p : PWParams) (ht : p.tensor = true) (Np Nq : Nat) (q : Nat → ℝ) (e : Bool → Int → ℝ) (E : ℝ)
    (states : List PWState) (hs : ∀ s ∈ states, Allowed p.J2max p.twoJ3max p.isoBreak s) (G0 : Nat → ℂ) :
    open Classical in
    ∃ G, resolventArray p Np Nq q e E states G0 = some G ∧
      ∀ a (ha : a < states.length), ∀ iq < Nq, ∀ ip < Np, ∃ b n, slotOf p states[a] = some (b, n) ∧
        (let off : Int := n * (eLen Np b : Nat) + if SecondMember states[a] then ((Np + 1 : Nat) : Int) else 0
         G (a * Nq * Np + iq * Np + ip) = resolventCell E (e b (off + ip)) (e b (off + ip + 1)) (q iq) (q (iq + 1))) := by
  classical
  let ptr : PWState → Bool × Int := fun s => (ePtr p Np s).getD (false, 0)
  have hptr : ∀ s ∈ states, ePtr p Np s = some (ptr s) := by
    intro s hss
    obtain ⟨b, n, -, h2, -⟩ := ePtr_eq ht Np (hs s hss)
    simp [ptr, h2]
  have hm : (states.zipIdx.mapM fun sa => (ePtr p Np sa.1).map (resolventWrites Np Nq q e E sa.2)) =
      some (states.zipIdx.map fun sa => resolventWrites Np Nq q e E sa.2 (ptr sa.1)) := by
    apply optMapM_some
    intro sa hsa
    have : sa.1 ∈ states := by
      have := List.mem_zipIdx' hsa
      rw [this.2]; exact List.getElem_mem _
    rw [hptr _ this]; rfl
  unfold resolventArray
  rw [hm]
  refine ⟨_, rfl, fun a ha iq hiq ip hip => ?_⟩
  obtain ⟨b, n, h1, h2, -⟩ := ePtr_eq ht Np (hs _ (List.getElem_mem ha))
  refine ⟨b, n, h1, ?_⟩
  have hp : ptr states[a] = (b, n * (eLen Np b : Nat) + if SecondMember states[a] then ((Np + 1 : Nat) : Int) else 0) := by simp [ptr, h2]
  simp only
  apply writeAll_eq
  · rw [List.mem_flatten]
    refine ⟨resolventWrites Np Nq q e E a (ptr states[a]), List.mem_map.2 ⟨(states[a], a), ?_, rfl⟩, ?_⟩
    · rw [List.mem_zipIdx_iff_getElem?]; simp [ha]
    · unfold resolventWrites
      rw [List.mem_flatMap]
      refine ⟨ip, List.mem_range.2 hip, List.mem_map.2 ⟨iq, List.mem_range.2 hiq, ?_⟩⟩
      rw [hp]; rfl
  · intro wv hwv hidx
    rw [List.mem_flatten] at hwv
    obtain ⟨l, hl, hwl⟩ := hwv
    obtain ⟨⟨s', a'⟩, hsa, rfl⟩ := List.mem_map.1 hl
    unfold resolventWrites at hwl
    rw [List.mem_flatMap] at hwl
    obtain ⟨ip', hip', hwl⟩ := hwl
    obtain ⟨iq', hiq', rfl⟩ := List.mem_map.1 hwl
    obtain ⟨r1, r2, r3⟩ := idxAQP_inj (List.mem_range.1 hiq') (List.mem_range.1 hip') hiq hip hidx
    simp only at r1 r2 r3
    subst r1 r2 r3
    have hz := List.mem_zipIdx' hsa
    simp only [hz.2, hp]

/-- **C73.** After a successful wave-packet construction (non-degenerate, non-zero energies, at least 3 bins) the resolvent
at (state, q-bin, p-bin) is: for the S-wave deuteron state and its first bin, the bound-continuum resolvent at the
deuteron energy; otherwise the continuum-continuum resolvent of an energy bin of that state's own channel and block, namely
the one enclosing the state's `p`-th energy. -/
theorem C73_resolvent_array (p : PWParams) (ht : p.tensor = true) (hv : ValidTruncation p) (w : PWSpace) (h : constructPW p = some w)
    (N : Nat) (hN : 3 ≤ N) (bounds : Nat → ℝ) (hb : ∀ i < N, bounds i < bounds (i + 1)) (V : Bool → Int → ℝ)
    (hV : ∀ s ∈ w.states, ∀ b n, slotOf p s = some (b, n) → ∀ r < chnDim N b, ∀ c < chnDim N b, V b (n * (chnDim N b * chnDim N b : Nat) + (r * chnDim N b + c : Nat)) =
      V b (n * (chnDim N b * chnDim N b : Nat) + (c * chnDim N b + r : Nat)))
    (diag : Diag) (hd : LapackContract diag) (garbage : Nat → ℝ) (C0 : Bool → Int → ℝ) (Eb0 : ℝ) (st : SwpState)
    (hrun : makeSwpStates p N bounds V diag garbage C0 Eb0 w.states = .ok st)
    (hspec : ∀ s ∈ w.states, ∀ b n, slotOf p s = some (b, n) → ∀ lam vec, ChannelSolved (chnDim N b)
        (hamiltonian N bounds fun r c => V b (n * (chnDim N b * chnDim N b : Nat) + (r * chnDim N b + c : Nat))) lam vec →
      (∀ i j, i < j → j < chnDim N b → lam i < lam j) ∧ ∀ i < chnDim N b, lam i ≠ 0)
    (Nq : Nat) (q : Nat → ℝ) (E : ℝ) (G0 : Nat → ℂ) :
    open Classical in
    ∃ G, resolventArray p N Nq q st.e E w.states G0 = some G ∧
      ∀ a (ha : a < w.states.length), ∀ iq < Nq, ∀ ip < N, ∃ b n lam vec eL eU, slotOf p w.states[a] = some (b, n) ∧
        ChannelSolved (chnDim N b)
          (hamiltonian N bounds fun r c => V b (n * (chnDim N b * chnDim N b : Nat) + (r * chnDim N b + c : Nat))) lam vec ∧
        (let k := if SecondMember w.states[a] then 2 * ip + 1 else if b then 2 * ip else ip
         eL ≤ lam k ∧ lam k < eU) ∧
        G (a * Nq * N + iq * N + ip) =
          if IsDeuteronChannel w.states[a] ∧ w.states[a].L = 0 ∧ ip = 0 then resolventBC E st.Eb (q (iq + 1)) (q iq)
          else resolventCC E 0 (q (iq + 1)) (q iq) eU eL := by
  classical
  obtain ⟨w', hw', hmem⟩ := C01_basis_exact p hv
  rw [h] at hw'; cases hw'
  obtain ⟨G, hG, hcell⟩ := resolventArray_eq p ht N Nq q st.e E w.states (fun s hs => (hmem s).1 hs) G0
  refine ⟨G, hG, fun a ha iq hiq ip hip => ?_⟩
  obtain ⟨b, n, hsl, hval⟩ := hcell a ha iq hiq ip hip
  have hs : w.states[a] ∈ w.states := List.getElem_mem ha
  generalize hss : w.states[a] = s at *
  obtain ⟨lam, hsol, hdeut, hfree, henc⟩ := C72_stored_wave_packets p ht hv w h N bounds hb V hV diag hd garbage C0 Eb0 st hrun s hs b n hsl
  obtain ⟨hst, hnz⟩ := hspec s hs b n hsl lam _ hsol
  obtain ⟨hE1, hE2, hE3, hE4⟩ := henc hN hst hnz
  obtain ⟨b', n', hsl', -, hsec⟩ := ePtr_eq ht N ((hmem s).1 hs)
  rw [hsl] at hsl'
  obtain ⟨rfl, rfl⟩ : b = b' ∧ n = n' := by simpa using hsl'
  have hfacts := ((hmem s).1 hs).facts
  have hiso := ((hmem s).1 hs).2.2.2.2.2.2.2.2.2.2.2
  have mono0 : ∀ (f : Nat → ℝ), (∀ i < N, f i < f (i + 1)) → ∀ m i, m ≤ i → i ≤ N → f m ≤ f i := by
    intro f hf m i hmi
    induction i, hmi using Nat.le_induction with
    | base => intro _; exact le_rfl
    | succ i hmi ih => intro hi; exact (ih (by omega)).trans (hf i (by omega)).le
  by_cases hsm : SecondMember s
  · have hbt := hsec hsm
    subst hbt
    obtain ⟨z0, zenc⟩ := hE4 rfl
    rw [if_pos hsm] at hval
    simp only at hval zenc
    have eidx : ∀ i : Nat, n * ((eLen N true : Nat) : Int) + ((N + 1 + i : Nat) : Int) = n * ((eLen N true : Nat) : Int) + ((N + 1 : Nat) : Int) + (i : Int) := by
      intro i; push_cast; ring
    have hlo := (zenc.2 ip hip).1
    have hhi := (zenc.2 ip hip).2
    have hnn : 0 ≤ st.e true (n * ((eLen N true : Nat) : Int) + ((N + 1 + ip : Nat) : Int)) := by
      have := mono0 (fun i => st.e true (n * ((eLen N true : Nat) : Int) + ((N + 1 + i : Nat) : Int))) zenc.1 0 ip (by omega) (by omega)
      have z0' : st.e true (n * ((eLen N true : Nat) : Int) + ((N + 1 + 0 : Nat) : Int)) = 0 := z0
      linarith
    refine ⟨true, n, lam, _, st.e true (n * ((eLen N true : Nat) : Int) + ((N + 1 + ip : Nat) : Int)),
      st.e true (n * ((eLen N true : Nat) : Int) + ((N + 1 + (ip + 1) : Nat) : Int)), hsl, hsol, ?_, ?_⟩
    · simp only [if_pos hsm]; exact ⟨hlo, hhi⟩
    · have hnot : ¬ (IsDeuteronChannel s ∧ s.L = 0 ∧ ip = 0) := by
        rintro ⟨d1, d2, -⟩
        unfold SecondMember at hsm
        unfold IsDeuteronChannel at d1
        rcases hsm with hx | hx
        · omega
        · omega
      rw [if_neg hnot, hval, eidx, eidx]
      rw [eidx] at hnn
      unfold resolventCell
      simp only
      rw [if_neg (not_lt.2 hnn), if_neg (not_lt.2 hnn), if_neg (not_lt.2 hnn), zero_add]
      push_cast
      ring_nf
  · rw [if_neg hsm] at hval
    simp only [add_zero] at hval
    have hlo := (hE1.2 ip hip).1
    have hhi := (hE1.2 ip hip).2
    refine ⟨b, n, lam, _, st.e b (n * ((eLen N b : Nat) : Int) + (ip : Int)), st.e b (n * ((eLen N b : Nat) : Int) + ((ip + 1 : Nat) : Int)), hsl, hsol, ?_, ?_⟩
    · simp only [if_neg hsm]; exact ⟨hlo, hhi⟩
    · rw [hval]
      have e1 : n * ((eLen N b : Nat) : Int) + (ip : Int) + 1 = n * ((eLen N b : Nat) : Int) + ((ip + 1 : Nat) : Int) := by push_cast; ring
      rw [e1]
      by_cases hc : IsDeuteronChannel s ∧ s.L = 0 ∧ ip = 0
      · rw [if_pos hc]
        obtain ⟨d1, d2, rfl⟩ := hc
        obtain ⟨f0, f1⟩ := hE2 d1
        obtain ⟨g0, g1, -⟩ := hdeut d1
        have f0' : st.e b (n * ((eLen N b : Nat) : Int) + ((0 : Nat) : Int)) = lam 0 := f0
        unfold resolventCell
        simp only
        rw [f0', if_pos g0, if_pos g0, if_pos g0, add_zero, g1]
      · rw [if_neg hc]
        have hnn : 0 ≤ st.e b (n * ((eLen N b : Nat) : Int) + (ip : Int)) := by
          by_cases d1 : IsDeuteronChannel s
          · have hip0 : 1 ≤ ip := by
              by_contra hx
              apply hc
              refine ⟨d1, ?_, by omega⟩
              unfold SecondMember at hsm
              unfold IsDeuteronChannel at d1
              omega
            have := mono0 (fun i => st.e b (n * ((eLen N b : Nat) : Int) + (i : Int))) hE1.1 1 ip hip0 (by omega)
            have f1' : st.e b (n * ((eLen N b : Nat) : Int) + ((1 : Nat) : Int)) = 0 := (hE2 d1).2
            linarith
          · have := mono0 (fun i => st.e b (n * ((eLen N b : Nat) : Int) + (i : Int))) hE1.1 0 ip (by omega) (by omega)
            have f1' : st.e b (n * ((eLen N b : Nat) : Int) + ((0 : Nat) : Int)) = 0 := hE3 d1
            linarith
        unfold resolventCell
        simp only
        rw [if_neg (not_lt.2 hnn), if_neg (not_lt.2 hnn), if_neg (not_lt.2 hnn), zero_add]

/-- Diagonal matrix with distinct non-zero entries: spectrum non-degenerate and non-zero. -/
theorem diagonal_nondegenerate (dim : Nat) (A : Nat → Nat → ℝ) (d : Nat → ℝ) (hA : ∀ r < dim, ∀ c < dim, A r c = if r = c then d r else 0)
    (hinj : ∀ r < dim, ∀ c < dim, d r = d c → r = c) (hnz : ∀ r < dim, d r ≠ 0) (lam : Nat → ℝ) (vec : Nat → Nat → ℝ) (h : ChannelSolved dim A lam vec) :
    (∀ i j, i < j → j < dim → lam i < lam j) ∧ ∀ i < dim, lam i ≠ 0 := by
  obtain ⟨h0, h1, h2⟩ := h
  have h3 : ∀ k < dim, ∀ r < dim, (d r - lam k) * vec r k = 0 := by
    intro k hk r hr
    have := h1 k hk r hr
    rw [Finset.sum_eq_single r (fun c hc hcr => by rw [hA r hr c (Finset.mem_range.1 hc), if_neg hcr.symm]; ring)
      (fun hn => absurd (Finset.mem_range.2 hr) hn), hA r hr r hr, if_pos rfl] at this
    linarith
  have hex : ∀ k < dim, ∃ r < dim, vec r k ≠ 0 ∧ d r = lam k := by
    intro k hk
    by_contra hno
    have hz : ∀ r < dim, vec r k = 0 := by
      intro r hr
      by_contra hv
      rcases mul_eq_zero.1 (h3 k hk r hr) with h | h
      · exact hno ⟨r, hr, hv, by linarith⟩
      · exact hv h
    have := h2 k hk k hk
    rw [if_pos rfl, Finset.sum_eq_zero (fun i hi => by rw [hz i (Finset.mem_range.1 hi)]; ring)] at this
    norm_num at this
  refine ⟨fun i j hij hj => lt_of_le_of_ne (h0 i j hij.le hj) fun heq => ?_, fun i hi => ?_⟩
  · obtain ⟨r, hr, hv, hd⟩ := hex i (by omega)
    obtain ⟨r', hr', hv', hd'⟩ := hex j hj
    have hrr : r = r' := hinj r hr r' hr' (by rw [hd, hd', heq])
    subst hrr
    have := h2 i (by omega) j hj
    rw [if_neg hij.ne, Finset.sum_eq_single r] at this
    · exact (mul_ne_zero hv hv') this
    · intro c hc hcr
      rcases mul_eq_zero.1 (h3 i (by omega) c (Finset.mem_range.1 hc)) with hx | hx
      · exact absurd (hinj c (Finset.mem_range.1 hc) r hr (by rw [hd]; linarith)) hcr
      · rw [hx]; ring
    · intro hn; exact absurd (Finset.mem_range.2 hr) hn
  · obtain ⟨r, hr, -, hd⟩ := hex i hi
    rw [← hd]; exact hnz r hr

/-- All hypotheses of `C73_resolvent_array` (and of the last part of `C72_stored_wave_packets`) can be met together. -/
example : ∃ (diag : Diag) (V : Bool → Int → ℝ) (w : PWSpace) (st : SwpState), LapackContract diag ∧
    constructPW { J2max := 1, twoJ3max := 1, isoBreak := false } = some w ∧
    (∀ b (n : Int), ∀ r < chnDim 3 b, ∀ c < chnDim 3 b, V b (n * (chnDim 3 b * chnDim 3 b : Nat) + (r * chnDim 3 b + c : Nat)) =
      V b (n * (chnDim 3 b * chnDim 3 b : Nat) + (c * chnDim 3 b + r : Nat))) ∧
    makeSwpStates { J2max := 1, twoJ3max := 1, isoBreak := false } 3 (fun i => i) V diag (fun _ => 0) (fun _ _ => 0) 0 w.states = .ok st ∧
    (∀ s ∈ w.states, ∀ b n, slotOf { J2max := 1, twoJ3max := 1, isoBreak := false } s = some (b, n) → ∀ lam vec, ChannelSolved (chnDim 3 b)
        (hamiltonian 3 (fun i => i) fun r c => V b (n * (chnDim 3 b * chnDim 3 b : Nat) + (r * chnDim 3 b + c : Nat))) lam vec →
      (∀ i j, i < j → j < chnDim 3 b → lam i < lam j) ∧ ∀ i < chnDim 3 b, lam i ≠ 0) := by
  classical
  obtain ⟨diag, hd⟩ := exists_lapack
  have hv : ValidTruncation { J2max := 1, twoJ3max := 1, isoBreak := false } := by unfold ValidTruncation; simp
  obtain ⟨w, hw, hmem⟩ := C01_basis_exact { J2max := 1, twoJ3max := 1, isoBreak := false } hv
  let V : Bool → Int → ℝ := fun b k => if b = true ∧ k % 36 = 0 then -freeH 0 1 - 1 else
    if b = true ∧ (k % 36 = 21 ∨ k % 36 = 28 ∨ k % 36 = 35) then 100 else 0
  let d : Bool → Nat → ℝ := fun b r => freeH ((r % 3 : Nat) : ℝ) ((r % 3 + 1 : Nat) : ℝ) +
        if b = true ∧ r = 0 then -freeH 0 1 - 1 else if b = true ∧ 3 ≤ r then 100 else 0
  have hm := mu23_pos
  have t01 : 0 < freeH 0 1 ∧ freeH 0 1 < freeH 1 2 ∧ freeH 1 2 < freeH 2 3 ∧ freeH 2 3 < 100 := by
    have a := C33_between 0 1 2 (by norm_num) (by norm_num) (by norm_num)
    have b := C33_between 1 2 3 (by norm_num) (by norm_num) (by norm_num)
    have c := C33_between 2 3 4 (by norm_num) (by norm_num) (by norm_num)
    have a1 := a.1
    have c1 := c.2.1
    have hmu : (3 : ℝ) ^ 2 / (2 * mu23) < 100 := by
      rw [div_lt_iff₀ (by positivity)]
      unfold mu23 Mp Mn
      norm_num
    refine ⟨by simpa using a1, a.2.2, b.2.2, by linarith⟩
  have hVsym : ∀ b (n : Int), ∀ r < chnDim 3 b, ∀ c < chnDim 3 b, V b (n * (chnDim 3 b * chnDim 3 b : Nat) + (r * chnDim 3 b + c : Nat)) =
      V b (n * (chnDim 3 b * chnDim 3 b : Nat) + (c * chnDim 3 b + r : Nat)) := by
    intro b n r hr c hc
    cases b with
    | false => simp [V]
    | true =>
      simp only [chnDim, if_true] at hr hc ⊢
      simp only [V, true_and]
      by_cases hrc : r = c
      · rw [hrc]
      · rw [if_neg (by push_cast; omega), if_neg (by push_cast; omega), if_neg (by push_cast; omega), if_neg (by push_cast; omega)]
  have hdiag : ∀ b (n : Int), ∀ r < chnDim 3 b, ∀ c < chnDim 3 b,
      hamiltonian 3 (fun i => i) (fun r c => V b (n * (chnDim 3 b * chnDim 3 b : Nat) + (r * chnDim 3 b + c : Nat))) r c = if r = c then d b r else 0 := by
    intro b n r hr c hc
    unfold hamiltonian
    show (V b (n * (chnDim 3 b * chnDim 3 b : Nat) + (r * chnDim 3 b + c : Nat)) + if r = c then
      (∫ p in ((r % 3 : Nat) : ℝ)..((r % 3 + 1 : Nat) : ℝ), p ^ 2 / (2 * mu23)) / (((r % 3 + 1 : Nat) : ℝ) - ((r % 3 : Nat) : ℝ)) else 0) = _
    rw [← C33_bin_average _ _ (by push_cast; linarith)]
    cases b with
    | false => simp [V, d]
    | true =>
      simp only [chnDim, if_true] at hr hc ⊢
      simp only [V, d, true_and]
      by_cases hrc : r = c
      · subst hrc
        rw [if_pos rfl, if_pos rfl, add_comm]
        congr 1
        by_cases h0 : r = 0
        · subst h0; rw [if_pos (by push_cast; omega), if_pos rfl]
        · rw [if_neg (by push_cast; omega), if_neg h0]
          by_cases h3 : 3 ≤ r
          · have h45 : r = 3 ∨ r = 4 ∨ r = 5 := by omega
            rw [if_pos (by rcases h45 with rfl | rfl | rfl <;> push_cast <;> omega), if_pos h3]
          · rw [if_neg (by push_cast; omega), if_neg h3]
      · rw [if_neg hrc, if_neg hrc, if_neg (by push_cast; omega), if_neg (by push_cast; omega), zero_add]
  have dval : d true 0 = -1 ∧ d true 1 = freeH 1 2 ∧ d true 2 = freeH 2 3 ∧ d true 3 = freeH 0 1 + 100 ∧ d true 4 = freeH 1 2 + 100 ∧ d true 5 = freeH 2 3 + 100 ∧
      d false 0 = freeH 0 1 ∧ d false 1 = freeH 1 2 ∧ d false 2 = freeH 2 3 := by
    refine ⟨?_, ?_, ?_, ?_, ?_, ?_, ?_, ?_, ?_⟩ <;> simp only [d] <;> norm_num
    ring
  obtain ⟨v0, v1, v2, v3, v4, v5, u0, u1, u2⟩ := dval
  obtain ⟨t0, t1, t2, t3⟩ := t01
  have hstrict : ∀ b, ∀ r c, r < c → c < chnDim 3 b → d b r < d b c := by
    intro b r c hrc hc
    cases b with
    | false =>
      simp only [chnDim, Bool.false_eq_true, if_false] at hc
      interval_cases c <;> interval_cases r <;> simp only [u0, u1, u2] <;> linarith
    | true =>
      simp only [chnDim, if_true] at hc
      interval_cases c <;> interval_cases r <;> simp only [v0, v1, v2, v3, v4, v5] <;> linarith
  have hnz : ∀ b, ∀ r < chnDim 3 b, d b r ≠ 0 := by
    intro b r hr
    cases b with
    | false =>
      simp only [chnDim, Bool.false_eq_true, if_false] at hr
      interval_cases r <;> simp only [u0, u1, u2] <;> intro hx <;> linarith
    | true =>
      simp only [chnDim, if_true] at hr
      interval_cases r <;> simp only [v0, v1, v2, v3, v4, v5] <;> intro hx <;> linarith
  have hinj : ∀ b, ∀ r < chnDim 3 b, ∀ c < chnDim 3 b, d b r = d b c → r = c := by
    intro b r hr c hc he
    rcases lt_trichotomy r c with hx | hx | hx
    · exact absurd he (hstrict b r c hx hc).ne
    · exact hx
    · exact absurd he (hstrict b c r hx hr).ne'
  have hpos : ∀ b, ∀ r, 1 ≤ r → r < chnDim 3 b → 0 ≤ d b r := by
    intro b r h1 hr
    cases b with
    | false =>
      simp only [chnDim, Bool.false_eq_true, if_false] at hr
      interval_cases r <;> simp only [u0, u1, u2] <;> linarith
    | true =>
      simp only [chnDim, if_true] at hr
      interval_cases r <;> simp only [v0, v1, v2, v3, v4, v5] <;> linarith
  have hrun := (C37_run _ rfl hv w hw 3 (fun i => i) (fun i _ => by simp) V (fun _ _ b n _ => hVsym b n) diag hd (fun _ => 0) (fun _ _ => 0) 0).1 (by
    intro s hs b n hsl lam z hdec
    have hdim : 0 < chnDim 3 b := by cases b <;> simp [chnDim]
    obtain ⟨g1, g2⟩ := diagonal_one_negative (chnDim 3 b) hdim _ (d b) (hdiag b n) (hpos b) lam z hdec
    have hfs := ((hmem s).1 hs).facts
    have hJ : s.J ≤ 1 := ((hmem s).1 hs).2.2.2.2.2.2.2.2.1
    rw [slotOf_tensor rfl hfs] at hsl
    obtain ⟨f1, f2, f3, f4, f5, f6, f7⟩ := hfs
    by_cases hde : IsDeuteronChannel s
    · rw [if_pos hde]
      unfold IsDeuteronChannel at hde
      rw [if_pos (by omega)] at hsl
      have hb : b = true := by
        have := congrArg (Option.map Prod.fst) hsl
        simpa using this.symm
      subst hb
      exact g1 (by rw [v0]; norm_num)
    · rw [if_neg hde]
      unfold IsDeuteronChannel at hde
      have hb : b = false := by
        rw [if_neg (by omega)] at hsl
        have := congrArg (Option.map Prod.fst) hsl
        simpa using this.symm
      subst hb
      exact g2 (by rw [u0]; exact t0.le))
  obtain ⟨st, hst⟩ := hrun
  refine ⟨diag, V, w, st, hd, hw, hVsym, hst, ?_⟩
  intro s hs b n hsl lam vec hsol
  exact diagonal_nondegenerate _ _ (d b) (hdiag b n) (hinj b) (hnz b) lam vec hsol

end TicTac
end
