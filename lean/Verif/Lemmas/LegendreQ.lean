import Verif.Lemmas.Legendre
import Verif.Lemmas.Sonin
import Mathlib.Analysis.SpecialFunctions.Log.Deriv
import Mathlib.Analysis.SpecialFunctions.Integrals.Basic
import Mathlib.Analysis.SpecificLimits.Basic
/-! The Legendre functions of the second kind: recursion, bounds and their hypergeometric series. -/
noncomputable section
namespace TicTac
open Polynomial Spec Set MeasureTheory

/-- `Q_l(x) = ½ ∫ P_l(z)/(x-z) dz`. -/
def legQ (l : Nat) (x : ℝ) : ℝ := 1 / 2 * ∫ z in (-1 : ℝ)..1, (legendre l).eval z / (x - z)

theorem legQ_cont {x : ℝ} (hx : 1 < x) (f : ℝ → ℝ) (hf : Continuous f) : IntervalIntegrable (fun z : ℝ => f z / (x - z)) volume (-1) 1 := by
  refine ContinuousOn.intervalIntegrable ?_
  rw [uIcc_of_le (by norm_num)]
  refine hf.continuousOn.div (by fun_prop) ?_
  intro z hz
  have := hz.2
  exact (by linarith : 0 < x - z).ne'

theorem legendre_mean (l : Nat) : ∫ z in (-1 : ℝ)..1, (legendre (l + 1)).eval z = 0 := by
  have h := intervalIntegral.integral_eq_sub_of_hasDerivAt (a := -1) (b := 1) (fun x _ => ((X ^ 2 - 1) * derivative (legendre (l + 1))).hasDerivAt x)
    ((derivative ((X ^ 2 - 1) * derivative (legendre (l + 1)))).continuous.intervalIntegrable _ _)
  rw [legendre_ode] at h
  simp only [eval_mul, eval_sub, eval_pow, eval_X, eval_one, eval_add, eval_natCast] at h
  norm_num at h
  rcases h with h | h
  · exfalso
    have : (0 : ℝ) < ((l : ℝ) + 1) * ((l : ℝ) + 1 + 1) := by positivity
    rcases h with h | h <;> linarith [show (0 : ℝ) ≤ l by positivity]
  · exact h

theorem legQ_rec {x : ℝ} (hx : 1 < x) (l : Nat) : ((l : ℝ) + 2) * legQ (l + 2) x = (2 * (l : ℝ) + 3) * x * legQ (l + 1) x - ((l : ℝ) + 1) * legQ l x := by
  have i0 := legQ_cont hx _ (legendre l).continuous
  have i1 := legQ_cont hx _ (legendre (l + 1)).continuous
  have ic : IntervalIntegrable (fun z => (legendre (l + 1)).eval z) volume (-1) 1 := (legendre (l + 1)).continuous.intervalIntegrable _ _
  have e : ((l : ℝ) + 2) * ∫ z in (-1 : ℝ)..1, (legendre (l + 2)).eval z / (x - z) =
      ∫ z in (-1 : ℝ)..1, ((2 * (l : ℝ) + 3) * x * ((legendre (l + 1)).eval z / (x - z)) - ((l : ℝ) + 1) * ((legendre l).eval z / (x - z)) - (2 * (l : ℝ) + 3) * (legendre (l + 1)).eval z) := by
    rw [← intervalIntegral.integral_const_mul]
    refine intervalIntegral.integral_congr fun z hz => ?_
    rw [uIcc_of_le (by norm_num)] at hz
    have hz' : x - z ≠ 0 := (by linarith [hz.2] : 0 < x - z).ne'
    beta_reduce
    rw [legendre_eval_bonnet]
    field_simp
    ring
  rw [intervalIntegral.integral_sub ((i1.const_mul _).sub (i0.const_mul _)) (ic.const_mul _), intervalIntegral.integral_sub (i1.const_mul _) (i0.const_mul _), intervalIntegral.integral_const_mul,
    intervalIntegral.integral_const_mul, intervalIntegral.integral_const_mul, legendre_mean] at e
  unfold legQ
  linear_combination (1 / 2) * e

theorem legQ_zero {x : ℝ} (hx : 1 < x) : legQ 0 x = Real.log ((x + 1) / (x - 1)) / 2 := by
  have d : ∀ z ∈ uIcc (-1 : ℝ) 1, HasDerivAt (fun z => -Real.log (x - z)) (1 / (x - z)) z := by
    intro z hz
    rw [uIcc_of_le (by norm_num)] at hz
    have hz' : x - z ≠ 0 := (by linarith [hz.2] : 0 < x - z).ne'
    have h := ((hasDerivAt_id z).const_sub x).log hz'
    exact h.neg.congr_deriv (by simp only [id]; field_simp)
  have hi := legQ_cont hx (fun _ => 1) continuous_const
  have h := intervalIntegral.integral_eq_sub_of_hasDerivAt d hi
  unfold legQ
  rw [legendre_zero]
  simp only [eval_one]
  rw [h, Real.log_div (by linarith) (by linarith)]
  rw [show x - -1 = x + 1 by ring]
  ring

theorem legQ_one {x : ℝ} (hx : 1 < x) : legQ 1 x = x * legQ 0 x - 1 := by
  have i0 := legQ_cont hx (fun _ => 1) continuous_const
  unfold legQ
  rw [legendre_zero, legendre_one]
  simp only [eval_one, eval_X]
  have e : ∫ z in (-1 : ℝ)..1, z / (x - z) = ∫ z in (-1 : ℝ)..1, (x * (1 / (x - z)) - 1) := by
    refine intervalIntegral.integral_congr fun z hz => ?_
    rw [uIcc_of_le (by norm_num)] at hz
    have hz' : x - z ≠ 0 := (by linarith [hz.2] : 0 < x - z).ne'
    beta_reduce
    field_simp
    ring
  rw [e, intervalIntegral.integral_sub (i0.const_mul _) (by simp), intervalIntegral.integral_const_mul]
  norm_num
  ring

theorem legQ_abs {x : ℝ} (hx : 1 < x) (l : Nat) : |legQ l x| ≤ 1 / (x - 1) := by
  unfold legQ
  rw [abs_mul]
  have h : ‖∫ z in (-1 : ℝ)..1, (legendre l).eval z / (x - z)‖ ≤ 1 / (x - 1) * |1 - (-1)| := by
    refine intervalIntegral.norm_integral_le_of_norm_le_const fun z hz => ?_
    rw [uIoc_of_le (by norm_num)] at hz
    rw [Real.norm_eq_abs, abs_div, abs_of_pos (show 0 < x - z by linarith [hz.2])]
    exact div_le_div₀ (by norm_num) (legendre_abs_le_one l z (abs_le.2 ⟨by linarith [hz.1], hz.2⟩)) (by linarith) (by linarith [hz.2])
  rw [Real.norm_eq_abs] at h
  norm_num at h ⊢
  linarith

/-- Coefficients of `F(1/2, l+1; l+3/2; ·)`. -/
def hypCoef (l : Nat) : Nat → ℝ
  | 0 => 1
  | k + 1 => hypCoef l k * (((k : ℝ) + 1 / 2) * ((l : ℝ) + 1 + k)) / (((l : ℝ) + 3 / 2 + k) * ((k : ℝ) + 1))

theorem hypCoef_pos (l k : Nat) : 0 < hypCoef l k := by
  induction k with
  | zero => norm_num [hypCoef]
  | succ k ih => rw [hypCoef]; positivity

theorem hypCoef_succ_le (l k : Nat) : hypCoef l (k + 1) ≤ hypCoef l k := by
  rw [hypCoef, div_le_iff₀ (by positivity)]
  refine mul_le_mul_of_nonneg_left ?_ (hypCoef_pos l k).le
  nlinarith [show (0 : ℝ) ≤ k by positivity, show (0 : ℝ) ≤ l by positivity]

theorem hypCoef_le_one (l k : Nat) : hypCoef l k ≤ 1 := by
  induction k with
  | zero => norm_num [hypCoef]
  | succ k ih => exact (hypCoef_succ_le l k).trans ih

theorem hypCoef_next (l k : Nat) : hypCoef (l + 1) k * (((l : ℝ) + 1) * ((l : ℝ) + 3 / 2 + k)) = hypCoef l k * (((l : ℝ) + 1 + k) * ((l : ℝ) + 3 / 2)) := by
  induction k with
  | zero => norm_num [hypCoef]
  | succ k ih =>
    rw [hypCoef, hypCoef]
    push_cast
    have h1 : ((l : ℝ) + 1 + 3 / 2 + k) ≠ 0 := by positivity
    have h2 : ((l : ℝ) + 3 / 2 + k) ≠ 0 := by positivity
    have h3 : ((k : ℝ) + 1) ≠ 0 := by positivity
    generalize hypCoef (l + 1) k = A at *
    generalize hypCoef l k = B at *
    have h4 : ((l : ℝ) + 1) ≠ 0 := by positivity
    have hA : A = B * (((l : ℝ) + 1 + k) * ((l : ℝ) + 3 / 2)) / (((l : ℝ) + 1) * ((l : ℝ) + 3 / 2 + k)) := by rw [eq_div_iff (mul_ne_zero h4 h2)]; exact ih
    rw [hA, show ((l : ℝ) + 3 / 2 + (k + 1)) = l + 1 + 3 / 2 + k by ring, show ((l : ℝ) + 1 + (k + 1)) = l + 1 + 1 + k by ring]
    field_simp

/-- The factor in front. -/
def hypPre (l : Nat) : ℝ := ∏ i ∈ Finset.range l, ((i + 1 : Nat) : ℝ) / (2 * (i + 1 : Nat) + 1)

theorem hypPre_succ (l : Nat) : hypPre (l + 1) = hypPre l * (((l : ℝ) + 1) / (2 * (l : ℝ) + 3)) := by
  unfold hypPre
  rw [Finset.prod_range_succ]
  congr 2
  · push_cast; ring
  · push_cast; ring

theorem hypPre_pos (l : Nat) : 0 < hypPre l := Finset.prod_pos fun i _ => by positivity

/-- Coefficient of `ζ^(l+1+2k)` in `Q_l`. -/
def qCoef (l k : Nat) : ℝ := hypPre l * 2 ^ (l + 1) * hypCoef l k

theorem qCoef_next (l k : Nat) : qCoef (l + 1) k * ((l : ℝ) + 3 / 2 + k) = qCoef l k * ((l : ℝ) + 1 + k) := by
  have h := hypCoef_next l k
  unfold qCoef
  rw [hypPre_succ, pow_succ]
  have h1 : (2 * (l : ℝ) + 3) ≠ 0 := by positivity
  have h2 : ((l : ℝ) + 1) ≠ 0 := by positivity
  have h3 : ((l : ℝ) + 3 / 2 + k) ≠ 0 := by positivity
  have hA : hypCoef (l + 1) k = hypCoef l k * (((l : ℝ) + 1 + k) * ((l : ℝ) + 3 / 2)) / (((l : ℝ) + 1) * ((l : ℝ) + 3 / 2 + k)) := by rw [eq_div_iff (mul_ne_zero h2 h3)]; exact h
  rw [hA]
  field_simp

theorem qCoef_succ (l k : Nat) : qCoef l (k + 1) * (((l : ℝ) + 3 / 2 + k) * ((k : ℝ) + 1)) = qCoef l k * (((k : ℝ) + 1 / 2) * ((l : ℝ) + 1 + k)) := by
  unfold qCoef
  rw [hypCoef]
  have h1 : (((l : ℝ) + 3 / 2 + k) * ((k : ℝ) + 1)) ≠ 0 := by positivity
  field_simp

theorem qCoef_rec (m k : Nat) : ((m : ℝ) + 2) * qCoef (m + 2) k + ((m : ℝ) + 1) * qCoef m (k + 1) = (2 * (m : ℝ) + 3) / 2 * (qCoef (m + 1) k + qCoef (m + 1) (k + 1)) := by
  have a := qCoef_next (m + 1) k
  have b := qCoef_next m (k + 1)
  have c := qCoef_succ (m + 1) k
  push_cast at a b c
  have h1 : ((m : ℝ) + 1 + 3 / 2 + k) ≠ 0 := by positivity
  have h2 : ((m : ℝ) + 1 + (k + 1)) ≠ 0 := by positivity
  have h3 : ((k : ℝ) + 1) ≠ 0 := by positivity
  have a' : qCoef (m + 2) k = qCoef (m + 1) k * ((m : ℝ) + 1 + 1 + k) / ((m : ℝ) + 1 + 3 / 2 + k) := by rw [eq_div_iff h1]; exact a
  have c' : qCoef (m + 1) (k + 1) = qCoef (m + 1) k * (((k : ℝ) + 1 / 2) * ((m : ℝ) + 1 + 1 + k)) / (((m : ℝ) + 1 + 3 / 2 + k) * ((k : ℝ) + 1)) := by
    rw [eq_div_iff (mul_ne_zero h1 h3)]; exact c
  have b' : qCoef m (k + 1) = qCoef (m + 1) (k + 1) * ((m : ℝ) + 3 / 2 + (k + 1)) / ((m : ℝ) + 1 + (k + 1)) := by rw [eq_div_iff h2]; linarith
  rw [b', c', a']
  have e1 : ((m : ℝ) + 1 + 1 + k) = (m + 1 + (k + 1)) := by ring
  have e2 : ((m : ℝ) + 3 / 2 + (k + 1)) = (m + 1 + 3 / 2 + k) := by ring
  rw [e1, e2]
  generalize qCoef (m + 1) k = A
  field_simp
  ring

theorem qCoef_first (m : Nat) : ((m : ℝ) + 1) * qCoef m 0 = (2 * (m : ℝ) + 3) / 2 * qCoef (m + 1) 0 := by
  have a := qCoef_next m 0
  push_cast at a
  linarith

theorem qCoef_zero (k : Nat) : qCoef 0 k = 2 / (2 * (k : ℝ) + 1) := by
  induction k with
  | zero => norm_num [qCoef, hypPre, hypCoef]
  | succ k ih =>
    have c := qCoef_succ 0 k
    rw [ih] at c
    push_cast at c ⊢
    have h1 : (2 * (k : ℝ) + 1) ≠ 0 := by positivity
    have h2 : (2 * ((k : ℝ) + 1) + 1) ≠ 0 := by positivity
    have h3 : ((k : ℝ) + 1) ≠ 0 := by positivity
    rw [eq_div_iff h2]
    have h4 : 2 / (2 * (k : ℝ) + 1) * (((k : ℝ) + 1 / 2) * (0 + 1 + k)) = (k + 1) := by field_simp; ring
    rw [h4] at c
    have : ((k : ℝ) + 1) * (qCoef 0 (k + 1) * (2 * ((k : ℝ) + 1) + 1)) = (k + 1) * 2 := by linarith
    exact mul_left_cancel₀ h3 this

theorem qCoef_pos (l k : Nat) : 0 < qCoef l k := by
  have := hypPre_pos l
  have := hypCoef_pos l k
  unfold qCoef; positivity

theorem q_summable {ζ : ℝ} (h0 : 0 ≤ ζ) (h1 : ζ < 1) (l : Nat) (p : Nat) : Summable fun k : Nat => qCoef l k * ζ ^ (p + 2 * k) := by
  have hz : ζ ^ 2 < 1 := by nlinarith
  have hg := (summable_geometric_of_lt_one (by positivity : 0 ≤ ζ ^ 2) hz).mul_left (hypPre l * 2 ^ (l + 1) * ζ ^ p)
  refine Summable.of_nonneg_of_le (fun k => mul_nonneg (qCoef_pos l k).le (by positivity)) (fun k => ?_) hg
  have hp := hypPre_pos l
  have hc := hypCoef_le_one l k
  have : hypPre l * 2 ^ (l + 1) * ζ ^ p * (ζ ^ 2) ^ k = hypPre l * 2 ^ (l + 1) * 1 * ζ ^ (p + 2 * k) := by rw [pow_add ζ, pow_mul ζ]; ring
  rw [this]
  unfold qCoef
  exact mul_le_mul_of_nonneg_right (mul_le_mul_of_nonneg_left hc (by positivity)) (by positivity)

/-- The series. -/
def qSer (ζ : ℝ) (l : Nat) : ℝ := ∑' k : Nat, qCoef l k * ζ ^ (l + 1 + 2 * k)

theorem qSer_split {ζ : ℝ} (h0 : 0 ≤ ζ) (h1 : ζ < 1) (l p : Nat) : ∑' k : Nat, qCoef l k * ζ ^ (p + 2 * k) = qCoef l 0 * ζ ^ p + ∑' k : Nat, qCoef l (k + 1) * ζ ^ (p + 2 + 2 * k) := by
  rw [(q_summable h0 h1 l p).tsum_eq_zero_add]
  congr 1
  refine tsum_congr fun k => ?_
  rw [show p + 2 * (k + 1) = p + 2 + 2 * k by ring]

theorem qSer_rec {ζ : ℝ} (h0 : 0 < ζ) (h1 : ζ < 1) (m : Nat) :
    ((m : ℝ) + 2) * qSer ζ (m + 2) = (2 * (m : ℝ) + 3) * ((ζ + 1 / ζ) / 2) * qSer ζ (m + 1) - ((m : ℝ) + 1) * qSer ζ m := by
  have s2 := q_summable h0.le h1 (m + 2) (m + 3)
  have s1 := q_summable h0.le h1 (m + 1) (m + 3)
  have t1 : Summable fun k : Nat => qCoef (m + 1) (k + 1) * ζ ^ (m + 3 + 2 * k) := by
    have := (summable_nat_add_iff 1).2 (q_summable h0.le h1 (m + 1) (m + 1))
    refine this.congr fun k => ?_
    rw [show m + 1 + 2 * (k + 1) = m + 3 + 2 * k by ring]
  have t0 : Summable fun k : Nat => qCoef m (k + 1) * ζ ^ (m + 3 + 2 * k) := by
    have := (summable_nat_add_iff 1).2 (q_summable h0.le h1 m (m + 1))
    refine this.congr fun k => ?_
    rw [show m + 1 + 2 * (k + 1) = m + 3 + 2 * k by ring]
  have e0 : qSer ζ m = qCoef m 0 * ζ ^ (m + 1) + ∑' k : Nat, qCoef m (k + 1) * ζ ^ (m + 3 + 2 * k) := by
    unfold qSer; rw [qSer_split h0.le h1]
  have e1 : ζ * qSer ζ (m + 1) = ∑' k : Nat, qCoef (m + 1) k * ζ ^ (m + 3 + 2 * k) := by
    unfold qSer
    rw [← tsum_mul_left]
    refine tsum_congr fun k => ?_
    rw [show m + 3 + 2 * k = m + 1 + 1 + 2 * k + 1 by ring, pow_succ]; ring
  have e1' : 1 / ζ * qSer ζ (m + 1) = qCoef (m + 1) 0 * ζ ^ (m + 1) + ∑' k : Nat, qCoef (m + 1) (k + 1) * ζ ^ (m + 3 + 2 * k) := by
    rw [← qSer_split h0.le h1 (m + 1) (m + 1)]
    unfold qSer
    rw [← tsum_mul_left]
    refine tsum_congr fun k => ?_
    rw [show m + 1 + 1 + 2 * k = m + 1 + 2 * k + 1 by ring, pow_succ]; field_simp
  have e2 : qSer ζ (m + 2) = ∑' k : Nat, qCoef (m + 2) k * ζ ^ (m + 3 + 2 * k) := rfl
  have key : ((m : ℝ) + 2) * (∑' k : Nat, qCoef (m + 2) k * ζ ^ (m + 3 + 2 * k)) + ((m : ℝ) + 1) * (∑' k : Nat, qCoef m (k + 1) * ζ ^ (m + 3 + 2 * k)) =
      (2 * (m : ℝ) + 3) / 2 * ((∑' k : Nat, qCoef (m + 1) k * ζ ^ (m + 3 + 2 * k)) + ∑' k : Nat, qCoef (m + 1) (k + 1) * ζ ^ (m + 3 + 2 * k)) := by
    rw [← tsum_mul_left, ← tsum_mul_left, ← (s2.mul_left _).tsum_add (t0.mul_left _), ← s1.tsum_add t1, ← tsum_mul_left]
    refine tsum_congr fun k => ?_
    have := qCoef_rec m k
    linear_combination ζ ^ (m + 3 + 2 * k) * this
  have f := qCoef_first m
  rw [show (2 * (m : ℝ) + 3) * ((ζ + 1 / ζ) / 2) * qSer ζ (m + 1) = (2 * (m : ℝ) + 3) / 2 * (ζ * qSer ζ (m + 1) + 1 / ζ * qSer ζ (m + 1)) by ring, e1, e1', e0, e2]
  linear_combination key + ζ ^ (m + 1) * f

/-- `Q_l` as the series in `ζ = x - √(x²-1)`. -/
theorem legQ_series {x ζ : ℝ} (hx : 1 < x) (h0 : 0 < ζ) (h1 : ζ < 1) (hz : x = (ζ + 1 / ζ) / 2) (l : Nat) : legQ l x = qSer ζ l := by
  have z0 : legQ 0 x = qSer ζ 0 := by
    rw [legQ_zero hx]
    have h := Real.hasSum_log_sub_log_of_abs_lt_one (x := ζ) (by rw [abs_of_pos h0]; exact h1)
    have e : qSer ζ 0 = Real.log (1 + ζ) - Real.log (1 - ζ) := by
      rw [← h.tsum_eq]
      unfold qSer
      refine tsum_congr fun k => ?_
      rw [qCoef_zero, show 0 + 1 + 2 * k = 2 * k + 1 by ring]
      ring
    rw [e, ← Real.log_div (by linarith) (by linarith)]
    have : (x + 1) / (x - 1) = ((1 + ζ) / (1 - ζ)) ^ 2 := by
      rw [hz]
      have : 1 - ζ ≠ 0 := by linarith
      have h2 : (ζ + 1 / ζ) / 2 - 1 = (1 - ζ) ^ 2 / (2 * ζ) := by field_simp; ring
      have h3 : (ζ + 1 / ζ) / 2 + 1 = (1 + ζ) ^ 2 / (2 * ζ) := by field_simp; ring
      rw [h2, h3]
      field_simp
    rw [this, Real.log_pow]
    push_cast
    ring
  have z1 : legQ 1 x = qSer ζ 1 := by
    rw [legQ_one hx, z0, hz]
    have s1 := q_summable h0.le h1 0 2
    have t1 : Summable fun k : Nat => qCoef 0 (k + 1) * ζ ^ (2 + 2 * k) := by
      have := (summable_nat_add_iff 1).2 (q_summable h0.le h1 0 0)
      refine this.congr fun k => ?_
      rw [show 0 + 2 * (k + 1) = 2 + 2 * k by ring]
    have e1 : ζ * qSer ζ 0 = ∑' k : Nat, qCoef 0 k * ζ ^ (2 + 2 * k) := by
      unfold qSer
      rw [← tsum_mul_left]
      refine tsum_congr fun k => ?_
      rw [show 2 + 2 * k = 0 + 1 + 2 * k + 1 by ring, pow_succ]; ring
    have e1' : 1 / ζ * qSer ζ 0 = qCoef 0 0 * ζ ^ 0 + ∑' k : Nat, qCoef 0 (k + 1) * ζ ^ (0 + 2 + 2 * k) := by
      rw [← qSer_split h0.le h1 0 0]
      unfold qSer
      rw [← tsum_mul_left]
      refine tsum_congr fun k => ?_
      rw [show 0 + 1 + 2 * k = 0 + 2 * k + 1 by ring, pow_succ]; field_simp
    have key : (∑' k : Nat, qCoef 1 k * ζ ^ (2 + 2 * k)) = 1 / 2 * ((∑' k : Nat, qCoef 0 k * ζ ^ (2 + 2 * k)) + ∑' k : Nat, qCoef 0 (k + 1) * ζ ^ (2 + 2 * k)) := by
      rw [← s1.tsum_add t1, ← tsum_mul_left]
      refine tsum_congr fun k => ?_
      have a := qCoef_next 0 k
      have b := qCoef_succ 0 k
      push_cast at a b
      have h1 : ((0 : ℝ) + 3 / 2 + k) ≠ 0 := by positivity
      have h3 : ((k : ℝ) + 1) ≠ 0 := by positivity
      have a' : qCoef 1 k = qCoef 0 k * (0 + 1 + k) / (0 + 3 / 2 + k) := by rw [eq_div_iff h1]; exact a
      have b' : qCoef 0 (k + 1) = qCoef 0 k * (((k : ℝ) + 1 / 2) * (0 + 1 + k)) / ((0 + 3 / 2 + k) * ((k : ℝ) + 1)) := by rw [eq_div_iff (mul_ne_zero h1 h3)]; exact b
      rw [a', b']
      field_simp
      ring
    have e2 : qSer ζ 1 = ∑' k : Nat, qCoef 1 k * ζ ^ (2 + 2 * k) := rfl
    have c0 : qCoef 0 0 = 2 := by rw [qCoef_zero]; norm_num
    rw [c0] at e1'
    rw [e2, key, show (ζ + 1 / ζ) / 2 * qSer ζ 0 = (ζ * qSer ζ 0 + 1 / ζ * qSer ζ 0) / 2 by ring, e1, e1']
    ring
  have two : ∀ l, legQ l x = qSer ζ l ∧ legQ (l + 1) x = qSer ζ (l + 1) := by
    intro l
    induction l with
    | zero => exact ⟨z0, z1⟩
    | succ l ih =>
      refine ⟨ih.2, ?_⟩
      have a := legQ_rec hx l
      have b := qSer_rec h0 h1 l
      rw [← hz] at b
      rw [ih.1, ih.2] at a
      have : ((l : ℝ) + 2) * legQ (l + 2) x = (l + 2) * qSer ζ (l + 2) := by rw [a, b]
      exact mul_left_cancel₀ (by positivity) this
  exact (two l).1

end TicTac
end
