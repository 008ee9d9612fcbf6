import Verif.Model.NijmegenSex
import Verif.Lemmas.Ce1
import Verif.Lemmas.ChpPoint
/-! The integrals that `SEXN` computes, and its recursions. -/
noncomputable section
namespace TicTac
open Polynomial Spec Set MeasureTheory

theorem legTab_zero (n k : Nat) (h : n < k) : legTab n k = 0 := by
  match n with
  | 0 => exact if_neg (by omega)
  | 1 => exact if_neg (by omega)
  | l + 2 => rw [legTab, if_neg (by omega)]

theorem legTab_rec (l k : Nat) : legTab (l + 2) k = ((2 * (l : ℝ) + 3) * (if 1 ≤ k then legTab (l + 1) (k - 1) else 0) - (l + 1) * legTab l k) / (l + 2) := by
  by_cases hk : k ≤ l + 2
  · rw [legTab, if_pos hk]
    dsimp only
    have e1 : (if 1 ≤ k ∧ k - 1 ≤ l + 1 then legTab (l + 1) (k - 1) else 0) = if 1 ≤ k then legTab (l + 1) (k - 1) else 0 := by
      by_cases h : 1 ≤ k
      · rw [if_pos h, if_pos ⟨h, by omega⟩]
      · rw [if_neg h, if_neg fun h' => h h'.1]
    have e2 : (if k + 1 ≤ l + 1 then legTab l k else 0) = legTab l k := by
      by_cases h : k + 1 ≤ l + 1
      · rw [if_pos h]
      · rw [if_neg h, legTab_zero l k (by omega)]
    rw [e1, e2]
    push_cast
    ring
  · rw [legTab_zero _ _ (by omega), legTab_zero l k (by omega), if_pos (by omega), legTab_zero (l + 1) (k - 1) (by omega)]
    simp

theorem legTab_sum (n : Nat) (z : ℝ) : ∑ k ∈ Finset.range (n + 1), legTab n k * z ^ k = (legendre n).eval z := by
  have ext : ∀ n m, n + 1 ≤ m → ∑ k ∈ Finset.range m, legTab n k * z ^ k = ∑ k ∈ Finset.range (n + 1), legTab n k * z ^ k := by
    intro n m h
    refine (Finset.sum_subset (Finset.range_mono h) fun k _ hk => ?_).symm
    rw [legTab_zero n k (by simpa using hk), zero_mul]
  induction n using Nat.twoStepInduction with
  | zero => rw [Finset.sum_range_one]; simp [legTab, legendre]
  | one =>
    rw [Finset.sum_range_succ, Finset.sum_range_one]
    simp [legTab, legendre]
    ring
  | more l h0 h1 =>
    have hr := leg_next2 l z
    rw [show ((l : Int) + 2) = ((l + 2 : Nat) : Int) by push_cast; ring, show ((l : Int) + 1) = ((l + 1 : Nat) : Int) by push_cast; ring, leg_self, leg_self, leg_self] at hr
    have l2 : ((l : ℝ) + 2) ≠ 0 := by positivity
    rw [← mul_right_inj' l2, hr, ← h0, ← h1, Finset.mul_sum]
    have e : ∀ k, ((l : ℝ) + 2) * (legTab (l + 2) k * z ^ k) = (2 * (l : ℝ) + 3) * ((if 1 ≤ k then legTab (l + 1) (k - 1) else 0) * z ^ k) - (l + 1) * (legTab l k * z ^ k) := by
      intro k
      rw [legTab_rec]
      field_simp
    rw [Finset.sum_congr rfl fun k _ => e k, Finset.sum_sub_distrib, ← Finset.mul_sum, ← Finset.mul_sum, ext l (l + 2 + 1) (by omega), Finset.sum_range_succ']
    simp only [Nat.le_add_left, if_true, Nat.add_sub_cancel, nonpos_iff_eq_zero, one_ne_zero, if_false, zero_mul, add_zero]
    have : ∀ k, legTab (l + 1) k * z ^ (k + 1) = z * (legTab (l + 1) k * z ^ k) := fun k => by rw [pow_succ]; ring
    rw [Finset.sum_congr rfl fun k _ => this k, ← Finset.mul_sum]
    ring

theorem legTab_abs (n : Nat) : ∑ k ∈ Finset.range (n + 1), |legTab n k| ≤ 3 ^ n := by
  have ext : ∀ n m, n + 1 ≤ m → ∑ k ∈ Finset.range m, |legTab n k| = ∑ k ∈ Finset.range (n + 1), |legTab n k| := by
    intro n m h
    refine (Finset.sum_subset (Finset.range_mono h) fun k _ hk => ?_).symm
    rw [legTab_zero n k (by simpa using hk), abs_zero]
  induction n using Nat.twoStepInduction with
  | zero => rw [Finset.sum_range_one]; simp [legTab]
  | one =>
    rw [Finset.sum_range_succ, Finset.sum_range_one]
    simp [legTab]
  | more l h0 h1 =>
    have e : ∀ k, |legTab (l + 2) k| ≤ 2 * |if 1 ≤ k then legTab (l + 1) (k - 1) else 0| + |legTab l k| := by
      intro k
      rw [legTab_rec, abs_div, abs_of_pos (by positivity : (0 : ℝ) < l + 2), div_le_iff₀ (by positivity)]
      refine (abs_sub _ _).trans ?_
      rw [abs_mul, abs_mul, abs_of_pos (by positivity : (0 : ℝ) < 2 * l + 3), abs_of_pos (by positivity : (0 : ℝ) < (l : ℝ) + 1)]
      nlinarith [abs_nonneg (if 1 ≤ k then legTab (l + 1) (k - 1) else 0), abs_nonneg (legTab l k)]
    refine (Finset.sum_le_sum fun k _ => e k).trans ?_
    rw [Finset.sum_add_distrib, ← Finset.mul_sum, ext l (l + 2 + 1) (by omega), Finset.sum_range_succ']
    simp only [Nat.le_add_left, if_true, Nat.add_sub_cancel, nonpos_iff_eq_zero, one_ne_zero, if_false, abs_zero, add_zero]
    have : (0 : ℝ) < 3 ^ l := by positivity
    rw [pow_succ] at h1
    rw [pow_add]
    linarith

/-- `TN(n+1)`: the moments. -/
def tMom (y κ : ℝ) (n : Nat) : ℝ := 1 / 2 * Real.exp (-κ) * ∫ z in (-1 : ℝ)..1, z ^ n * Real.exp (y * z)
/-- The moments of absolute values. -/
def aMom (y κ : ℝ) (n : Nat) : ℝ := 1 / 2 * Real.exp (-κ) * ∫ z in (-1 : ℝ)..1, |z| ^ n * Real.exp (y * z)
/-- `UN(n+1)`. -/
def uMom (x y κ : ℝ) (n : Nat) : ℝ := 1 / 2 * Real.exp (-κ) * ∫ z in (-1 : ℝ)..1, z ^ n * (Real.exp (y * z) / (x - z))

theorem tMom_zero {y : ℝ} (hy : 0 < y) (κ : ℝ) : tMom y κ 0 = 1 / 2 * Real.exp (-κ) * (Real.exp y - Real.exp (-y)) / y := by
  have h : ∫ z in (-1 : ℝ)..1, Real.exp (y * z) = (Real.exp y - Real.exp (-y)) / y := by
    rw [intervalIntegral.integral_comp_mul_left (fun t => Real.exp t) hy.ne', integral_exp, smul_eq_mul, mul_one, mul_neg_one]
    ring
  simp only [tMom, pow_zero, one_mul, h]
  ring

theorem tMom_succ {y : ℝ} (hy : 0 < y) (κ : ℝ) (n : Nat) :
    tMom y κ (n + 1) = 1 / 2 * Real.exp (-κ) * (Real.exp y - (-1) ^ (n + 1) * Real.exp (-y)) / y - (n + 1 : Nat) * tMom y κ n / y := by
  have key := intervalIntegral.integral_mul_deriv_eq_deriv_mul (u := fun z : ℝ => z ^ (n + 1)) (v := fun z => Real.exp (y * z) / y) (u' := fun z => ((n + 1 : Nat) : ℝ) * z ^ n) (v' := fun z => Real.exp (y * z)) (a := -1) (b := 1)
    (fun z _ => by simpa using hasDerivAt_pow (n + 1) z)
    (fun z _ => by
      have h := (((hasDerivAt_id z).const_mul y).exp).div_const y
      refine h.congr_deriv ?_
      have := hy.ne'
      simp only [id_eq]; field_simp)
    ((by fun_prop : Continuous fun z : ℝ => ((n + 1 : Nat) : ℝ) * z ^ n).intervalIntegrable _ _) ((by fun_prop : Continuous fun z : ℝ => Real.exp (y * z)).intervalIntegrable _ _)
  have e : ∫ z in (-1 : ℝ)..1, ((n + 1 : Nat) : ℝ) * z ^ n * (Real.exp (y * z) / y) = (n + 1 : Nat) / y * ∫ z in (-1 : ℝ)..1, z ^ n * Real.exp (y * z) := by
    rw [← intervalIntegral.integral_const_mul]
    congr 1
    funext z
    ring
  rw [e] at key
  unfold tMom
  rw [key]
  simp only [one_pow, mul_one, mul_neg_one, one_mul]
  ring

theorem mom_integrable (y : ℝ) (n : Nat) (a b : ℝ) : IntervalIntegrable (fun z : ℝ => z ^ n * Real.exp (y * z)) volume a b :=
  (by fun_prop : Continuous fun z : ℝ => z ^ n * Real.exp (y * z)).intervalIntegrable _ _
theorem amom_integrable (y : ℝ) (n : Nat) (a b : ℝ) : IntervalIntegrable (fun z : ℝ => |z| ^ n * Real.exp (y * z)) volume a b :=
  (by fun_prop : Continuous fun z : ℝ => |z| ^ n * Real.exp (y * z)).intervalIntegrable _ _

theorem halves (f : ℝ → ℝ) (hf : Continuous f) : ∫ z in (-1 : ℝ)..1, f z = ∫ z in (0 : ℝ)..1, (f z + f (-z)) := by
  have h2 : IntervalIntegrable (fun z => f (-z)) volume 0 1 := (hf.comp continuous_neg).intervalIntegrable _ _
  rw [intervalIntegral.integral_add (hf.intervalIntegrable _ _) h2, intervalIntegral.integral_comp_neg, neg_zero,
    ← intervalIntegral.integral_add_adjacent_intervals (hf.intervalIntegrable (-1) 0) (hf.intervalIntegrable 0 1), add_comm]

theorem aMom_le {y : ℝ} (hy : 0 < y) (κ : ℝ) (n : Nat) : aMom y κ n ≤ Real.exp (y - κ) / (n + 1 : Nat) := by
  unfold aMom
  rw [halves _ (by fun_prop)]
  have h : ∫ z in (0 : ℝ)..1, (|z| ^ n * Real.exp (y * z) + |-z| ^ n * Real.exp (y * -z)) ≤ ∫ z in (0 : ℝ)..1, z ^ n * (2 * Real.exp y) := by
    refine intervalIntegral.integral_mono_on (by norm_num) ((by fun_prop : Continuous fun z : ℝ => |z| ^ n * Real.exp (y * z) + |-z| ^ n * Real.exp (y * -z)).intervalIntegrable _ _)
      ((by fun_prop : Continuous fun z : ℝ => z ^ n * (2 * Real.exp y)).intervalIntegrable _ _) fun z hz => ?_
    rw [abs_neg, abs_of_nonneg hz.1, ← mul_add]
    refine mul_le_mul_of_nonneg_left ?_ (pow_nonneg hz.1 _)
    have h1 : Real.exp (y * z) ≤ Real.exp y := Real.exp_le_exp.2 (by nlinarith [hz.2])
    have h2 : Real.exp (y * -z) ≤ Real.exp y := Real.exp_le_exp.2 (by nlinarith [hz.1])
    linarith
  rw [intervalIntegral.integral_mul_const, integral_pow] at h
  have := mul_le_mul_of_nonneg_left h (by positivity : (0 : ℝ) ≤ 1 / 2 * Real.exp (-κ))
  refine this.trans (le_of_eq ?_)
  rw [sub_eq_add_neg y κ, Real.exp_add]
  push_cast
  simp
  ring

theorem tMom_abs (y κ : ℝ) (n : Nat) : |tMom y κ n| ≤ aMom y κ n := by
  unfold tMom aMom
  rw [abs_mul, abs_of_pos (by positivity)]
  refine mul_le_mul_of_nonneg_left ?_ (by positivity)
  have := intervalIntegral.abs_integral_le_integral_abs (f := fun z : ℝ => z ^ n * Real.exp (y * z)) (μ := volume) (by norm_num : (-1 : ℝ) ≤ 1)
  refine this.trans (le_of_eq ?_)
  congr 1
  funext z
  rw [abs_mul, abs_pow, abs_of_pos (Real.exp_pos _)]

/-- The next absolute moment against the moment. -/
theorem aMom_next {y : ℝ} (hy : 0 < y) (κ : ℝ) (n : Nat) : aMom y κ (n + 1) ≤ (1 + y) / y * tMom y κ n := by
  unfold tMom aMom
  rw [mul_left_comm]
  refine mul_le_mul_of_nonneg_left ?_ (by positivity)
  rw [halves _ (by fun_prop), halves _ (by fun_prop), ← intervalIntegral.integral_const_mul]
  refine intervalIntegral.integral_mono_on (by norm_num) ((by fun_prop : Continuous fun z : ℝ => |z| ^ (n + 1) * Real.exp (y * z) + |-z| ^ (n + 1) * Real.exp (y * -z)).intervalIntegrable _ _)
    ((by fun_prop : Continuous fun z : ℝ => (1 + y) / y * (z ^ n * Real.exp (y * z) + (-z) ^ n * Real.exp (y * -z))).intervalIntegrable _ _) fun z hz => ?_
  have z0 := hz.1
  have zn : 0 ≤ z ^ n := pow_nonneg z0 _
  rw [abs_neg, abs_of_nonneg z0, pow_succ, neg_pow z n, mul_neg]
  set w := y * z with hw
  have w0 : 0 ≤ w := by positivity
  have wy : w ≤ y := by nlinarith [hz.2]
  have hm : Real.exp (-w) ≤ 1 := Real.exp_le_one_iff.2 (by linarith)
  have hm0 := Real.exp_pos (-w)
  have hp : 1 + w ≤ Real.exp w := by linarith [Real.add_one_le_exp w]
  have hmw : 1 - w ≤ Real.exp (-w) := by linarith [Real.add_one_le_exp (-w)]
  have hs : Real.exp (-w) ≤ Real.exp w := Real.exp_le_exp.2 (by linarith)
  -- sinh w ≥ w
  have sh : 2 * w ≤ Real.exp w - Real.exp (-w) := by
    have := Real.self_le_sinh_iff.2 w0
    rw [Real.sinh_eq] at this
    linarith
  have key : w * (Real.exp w + Real.exp (-w)) ≤ (1 + y) * (Real.exp w - Real.exp (-w)) := by
    have h1 : w * (Real.exp w + Real.exp (-w)) ≤ (1 + w) * (Real.exp w - Real.exp (-w)) := by nlinarith
    nlinarith
  have e1 : z ^ n * z * Real.exp w + z ^ n * z * Real.exp (-w) = z ^ n * (w * (Real.exp w + Real.exp (-w))) / y := by
    rw [hw]; field_simp
  rw [e1]
  rcases neg_one_pow_eq_or ℝ n with h | h
  · rw [h]
    have : z ^ n * (w * (Real.exp w + Real.exp (-w))) ≤ z ^ n * ((1 + y) * (Real.exp w + Real.exp (-w))) :=
      mul_le_mul_of_nonneg_left (key.trans (mul_le_mul_of_nonneg_left (by linarith) (by linarith))) zn
    refine (div_le_div_of_nonneg_right this hy.le).trans (le_of_eq ?_)
    ring
  · rw [h]
    have : z ^ n * (w * (Real.exp w + Real.exp (-w))) ≤ z ^ n * ((1 + y) * (Real.exp w - Real.exp (-w))) := mul_le_mul_of_nonneg_left key zn
    refine (div_le_div_of_nonneg_right this hy.le).trans (le_of_eq ?_)
    ring

theorem umom_continuous {x : ℝ} (hx : 1 < x) (y : ℝ) (n : Nat) : ContinuousOn (fun z : ℝ => z ^ n * (Real.exp (y * z) / (x - z))) (uIcc (-1) 1) := by
  rw [uIcc_of_le (by norm_num)]
  exact ContinuousOn.mul (by fun_prop) (ContinuousOn.div (by fun_prop) (by fun_prop) fun z hz => by have := hz.2; linarith)

theorem uMom_succ {x : ℝ} (hx : 1 < x) (y κ : ℝ) (n : Nat) : uMom x y κ (n + 1) = x * uMom x y κ n - tMom y κ n := by
  unfold uMom tMom
  have e : ∫ z in (-1 : ℝ)..1, z ^ (n + 1) * (Real.exp (y * z) / (x - z)) = (x * ∫ z in (-1 : ℝ)..1, z ^ n * (Real.exp (y * z) / (x - z))) - ∫ z in (-1 : ℝ)..1, z ^ n * Real.exp (y * z) := by
    rw [← intervalIntegral.integral_const_mul, ← intervalIntegral.integral_sub (((umom_continuous hx y n).intervalIntegrable).const_mul x) (mom_integrable y n _ _)]
    refine intervalIntegral.integral_congr fun z hz => ?_
    rw [uIcc_of_le (by norm_num)] at hz
    have : x - z ≠ 0 := by have := hz.2; linarith
    field_simp
    ring
  rw [e]; ring

theorem uMom_abs {x : ℝ} (hx : 1 < x) (y κ : ℝ) (n : Nat) : |uMom x y κ n| ≤ aMom y κ n / (x - 1) := by
  unfold uMom aMom
  rw [abs_mul, abs_of_pos (by positivity), mul_div_assoc]
  refine mul_le_mul_of_nonneg_left ?_ (by positivity)
  refine (intervalIntegral.abs_integral_le_integral_abs (by norm_num : (-1 : ℝ) ≤ 1)).trans ?_
  rw [← intervalIntegral.integral_div]
  refine intervalIntegral.integral_mono_on (by norm_num) ((umom_continuous hx y n).abs.intervalIntegrable) ((amom_integrable y n _ _).div_const _) fun z hz => ?_
  have h1 : 0 < x - z := by have := hz.2; linarith
  rw [abs_mul, abs_pow, abs_div, abs_of_pos (Real.exp_pos _), abs_of_pos h1, ← mul_div_assoc]
  exact div_le_div_of_nonneg_left (by positivity) (by linarith) (by have := hz.2; linarith)

/-- The first integral as a difference of exponential integrals. -/
theorem uMom_zero {x y : ℝ} (hx : 1 < x) (hy : 0 < y) (κ : ℝ) : uMom x y κ 0 = 1 / 2 * Real.exp (y * x - κ) * (ei1 (y * x - y) - ei1 (y * x + y)) := by
  have d : ∀ z ∈ uIcc (-1 : ℝ) 1, HasDerivAt (fun z => ei1 (y * (x - z))) (Real.exp (-(y * (x - z))) / (x - z)) z := by
    intro z hz
    rw [uIcc_of_le (by norm_num)] at hz
    have h1 : 0 < x - z := by have := hz.2; linarith
    have h2 : HasDerivAt (fun z => y * (x - z)) (y * (-1)) z := ((hasDerivAt_id z).const_sub x).const_mul y
    have := (ei1_deriv (x := y * (x - z)) (by positivity)).comp z h2
    refine this.congr_deriv ?_
    field_simp
  have hi := intervalIntegral.integral_eq_sub_of_hasDerivAt d (by
    refine ContinuousOn.intervalIntegrable ?_
    rw [uIcc_of_le (by norm_num)]
    exact ContinuousOn.div (by fun_prop) (by fun_prop) fun z hz => by have := hz.2; linarith)
  have e : ∫ z in (-1 : ℝ)..1, z ^ 0 * (Real.exp (y * z) / (x - z)) = Real.exp (y * x) * ∫ z in (-1 : ℝ)..1, Real.exp (-(y * (x - z))) / (x - z) := by
    rw [← intervalIntegral.integral_const_mul]
    congr 1
    funext z
    rw [pow_zero, one_mul, ← mul_div_assoc, ← Real.exp_add]
    congr 2
    ring
  unfold uMom
  rw [e, hi, sub_eq_add_neg (y * x) κ, Real.exp_add]
  rw [show y * (x - 1) = y * x - y by ring, show y * (x - -1) = y * x + y by ring]
  ring

end TicTac
end
