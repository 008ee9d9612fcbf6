import Verif.Lemmas.QjLem
import Verif.Lemmas.SexLoop
import Verif.Lemmas.GaussLegendre
import Verif.Spec.NijmegenSml
/-! The integrals of `SMLLEX`. -/
noncomputable section
namespace TicTac
open Polynomial Spec Set MeasureTheory

theorem smlSize_pos (c : SexCall) : 0 < smlSize c := mul_pos (Real.exp_pos _) (Real.exp_pos _)

theorem sexL_eq (c : SexCall) (n : Nat) : sexL c n = smlSize c * (1 / 2 * ∫ z in (-1 : ℝ)..1, (legendre n).eval z * Real.exp (c.y * z) / (c.x - z)) := by
  unfold sexL smlSize
  have : ∫ z in (-1 : ℝ)..1, (legendre n).eval z * (Real.exp (-(c.y * (c.x - z))) / (c.x - z)) =
      ∫ z in (-1 : ℝ)..1, Real.exp (-(c.y * c.x)) * ((legendre n).eval z * Real.exp (c.y * z) / (c.x - z)) := by
    refine intervalIntegral.integral_congr fun z _ => ?_
    beta_reduce
    rw [show -(c.y * (c.x - z)) = -(c.y * c.x) + c.y * z by ring, Real.exp_add]; ring
  rw [this, intervalIntegral.integral_const_mul]
  ring

theorem sexR_eq (c : SexCall) (n : Nat) : sexR c n = smlSize c * (1 / 2 * ∫ z in (-1 : ℝ)..1, (legendre n).eval z * Real.exp (c.y * z)) := by
  unfold sexR smlSize
  have : ∫ z in (-1 : ℝ)..1, (legendre n).eval z * Real.exp (-(c.y * (c.x - z))) =
      ∫ z in (-1 : ℝ)..1, Real.exp (-(c.y * c.x)) * ((legendre n).eval z * Real.exp (c.y * z)) := by
    refine intervalIntegral.integral_congr fun z _ => ?_
    beta_reduce
    rw [show -(c.y * (c.x - z)) = -(c.y * c.x) + c.y * z by ring, Real.exp_add]; ring
  rw [this, intervalIntegral.integral_const_mul]
  ring

/-- The neighbours of a wave. -/
def legNb (n : Nat) (x : ℝ) : ℝ := ((n : ℝ) + 1) / (2 * n + 1) * legQ (n + 1) x + (n : ℝ) / (2 * n + 1) * legQ (n - 1) x

theorem legQ_first {x : ℝ} (hx : 1 < x) (n : Nat) : 1 / 2 * ∫ z in (-1 : ℝ)..1, (legendre n).eval z * z / (x - z) = legNb n x := by
  have i0 := legQ_cont hx _ (legendre n).continuous
  have ic : IntervalIntegrable (fun z => (legendre n).eval z) volume (-1) 1 := (legendre n).continuous.intervalIntegrable _ _
  have e : ∫ z in (-1 : ℝ)..1, (legendre n).eval z * z / (x - z) = ∫ z in (-1 : ℝ)..1, (x * ((legendre n).eval z / (x - z)) - (legendre n).eval z) := by
    refine intervalIntegral.integral_congr fun z hz => ?_
    rw [uIcc_of_le (by norm_num)] at hz
    have hz' : x - z ≠ 0 := (by linarith [hz.2] : 0 < x - z).ne'
    beta_reduce
    field_simp
    ring
  rw [e, intervalIntegral.integral_sub (i0.const_mul _) ic, intervalIntegral.integral_const_mul]
  unfold legNb
  rcases n with _ | n
  · rw [legQ_one hx]
    unfold legQ
    rw [legendre_zero]
    simp
    norm_num
    ring
  · rw [legendre_mean, Nat.add_sub_cancel]
    have h := legQ_rec hx n
    push_cast
    have h1 : (2 * ((n : ℝ) + 1) + 1) ≠ 0 := by positivity
    have h2 : 1 / 2 * (x * (∫ z in (-1 : ℝ)..1, (legendre (n + 1)).eval z / (x - z)) - 0) = x * legQ (n + 1) x := by unfold legQ; ring
    rw [h2]
    field_simp
    linear_combination -h

/-- The remainder after the first order. -/
def legRem (n : Nat) (x y : ℝ) : ℝ := 1 / 2 * ∫ z in (-1 : ℝ)..1, (legendre n).eval z * (Real.exp (y * z) - 1 - y * z) / (x - z)

theorem leg_split {x : ℝ} (hx : 1 < x) (y : ℝ) (n : Nat) : 1 / 2 * ∫ z in (-1 : ℝ)..1, (legendre n).eval z * Real.exp (y * z) / (x - z) = legQ n x + y * legNb n x + legRem n x y := by
  rw [← legQ_first hx]
  unfold legQ legRem
  have i0 := legQ_cont hx _ (legendre n).continuous
  have i1 := legQ_cont hx (fun z => (legendre n).eval z * z) ((legendre n).continuous.mul continuous_id)
  have i2 := legQ_cont hx (fun z => (legendre n).eval z * (Real.exp (y * z) - 1 - y * z)) ((legendre n).continuous.mul (by fun_prop))
  have e : ∫ z in (-1 : ℝ)..1, (legendre n).eval z * Real.exp (y * z) / (x - z) =
      ∫ z in (-1 : ℝ)..1, ((legendre n).eval z / (x - z) + y * ((legendre n).eval z * z / (x - z)) + (legendre n).eval z * (Real.exp (y * z) - 1 - y * z) / (x - z)) := by
    refine intervalIntegral.integral_congr fun z _ => ?_
    beta_reduce
    ring
  rw [e, intervalIntegral.integral_add (i0.add (i1.const_mul _)) i2, intervalIntegral.integral_add i0 (i1.const_mul _), intervalIntegral.integral_const_mul]
  ring

theorem legRem_abs {x y : ℝ} (hx : 1 < x) (hy : 0 ≤ y) (hy1 : y ≤ 1) (n : Nat) : |legRem n x y| ≤ y ^ 2 / (x - 1) := by
  unfold legRem
  rw [abs_mul]
  have h : ‖∫ z in (-1 : ℝ)..1, (legendre n).eval z * (Real.exp (y * z) - 1 - y * z) / (x - z)‖ ≤ y ^ 2 / (x - 1) * |1 - (-1)| := by
    refine intervalIntegral.norm_integral_le_of_norm_le_const fun z hz => ?_
    rw [uIoc_of_le (by norm_num)] at hz
    have hz1 : |z| ≤ 1 := abs_le.2 ⟨by linarith [hz.1], hz.2⟩
    rw [Real.norm_eq_abs, abs_div, abs_of_pos (show 0 < x - z by linarith [hz.2]), abs_mul]
    have ht : |y * z| ≤ y := by rw [abs_mul, abs_of_nonneg hy]; exact mul_le_of_le_one_right hy hz1
    have h1 : |Real.exp (y * z) - 1 - y * z| ≤ y ^ 2 := (Real.abs_exp_sub_one_sub_id_le (ht.trans hy1)).trans (sq_le_sq' (by linarith [neg_abs_le (y * z)]) ((le_abs_self _).trans ht))
    have h2 := mul_le_mul (legendre_abs_le_one n z hz1) h1 (abs_nonneg _) zero_le_one
    rw [one_mul] at h2
    exact div_le_div₀ (by positivity) h2 (by linarith) (by linarith [hz.2])
  rw [Real.norm_eq_abs] at h
  norm_num at h ⊢
  linarith

/-- Moments of a power. -/
theorem pow_mean (m : Nat) : 1 / 2 * ∫ z in (-1 : ℝ)..1, z ^ m = if m % 2 = 0 then 1 / ((m + 1 : Nat) : ℝ) else 0 := by
  rw [integral_pow]
  split_ifs with h
  · rw [Odd.neg_one_pow (Nat.odd_iff.2 (by omega))]
    push_cast; norm_num; ring
  · rw [Even.neg_one_pow (Nat.even_iff.2 (by omega))]
    norm_num

/-- The Taylor polynomial of the exponential. -/
def expPart (t : ℝ) (N : Nat) : ℝ := ∑ k ∈ Finset.range N, t ^ k / (k.factorial : ℝ)

theorem pow_factor (y z : ℝ) (n k : Nat) : z ^ n * ((y * z) ^ k / (k.factorial : ℝ)) = y ^ k / (k.factorial : ℝ) * z ^ (n + k) := by
  rw [mul_pow, pow_add]; ring

/-- `AKFAC` is the factorial. -/
theorem smlStart_eq (l : Nat) : smlStart l * (if l ≠ 0 then (l : ℝ) else 1) = l.factorial := by
  have h : ∀ l : Nat, smlStart (l + 1) = l.factorial := by
    intro l
    unfold smlStart
    have : ∀ m : Nat, m ≤ l + 1 → ∏ kk ∈ Finset.Icc 1 m, (if kk ≠ 1 ∧ kk ≠ l + 1 + 1 then ((kk - 1 : Nat) : ℝ) else 1) = ((m - 1).factorial : ℝ) := by
      intro m
      induction m with
      | zero => intro _; simp
      | succ m ih =>
        intro hm
        rw [Finset.prod_Icc_succ_top (by omega), ih (by omega)]
        rcases m with _ | m
        · simp
        · rw [if_pos ⟨by omega, by omega⟩, Nat.add_sub_cancel, Nat.add_sub_cancel, Nat.factorial_succ]
          push_cast; ring
    rw [Finset.prod_Icc_succ_top (by omega), this (l + 1) le_rfl, if_neg (by omega), mul_one, Nat.add_sub_cancel]
  rcases l with _ | l
  · simp [smlStart]
  · rw [h, if_pos (by omega), Nat.factorial_succ]; push_cast; ring

theorem smlLoop_eq (y ex : ℝ) (l left : Nat) : ∀ (k : Nat) (ak acc : ℝ), ak * (if k ≠ 0 then (k : ℝ) else 1) = k.factorial →
    smlLoop y ex l left k ak acc = acc + ex * ∑ i ∈ Finset.Ico k (k + left), y ^ i * smlTerm l i / (i.factorial : ℝ) := by
  induction left with
  | zero => intro k ak acc _; simp [smlLoop]
  | succ left ih =>
    intro k ak acc h
    rw [smlLoop]
    have e : (if k ≠ 0 then (k : ℝ) * ak else ak) = k.factorial := by
      rw [← h]; split_ifs <;> ring
    rw [e, ih (k + 1) _ _ (by rw [if_pos (by omega), Nat.factorial_succ]; push_cast; ring), Finset.sum_eq_sum_Ico_succ_bot (show k < k + (left + 1) by omega),
      show k + 1 + left = k + (left + 1) by ring]
    ring

end TicTac
end
