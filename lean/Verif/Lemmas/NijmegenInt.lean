import Verif.Lemmas.Nijmegen
import Verif.Model.NijmegenForce
import Mathlib.MeasureTheory.Integral.IntervalIntegral.IntegrationByParts
import Mathlib.Analysis.SpecialFunctions.ImproperIntegrals
import Mathlib.Topology.Algebra.Polynomial
import Mathlib.Analysis.Calculus.Deriv.Polynomial
/-! Legendre coefficients of the exchange amplitudes as integrals. -/
noncomputable section
namespace TicTac
open Polynomial Spec MeasureTheory Set intervalIntegral

/-- Legendre coefficient `½ ∫ P_n f`, zero for negative `n`. -/
def legCoef (f : ℝ → ℝ) (n : Int) : ℝ := 1 / 2 * ∫ z in (-1 : ℝ)..1, legI z n * f z

theorem legI_cont (n : Int) : Continuous fun z => legI z n := by
  unfold legI
  split
  · exact continuous_const
  · exact (legendre n.toNat).continuous

theorem legI_nat (z : ℝ) (n : Nat) : legI z n = (legendre n).eval z := by unfold legI; simp

theorem coef_integrable {f : ℝ → ℝ} (hf : ContinuousOn f (uIcc (-1) 1)) (n : Int) : IntervalIntegrable (fun z => legI z n * f z) volume (-1) 1 :=
  ((legI_cont n).continuousOn.mul hf).intervalIntegrable

theorem legCoef_add {f g : ℝ → ℝ} (hf : ContinuousOn f (uIcc (-1) 1)) (hg : ContinuousOn g (uIcc (-1) 1)) (n : Int) :
    legCoef (fun z => f z + g z) n = legCoef f n + legCoef g n := by
  unfold legCoef
  rw [← mul_add, ← integral_add (coef_integrable hf n) (coef_integrable hg n)]
  simp only [mul_add]

theorem legCoef_smul (a : ℝ) (f : ℝ → ℝ) (n : Int) : legCoef (fun z => a * f z) n = a * legCoef f n := by
  unfold legCoef
  have e : ∫ z in (-1 : ℝ)..1, legI z n * (a * f z) = a * ∫ z in (-1 : ℝ)..1, legI z n * f z := by
    rw [← intervalIntegral.integral_const_mul]
    congr 1
    funext z
    ring
  rw [e]
  ring

theorem legCoef_congr {f g : ℝ → ℝ} (h : ∀ z ∈ uIcc (-1 : ℝ) 1, f z = g z) (n : Int) : legCoef f n = legCoef g n := by
  unfold legCoef
  congr 1
  exact integral_congr fun z hz => by show legI z n * f z = legI z n * g z; rw [h z hz]

theorem legCoef_neg (f : ℝ → ℝ) (n : Int) (hn : n < 0) : legCoef f n = 0 := by
  unfold legCoef
  simp [legI, hn]

/-- Coefficient of `z f`. -/
theorem legCoef_z {f : ℝ → ℝ} (hf : ContinuousOn f (uIcc (-1) 1)) (n : Nat) :
    legCoef (fun z => z * f z) n = if n = 0 then legCoef f 1 else (n * legCoef f ((n : Int) - 1) + (n + 1) * legCoef f ((n : Int) + 1)) / (2 * n + 1) := by
  split_ifs with h0
  · subst h0
    unfold legCoef
    congr 2
    funext z
    simp [legI, legendre_zero, legendre_one]
  · have a : (2 * (n : ℝ) + 1) ≠ 0 := by positivity
    rw [← legCoef_smul, ← legCoef_smul, eq_div_iff a, mul_comm, ← legCoef_smul]
    unfold legCoef
    rw [← mul_add, ← integral_add (by exact coef_integrable (continuousOn_const.mul hf) _) (by exact coef_integrable (continuousOn_const.mul hf) _)]
    congr 2
    funext z
    rw [legI_nat, leg_prev n (by omega), leg_next]
    have : (n : ℝ) ≠ 0 := by exact_mod_cast h0
    have : (n : ℝ) + 1 ≠ 0 := by positivity
    field_simp
    ring

theorem legendre_deriv_down (n : Nat) : derivative (legendre n) = X * derivative (legendre (n + 1)) - ((n : ℝ[X]) + 1) * legendre (n + 1) := by
  have h1 := legendre_deriv_up (n + 1)
  have h2 := congrArg derivative (legendre_bonnet n)
  simp only [derivative_mul, derivative_add, derivative_sub, derivative_natCast, derivative_ofNat, derivative_one, derivative_X] at h2
  have h3 : ((n : ℝ[X]) + 1) * (derivative (legendre n) - (X * derivative (legendre (n + 1)) - ((n : ℝ[X]) + 1) * legendre (n + 1))) = 0 := by
    push_cast at h1
    simp only [zero_add, add_zero, zero_mul, mul_zero] at h2
    linear_combination h2 - ((n : ℝ[X]) + 2) * h1
  have h4 : ((n : ℝ[X]) + 1) ≠ 0 := by exact_mod_cast Nat.succ_ne_zero n
  have := (mul_eq_zero.1 h3).resolve_left h4
  linear_combination this

theorem legendre_antideriv (n : Nat) : derivative (legendre (n + 2) - legendre n) = (2 * (n : ℝ[X]) + 3) * legendre (n + 1) := by
  have h1 := legendre_deriv_up (n + 1)
  have h2 := legendre_deriv_down n
  push_cast at h1
  rw [derivative_sub, h1, h2]
  ring

theorem legendre_ends (n : Nat) : (legendre n).eval 1 = 1 ∧ (legendre n).eval (-1) = (-1) ^ n := by
  induction n using Nat.twoStepInduction with
  | zero => simp [legendre_zero]
  | one => simp [legendre_one]
  | more n h1 h2 =>
    have a : (n : ℝ) + 2 ≠ 0 := by positivity
    have hb := fun x => congrArg (eval x) (legendre_bonnet n)
    have b1 := hb 1
    have b2 := hb (-1)
    simp at b1 b2
    rw [h1.1, h2.1] at b1
    rw [h1.2, h2.2] at b2
    constructor
    · apply mul_left_cancel₀ a; linear_combination b1
    · apply mul_left_cancel₀ a; rw [b2, pow_succ, pow_succ, pow_succ]; ring

/-- Integration by parts: coefficients of `f` from those of its derivative. -/
theorem legCoef_parts {f f' : ℝ → ℝ} (hd : ∀ z ∈ uIcc (-1 : ℝ) 1, HasDerivAt f (f' z) z) (hc : ContinuousOn f' (uIcc (-1) 1)) (n : Nat) :
    legCoef f n = -(if n = 0 then legCoef f' 1 - legCoef f' 0 - f (-1) else (legCoef f' ((n : Int) + 1) - legCoef f' ((n : Int) - 1)) / (2 * n + 1)) := by
  have hci : IntervalIntegrable f' volume (-1) 1 := hc.intervalIntegrable
  split_ifs with h0
  · subst h0
    have key := intervalIntegral.integral_mul_deriv_eq_deriv_mul (u := f) (v := fun z => z - 1) (u' := f') (v' := fun _ => 1) (a := -1) (b := 1) hd
      (fun z _ => by simpa using (hasDerivAt_id z).sub_const 1) hci (by simp)
    have e1 : legCoef f' 1 - legCoef f' 0 = 1 / 2 * ∫ z in (-1 : ℝ)..1, f' z * (z - 1) := by
      unfold legCoef
      rw [← mul_sub, ← integral_sub (coef_integrable hc 1) (coef_integrable hc 0)]
      congr 2
      funext z
      simp [legI, legendre_zero, legendre_one]
      ring
    have e2 : legCoef f ((0 : Nat) : Int) = 1 / 2 * ∫ z in (-1 : ℝ)..1, f z * 1 := by
      unfold legCoef
      congr 2
      funext z
      simp [legI, legendre_zero]
    rw [e2, e1, key]
    ring
  · obtain ⟨m, rfl⟩ : ∃ m, n = m + 1 := ⟨n - 1, by omega⟩
    have a : (2 * ((m + 1 : Nat) : ℝ) + 1) ≠ 0 := by positivity
    set W : ℝ[X] := legendre (m + 2) - legendre m with hW
    have hWd : ∀ z, eval z (derivative W) = (2 * ((m + 1 : Nat) : ℝ) + 1) * eval z (legendre (m + 1)) := by
      intro z
      rw [hW, legendre_antideriv]
      simp only [eval_mul, eval_add, eval_ofNat, eval_natCast]
      push_cast
      ring
    have key := intervalIntegral.integral_mul_deriv_eq_deriv_mul (u := f) (v := fun z => eval z W) (u' := f') (v' := fun z => eval z (derivative W)) (a := -1) (b := 1) hd
      (fun z _ => W.hasDerivAt z) hci ((derivative W).continuous.intervalIntegrable _ _)
    have b1 : eval 1 W = 0 := by rw [hW, eval_sub, (legendre_ends _).1, (legendre_ends _).1, sub_self]
    have b2 : eval (-1) W = 0 := by rw [hW, eval_sub, (legendre_ends _).2, (legendre_ends _).2, pow_add]; simp
    rw [b1, b2] at key
    have e1 : legCoef f' (((m + 1 : Nat) : Int) + 1) - legCoef f' (((m + 1 : Nat) : Int) - 1) = 1 / 2 * ∫ z in (-1 : ℝ)..1, f' z * eval z W := by
      unfold legCoef
      rw [← mul_sub, ← integral_sub (coef_integrable hc _) (coef_integrable hc _)]
      congr 2
      funext z
      rw [show (((m + 1 : Nat) : Int) + 1) = ((m + 2 : Nat) : Int) by push_cast; ring, show (((m + 1 : Nat) : Int) - 1) = (m : Int) by push_cast; ring, legI_nat, legI_nat, hW, eval_sub]
      ring
    have e2 : (2 * ((m + 1 : Nat) : ℝ) + 1) * legCoef f ((m + 1 : Nat) : Int) = 1 / 2 * ∫ z in (-1 : ℝ)..1, f z * eval z (derivative W) := by
      rw [← legCoef_smul]
      unfold legCoef
      congr 2
      funext z
      rw [legI_nat, hWd]
      ring
    rw [e1]
    rw [key] at e2
    rw [eq_comm, neg_eq_iff_eq_neg, div_eq_iff a]
    linear_combination e2

/-- Tail integrals. -/
theorem tail_deriv {f : ℝ → ℝ} {b s : ℝ} (hf : ContinuousOn f (Ioi b)) (hi : ∀ t, b < t → IntegrableOn f (Ioi t)) (hs : b < s) :
    HasDerivAt (fun t => ∫ k in Ioi t, f k) (-f s) s := by
  obtain ⟨c, hc1, hc2⟩ := exists_between hs
  have hsub : uIcc c s ⊆ Ioi b := by
    rw [uIcc_of_le hc2.le]; intro t ht; exact lt_of_lt_of_le hc1 ht.1
  have h1 : HasDerivAt (fun t => ∫ k in c..t, f k) (f s) s := by
    apply integral_hasDerivAt_right ((hf.mono hsub).intervalIntegrable)
    · exact ContinuousOn.stronglyMeasurableAtFilter isOpen_Ioi hf s hs
    · exact hf.continuousAt (isOpen_Ioi.mem_nhds hs)
  have h2 : HasDerivAt (fun t => (∫ k in Ioi c, f k) - ∫ k in c..t, f k) (-f s) s := by
    exact h1.const_sub _
  refine h2.congr_of_eventuallyEq ?_
  filter_upwards [isOpen_Ioi.mem_nhds hs] with t ht
  have := integral_interval_add_Ioi' (f := f) (μ := volume) (a := c) (b := t)
    ((hf.mono (by intro x hx; exact lt_of_lt_of_le (lt_min hc1 ht) hx.1)).intervalIntegrable) (hi t ht)
  rw [← this]
  ring

end TicTac
end
