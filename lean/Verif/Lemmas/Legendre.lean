import Mathlib.Algebra.Polynomial.Derivative
import Mathlib.Data.Real.Basic
import Mathlib.Tactic.LinearCombination
import Mathlib.Tactic.FieldSimp
/-! Legendre polynomials by Rodrigues' formula, and the identities between them. -/
noncomputable section
namespace TicTac
open Polynomial

namespace Spec
/-- Legendre polynomial by Rodrigues' formula: `P_n = 1/(2^n n!) d^n/dx^n (x^2-1)^n`. -/
def legendre (n : Nat) : ℝ[X] := C ((2 ^ n * (n.factorial : ℝ))⁻¹) * derivative^[n] ((X ^ 2 - 1) ^ n)
end Spec

/-- `S_n = D^{n-1} w^n` shifted: `S (n+1) = D^n w^(n+1)`. -/
private def legR (n : Nat) : ℝ[X] := derivative^[n] ((X ^ 2 - 1) ^ n)
private def legS (n : Nat) : ℝ[X] := derivative^[n - 1] ((X ^ 2 - 1) ^ n)

private theorem iter_X_mul (k : Nat) (f : ℝ[X]) :
    derivative^[k] (X * f) = X * derivative^[k] f + (k : ℝ[X]) * derivative^[k - 1] f := by
  rw [mul_comm X f, iterate_derivative_mul_X]
  simp [nsmul_eq_mul, mul_comm]

private theorem legS_deriv (n : Nat) : derivative (legS (n + 1)) = legR (n + 1) := by
  unfold legS legR
  rw [Nat.add_sub_cancel, ← Function.iterate_succ_apply' derivative n]

/-- `R_{n+1} = 2(n+1)(X R_n + n S_n)`. -/
private theorem legR_succ (n : Nat) : legR (n + 1) = 2 * ((n : ℝ[X]) + 1) * (X * legR n + (n : ℝ[X]) * legS n) := by
  unfold legR legS
  rw [Function.iterate_succ_apply]
  have h : derivative (((X : ℝ[X]) ^ 2 - 1) ^ (n + 1)) = ((2 * (n + 1) : ℕ) : ℝ[X]) * (X * (X ^ 2 - 1) ^ n) := by
    rw [derivative_pow]
    simp
    ring
  rw [h, iterate_derivative_natCast_mul, iter_X_mul]
  push_cast
  ring

/-- `R_{n+1} = w R_n' + 2(n+1) X R_n + n(n+1) S_n`. -/
private theorem legR_succ' (n : Nat) : legR (n + 1) =
    (X ^ 2 - 1) * derivative (legR n) + 2 * ((n : ℝ[X]) + 1) * (X * legR n) + (n : ℝ[X]) * ((n : ℝ[X]) + 1) * legS n := by
  have h : ((X : ℝ[X]) ^ 2 - 1) ^ (n + 1) = X * (X * (X ^ 2 - 1) ^ n) - (X ^ 2 - 1) ^ n := by ring
  unfold legR legS
  rw [h, iterate_derivative_sub, iter_X_mul, Nat.add_sub_cancel, iter_X_mul, iter_X_mul, Nat.add_sub_cancel,
    Function.iterate_succ_apply']
  push_cast
  ring

private theorem leg_wR' (n : Nat) : (X ^ 2 - 1) * derivative (legR n) = (n : ℝ[X]) * ((n : ℝ[X]) + 1) * legS n := by
  linear_combination legR_succ n - legR_succ' n

private theorem leg_pos (n : Nat) : (2 ^ n * (n.factorial : ℝ)) ≠ 0 := by positivity

private theorem legendre_eq (n : Nat) : Spec.legendre n = C ((2 ^ n * (n.factorial : ℝ))⁻¹) * legR n := rfl

private theorem legR_eq (n : Nat) : legR n = C (2 ^ n * (n.factorial : ℝ)) * Spec.legendre n := by
  rw [legendre_eq, ← mul_assoc, ← C_mul, mul_inv_cancel₀ (leg_pos n), C_1, one_mul]

/-- Legendre's differential equation `((x²-1) P_n')' = n(n+1) P_n`. -/
theorem legendre_ode (n : Nat) :
    derivative ((X ^ 2 - 1) * derivative (Spec.legendre n)) = (n : ℝ[X]) * ((n : ℝ[X]) + 1) * Spec.legendre n := by
  have key : derivative ((X ^ 2 - 1) * derivative (legR n)) = (n : ℝ[X]) * ((n : ℝ[X]) + 1) * legR n := by
    rw [leg_wR']
    cases n with
    | zero => simp
    | succ m =>
      rw [derivative_mul, legS_deriv]
      have : derivative (((m + 1 : ℕ) : ℝ[X]) * (((m + 1 : ℕ) : ℝ[X]) + 1)) = 0 := by
        rw [show (((m + 1 : ℕ) : ℝ[X]) * (((m + 1 : ℕ) : ℝ[X]) + 1)) = (((m + 1) * (m + 1 + 1) : ℕ) : ℝ[X]) by
          push_cast; ring, derivative_natCast]
      rw [this]; ring
  rw [legendre_eq, derivative_C_mul, mul_left_comm, derivative_C_mul, key]
  ring

/-- `(n+1) P_{n+1} = (n+1) X P_n + (X²-1) P_n'`. -/
theorem legendre_up (n : Nat) : ((n : ℝ[X]) + 1) * Spec.legendre (n + 1) =
    ((n : ℝ[X]) + 1) * (X * Spec.legendre n) + (X ^ 2 - 1) * derivative (Spec.legendre n) := by
  have h : legR (n + 1) = 2 * (((n : ℝ[X]) + 1) * (X * legR n) + (X ^ 2 - 1) * derivative (legR n)) := by
    linear_combination 2 * legR_succ' n - legR_succ n
  rw [legR_eq, legR_eq, derivative_C_mul, pow_succ, Nat.factorial_succ] at h
  have hc : (C (2 ^ n * 2 * (((n + 1) * n.factorial : ℕ) : ℝ)) : ℝ[X]) =
      C (2 ^ n * (n.factorial : ℝ)) * (2 * ((n : ℝ[X]) + 1)) := by
    rw [show (2 * ((n : ℝ[X]) + 1)) = C (2 * ((n : ℝ) + 1)) by
      rw [C_mul, C_add, C_1, map_natCast, show (C (2:ℝ) : ℝ[X]) = 2 from map_ofNat C 2], ← C_mul]
    congr 1
    push_cast
    ring
  rw [hc] at h
  have hne : (C (2 ^ n * (n.factorial : ℝ)) : ℝ[X]) * 2 ≠ 0 := by
    rw [show (2 : ℝ[X]) = C 2 from (map_ofNat C 2).symm, ← C_mul]
    exact C_ne_zero.2 (by positivity)
  apply mul_left_cancel₀ hne
  linear_combination h

theorem legendre_zero : Spec.legendre 0 = 1 := by simp [Spec.legendre]
theorem legendre_one : Spec.legendre 1 = X := by
  have := legendre_up 0
  rw [legendre_zero] at this
  simpa using this

/-- `P_{n+1}' = (n+1) P_n + X P_n'`. -/
theorem legendre_deriv_up (n : Nat) : derivative (Spec.legendre (n + 1)) =
    ((n : ℝ[X]) + 1) * Spec.legendre n + X * derivative (Spec.legendre n) := by
  have h := congrArg derivative (legendre_up n)
  rw [derivative_add, legendre_ode, derivative_mul, derivative_mul, derivative_mul] at h
  simp only [derivative_add, derivative_natCast, derivative_one, derivative_X] at h
  have hne : ((n : ℝ[X]) + 1) ≠ 0 := by
    have := Nat.cast_ne_zero (R := ℝ[X]) |>.2 (Nat.succ_ne_zero n)
    push_cast at this; exact this
  apply mul_left_cancel₀ hne
  linear_combination h

/-- `(X²-1) P_{n+1}' = (n+1)(X P_{n+1} - P_n)`. -/
theorem legendre_deriv (n : Nat) : (X ^ 2 - 1) * derivative (Spec.legendre (n + 1)) =
    ((n : ℝ[X]) + 1) * (X * Spec.legendre (n + 1) - Spec.legendre n) := by
  rw [legendre_deriv_up]
  linear_combination -X * legendre_up n

/-- Bonnet's recursion. -/
theorem legendre_bonnet (n : Nat) : ((n : ℝ[X]) + 2) * Spec.legendre (n + 2) =
    (2 * (n : ℝ[X]) + 3) * (X * Spec.legendre (n + 1)) - ((n : ℝ[X]) + 1) * Spec.legendre n := by
  have h := legendre_up (n + 1)
  have h2 := legendre_deriv n
  push_cast at h
  linear_combination h + h2

theorem legendre_eval_bonnet (n : Nat) (x : ℝ) : (Spec.legendre (n + 2)).eval x =
    ((2 * (n : ℝ) + 3) * x * (Spec.legendre (n + 1)).eval x - ((n : ℝ) + 1) * (Spec.legendre n).eval x) / ((n : ℝ) + 2) := by
  have h := congrArg (eval x) (legendre_bonnet n)
  simp at h
  have hp : (n : ℝ) + 2 ≠ 0 := by positivity
  rw [eq_div_iff hp]
  linear_combination h

end TicTac
end
