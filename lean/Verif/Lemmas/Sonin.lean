import Verif.Lemmas.GaussLegendre
import Mathlib.Analysis.Calculus.Deriv.MeanValue
/-! Sonin's function of the Legendre polynomials: bounds on P_n and P_n' in (-1, 1). -/
noncomputable section
namespace TicTac
open Polynomial

/-- `n(n+1) P_n² + (1-x²) P_n'²`. -/
def sonin (n : Nat) : ℝ[X] :=
  ((n : ℝ[X]) * ((n : ℝ[X]) + 1)) * Spec.legendre n ^ 2 + (1 - X ^ 2) * (derivative (Spec.legendre n)) ^ 2

theorem sonin_deriv (n : Nat) : derivative (sonin n) = 2 * X * (derivative (Spec.legendre n)) ^ 2 := by
  have h := legendre_ode n
  rw [derivative_mul] at h
  simp only [derivative_sub, derivative_X_pow, derivative_one, Nat.cast_ofNat, map_ofNat] at h
  unfold sonin
  generalize hP : Spec.legendre n = p at h ⊢
  generalize hN : (n : ℝ[X]) * ((n : ℝ[X]) + 1) = c at h ⊢
  have hc : derivative c = 0 := by
    rw [← hN, show (n : ℝ[X]) * ((n : ℝ[X]) + 1) = ((n * (n + 1) : ℕ) : ℝ[X]) by push_cast; ring, derivative_natCast]
  rw [derivative_add, derivative_mul, derivative_mul, hc]
  simp only [derivative_sub, derivative_one, Nat.cast_ofNat, map_ofNat, derivative_pow, derivative_X, mul_one, pow_one, Nat.add_one_sub_one]
  linear_combination (-2 * derivative p) * h

theorem sonin_mono (n : Nat) : MonotoneOn (fun x => (sonin n).eval x) (Set.Ici 0) := by
  refine monotoneOn_of_deriv_nonneg (convex_Ici 0) (sonin n).continuous.continuousOn (sonin n).differentiable.differentiableOn ?_
  intro x hx
  rw [interior_Ici] at hx
  have hx' : (0 : ℝ) < x := hx
  rw [Polynomial.deriv, sonin_deriv]
  simp only [eval_mul, eval_pow, eval_X, eval_ofNat]
  positivity

theorem legendre_deriv_neg_sq (N : Nat) (x : ℝ) :
    ((derivative (Spec.legendre N)).eval (-x)) ^ 2 = ((derivative (Spec.legendre N)).eval x) ^ 2 := by
  have hc : (Spec.legendre N).comp (-X) = C ((-1) ^ N) * Spec.legendre N := by
    apply Polynomial.funext
    intro y
    rw [eval_comp]
    simp [legendre_eval_neg]
  have hd := congrArg (fun p => (derivative p).eval x) hc
  simp only [derivative_comp, derivative_C_mul, eval_mul, eval_comp, derivative_neg, derivative_X, eval_neg, eval_one, eval_X, eval_C] at hd
  have : (derivative (Spec.legendre N)).eval (-x) = -((-1) ^ N * (derivative (Spec.legendre N)).eval x) := by linarith
  rw [this, neg_sq, mul_pow, ← pow_mul, mul_comm N 2, pow_mul]
  simp

theorem sonin_eval (n : Nat) (x : ℝ) : (sonin n).eval x =
    n * (n + 1) * ((Spec.legendre n).eval x) ^ 2 + (1 - x ^ 2) * ((derivative (Spec.legendre n)).eval x) ^ 2 := by
  unfold sonin; simp

theorem sonin_even (n : Nat) (x : ℝ) : (sonin n).eval (-x) = (sonin n).eval x := by
  rw [sonin_eval, sonin_eval, legendre_deriv_neg_sq, legendre_eval_neg, mul_pow, ← pow_mul, mul_comm n 2, pow_mul]
  simp

theorem sonin_abs (n : Nat) (x : ℝ) : (sonin n).eval |x| = (sonin n).eval x := by
  rcases abs_cases x with ⟨h, -⟩ | ⟨h, -⟩ <;> rw [h]
  exact sonin_even n x

theorem legendre_even_zero (m : Nat) : 1 ≤ (4 * (m : ℝ) + 1) * ((Spec.legendre (2 * m)).eval 0) ^ 2 := by
  induction m with
  | zero => simp [legendre_zero]
  | succ m ih =>
    rw [show 2 * (m + 1) = 2 * m + 2 by ring, legendre_eval_bonnet]
    set v := (Spec.legendre (2 * m)).eval 0
    have h2 : ((2 * m : ℕ) : ℝ) + 2 ≠ 0 := by positivity
    have e : (4 * (((m + 1 : ℕ)) : ℝ) + 1) * (((2 * ((2 * m : ℕ) : ℝ) + 3) * 0 * (Spec.legendre (2 * m + 1)).eval 0 - (((2 * m : ℕ) : ℝ) + 1) * v) / (((2 * m : ℕ) : ℝ) + 2)) ^ 2
        = (4 * (m : ℝ) + 5) * ((2 * m + 1) ^ 2 * v ^ 2) / (2 * m + 2) ^ 2 := by
      push_cast
      field_simp
      ring
    rw [e, le_div_iff₀ (by positivity)]
    have hm : (0 : ℝ) ≤ m := by positivity
    have hp : 0 ≤ v ^ 2 := sq_nonneg v
    have h1 : (2 * (m : ℝ) + 2) ^ 2 * 1 ≤ (2 * (m : ℝ) + 2) ^ 2 * ((4 * m + 1) * v ^ 2) := mul_le_mul_of_nonneg_left ih (by positivity)
    nlinarith

/-- Sonin's function is nowhere small. -/
theorem sonin_lower (n : Nat) (x : ℝ) : (n : ℝ) / 2 ≤ (sonin n).eval x := by
  have hmono := sonin_mono n (Set.mem_Ici.2 le_rfl) (Set.mem_Ici.2 (abs_nonneg x)) (abs_nonneg x)
  simp only [sonin_abs] at hmono
  refine le_trans ?_ hmono
  rw [sonin_eval]
  obtain ⟨m, rfl | rfl⟩ := n.even_or_odd'
  · have h := legendre_even_zero m
    set v := (Spec.legendre (2 * m)).eval 0
    have hm : (0 : ℝ) ≤ m := by positivity
    have h2 : 0 ≤ ((derivative (Spec.legendre (2 * m))).eval 0) ^ 2 := sq_nonneg _
    have hp : 0 ≤ v ^ 2 := sq_nonneg v
    push_cast
    nlinarith [mul_nonneg hm hp, mul_le_mul_of_nonneg_left h hm]
  · have h := legendre_even_zero m
    have hd := congrArg (eval 0) (legendre_deriv_up (2 * m))
    simp only [eval_add, eval_mul, eval_X, zero_mul, add_zero, eval_natCast, eval_one] at hd
    rw [hd]
    set v := (Spec.legendre (2 * m)).eval 0
    have hm : (0 : ℝ) ≤ m := by positivity
    have hp : 0 ≤ v ^ 2 := sq_nonneg v
    have h3 : 0 ≤ ((Spec.legendre (2 * m + 1)).eval 0) ^ 2 := sq_nonneg _
    have h4 : 0 ≤ (((2 * m + 1 : ℕ) : ℝ)) * (((2 * m + 1 : ℕ) : ℝ) + 1) * ((Spec.legendre (2 * m + 1)).eval 0) ^ 2 := by positivity
    refine le_trans ?_ (add_le_add h4 le_rfl)
    push_cast
    nlinarith [mul_nonneg hm hp, mul_le_mul_of_nonneg_left h hm]

theorem legendre_abs_le_one (n : Nat) (x : ℝ) (hx : |x| ≤ 1) : |(Spec.legendre n).eval x| ≤ 1 := by
  rcases Nat.eq_zero_or_pos n with rfl | hn
  · simp [legendre_zero]
  have hmono := sonin_mono n (Set.mem_Ici.2 (abs_nonneg x)) (Set.mem_Ici.2 zero_le_one) hx
  simp only [sonin_abs] at hmono
  rw [sonin_eval, sonin_eval, legendre_eval_one] at hmono
  have hx2 : x ^ 2 ≤ 1 := by rw [← sq_abs]; nlinarith [abs_nonneg x]
  have h0 : 0 ≤ (1 - x ^ 2) * ((derivative (Spec.legendre n)).eval x) ^ 2 := mul_nonneg (by linarith) (sq_nonneg _)
  have hnp : (0 : ℝ) < n * (n + 1) := by positivity
  have : ((Spec.legendre n).eval x) ^ 2 ≤ 1 := by
    by_contra hlt
    push Not at hlt
    have := mul_lt_mul_of_pos_left hlt hnp
    nlinarith
  exact (sq_le_one_iff_abs_le_one _).1 this

theorem legendre_deriv_le (n : Nat) (x : ℝ) (hx : |x| ≤ 1) : |(derivative (Spec.legendre n)).eval x| ≤ n * (n + 1) / 2 := by
  induction n with
  | zero => simp [legendre_zero]
  | succ n ih =>
    have hd := congrArg (eval x) (legendre_deriv_up n)
    simp only [eval_add, eval_mul, eval_X, eval_natCast, eval_one] at hd
    rw [hd]
    refine (abs_add_le _ _).trans ?_
    rw [abs_mul, abs_mul, abs_of_nonneg (show (0 : ℝ) ≤ (n : ℝ) + 1 by positivity)]
    have h1 := mul_le_mul_of_nonneg_left (legendre_abs_le_one n x hx) (show (0 : ℝ) ≤ (n : ℝ) + 1 by positivity)
    have h2 := mul_le_mul hx ih (abs_nonneg _) zero_le_one
    push_cast
    linarith

/-- P_n changes by at most n(n+1)/2 per unit between points of [-1, 1]. -/
theorem legendre_lipschitz (n : Nat) (x y : ℝ) (hx : |x| ≤ 1) (hy : |y| ≤ 1) :
    |(Spec.legendre n).eval y - (Spec.legendre n).eval x| ≤ n * (n + 1) / 2 * |y - x| := by
  have := Convex.norm_image_sub_le_of_norm_deriv_le (f := fun t => (Spec.legendre n).eval t) (s := Set.Icc (-1 : ℝ) 1) (C := n * (n + 1) / 2)
    (fun t _ => (Spec.legendre n).differentiable t) (fun t ht => by
      rw [Polynomial.deriv, Real.norm_eq_abs]; exact legendre_deriv_le n t (abs_le.2 ht)) (convex_Icc _ _) (abs_le.1 hx) (abs_le.1 hy)
  simpa [Real.norm_eq_abs] using this

/-- After a Newton step shorter than 1e-9 the derivative does not vanish at the new point. -/
theorem newton_deriv_ne (n : Nat) (hn : 1 ≤ n) (hN : n ≤ 3000) (x x1 : ℝ) (hx : |x| ≤ 1) (hx1 : x1 ^ 2 < 1)
    (hstep : (Spec.legendre n).eval x = (derivative (Spec.legendre n)).eval x * (x - x1)) (hd : |x1 - x| < 1e-9) :
    (derivative (Spec.legendre n)).eval x1 ≠ 0 := by
  have hx1' : |x1| ≤ 1 := by rw [← sq_le_one_iff_abs_le_one]; exact hx1.le
  have hl := legendre_lipschitz n x x1 hx hx1'
  have hdx := legendre_deriv_le n x hx
  have hn0 : (1 : ℝ) ≤ n := by exact_mod_cast hn
  have hnN : (n : ℝ) ≤ 3000 := by exact_mod_cast hN
  have hb : |(Spec.legendre n).eval x1| ≤ n * (n + 1) * 1e-9 := by
    have h1 : |(Spec.legendre n).eval x| ≤ n * (n + 1) / 2 * 1e-9 := by
      rw [hstep, abs_mul, abs_sub_comm]
      exact mul_le_mul hdx hd.le (abs_nonneg _) (by positivity)
    have h2 : |(Spec.legendre n).eval x1 - (Spec.legendre n).eval x| ≤ n * (n + 1) / 2 * 1e-9 :=
      hl.trans (mul_le_mul_of_nonneg_left hd.le (by positivity))
    have := abs_sub_abs_le_abs_sub ((Spec.legendre n).eval x1) ((Spec.legendre n).eval x)
    linarith
  intro h0
  have hs := sonin_lower n x1
  rw [sonin_eval, h0] at hs
  have h2 : ((Spec.legendre n).eval x1) ^ 2 ≤ (n * (n + 1) * 1e-9) ^ 2 := by
    rw [← sq_abs]; exact pow_le_pow_left₀ (abs_nonneg _) hb 2
  have h3 : (n : ℝ) * (n + 1) * ((Spec.legendre n).eval x1) ^ 2 ≤ n * (n + 1) * (n * (n + 1) * 1e-9) ^ 2 :=
    mul_le_mul_of_nonneg_left h2 (by positivity)
  have h4 : (n : ℝ) / 2 ≤ n * ((n + 1) * (n * (n + 1) * 1e-9) ^ 2) := by nlinarith
  have h5 : (1 : ℝ) / 2 ≤ (n + 1) * (n * (n + 1) * 1e-9) ^ 2 := by
    by_contra hlt
    push Not at hlt
    have := mul_lt_mul_of_pos_left hlt (show (0 : ℝ) < n by linarith)
    linarith
  have h6 : ((n : ℝ) + 1) * (n * (n + 1) * 1e-9) ^ 2 ≤ (3000 + 1) * (3000 * (3000 + 1) * 1e-9) ^ 2 := by gcongr
  norm_num at h5 h6
  linarith

end TicTac
end
