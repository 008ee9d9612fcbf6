import Verif.Props.GaussRun
import Verif.Lemmas.Sonin
import Mathlib.Analysis.SpecialFunctions.Trigonometric.Chebyshev.Basic
import Mathlib.Analysis.SpecialFunctions.Arcosh
/-! The error of a Gauss-Legendre rule for a polynomial divided by a linear function without zeros in [-1, 1]. -/
noncomputable section
namespace TicTac
open Polynomial

/-- A polynomial of degree `k`, at most 1 on [-1, 1] and large at `a > 1`. -/
theorem cheb_big (k : Nat) (a : ℝ) (ha : 1 < a) : ∃ T : ℝ[X], T.natDegree ≤ k ∧ (∀ x, -1 ≤ x → x ≤ 1 → |T.eval x| ≤ 1) ∧
    (1 + Real.sqrt (2 * (a - 1))) ^ k / 2 ≤ T.eval a := by
  refine ⟨Chebyshev.T ℝ k, ?_, ?_, ?_⟩
  · rw [Chebyshev.natDegree_T]; simp
  · intro x h1 h2
    obtain ⟨t, rfl⟩ : ∃ t, x = Real.cos t := ⟨Real.arccos x, (Real.cos_arccos h1 h2).symm⟩
    rw [Chebyshev.T_real_cos]
    exact Real.abs_cos_le_one _
  · obtain ⟨t, ht0, rfl⟩ : ∃ t, 0 ≤ t ∧ a = Real.cosh t := ⟨Real.arcosh a, Real.arcosh_nonneg ha.le, (Real.cosh_arcosh ha.le).symm⟩
    rw [Chebyshev.T_real_cosh]
    have h1 : 1 + Real.sqrt (2 * (Real.cosh t - 1)) ≤ Real.exp t := by
      have e := Real.cosh_add_sinh t
      have hs : Real.sqrt (2 * (Real.cosh t - 1)) ≤ Real.sinh t := by
        apply Real.sqrt_le_iff.2
        refine ⟨Real.sinh_nonneg_iff.2 ht0, ?_⟩
        have := Real.cosh_sq t
        nlinarith [sq_nonneg (Real.cosh t - 1)]
      linarith
    have h2 : (1 + Real.sqrt (2 * (Real.cosh t - 1))) ^ k ≤ Real.exp (k * t) := by
      rw [Real.exp_nat_mul]
      exact pow_le_pow_left₀ (by positivity) h1 k
    have h3 := Real.cosh_eq ((k : ℝ) * t)
    push_cast
    rw [h3]
    have := Real.exp_pos (-((k : ℝ) * t))
    linarith

/-- Dividing by `a - z`: the quotient is a polynomial up to a small remainder. -/
theorem pole_approx (k : Nat) (a : ℝ) (ha : 1 < a) : ∃ (q T : ℝ[X]) (t : ℝ), (k = 0 ∨ q.natDegree < k) ∧ (k = 0 → q = 0) ∧ (1 + Real.sqrt (2 * (a - 1))) ^ k / 2 ≤ t ∧
    (∀ x, -1 ≤ x → x ≤ 1 → |T.eval x| ≤ 1) ∧ ∀ x, (a - x) * q.eval x = 1 - T.eval x / t := by
  obtain ⟨T, d, b, h⟩ := cheb_big k a ha
  have ht : 0 < T.eval a := lt_of_lt_of_le (by positivity) h
  obtain ⟨s, hs⟩ := X_sub_C_dvd_sub_C_eval (a := a) (p := T)
  have hev : ∀ x, T.eval x - T.eval a = (x - a) * s.eval x := by
    intro x
    have := congrArg (eval x) hs
    simpa using this
  have hdeg : s = 0 ∨ s.natDegree + 1 ≤ k := by
    by_cases h0 : s = 0
    · exact .inl h0
    right
    have : (T - C (T.eval a)).natDegree = 1 + s.natDegree := by
      rw [hs, natDegree_mul (X_sub_C_ne_zero a) h0, natDegree_X_sub_C]
    have h2 : (T - C (T.eval a)).natDegree ≤ k := by
      rw [natDegree_sub_C]; exact d
    omega
  refine ⟨C (1 / T.eval a) * s, T, T.eval a, ?_, ?_, h, b, ?_⟩
  · rcases hdeg with h0 | h0
    · rcases Nat.eq_zero_or_pos k with rfl | hk
      · exact .inl rfl
      · right; rw [h0]; simpa using hk
    · right
      exact lt_of_le_of_lt (natDegree_C_mul_le _ _) (by omega)
  · rintro rfl
    rcases hdeg with h0 | h0
    · rw [h0, mul_zero]
    · omega
  · intro x
    rw [eval_mul, eval_C]
    have := hev x
    field_simp
    linarith

/-- The error of the Gauss-Legendre rule for `P(z)/(d0 - d1 z)`. -/
theorem gauss_pole (N : Nat) (hN : 1 ≤ N) {g : List (ℝ × ℝ)} (G : Spec.IsGauss N g) (P : ℝ[X]) (k : Nat) (hk : P.natDegree + k ≤ 2 * N) (B : ℝ)
    (hB : ∀ x, -1 ≤ x → x ≤ 1 → |P.eval x| ≤ B) (d0 d1 s : ℝ) (hs : 0 ≤ s) (h1 : 0 ≤ d1) (h01 : d1 < d0) (hP : P.natDegree < 2 * N) (hsd : d1 * s ^ 2 ≤ 2 * (d0 - d1)) :
    |(g.map fun p => p.2 * (P.eval p.1 / (d0 - d1 * p.1))).sum - ∫ x in (-1 : ℝ)..1, P.eval x / (d0 - d1 * x)| ≤ 8 * B / ((d0 - d1) * (1 + s) ^ k) := by
  have hB0 : 0 ≤ B := (abs_nonneg _).trans (hB 0 (by norm_num) (by norm_num))
  have hD : 0 < d0 - d1 := by linarith
  have hden : ∀ x : ℝ, -1 ≤ x → x ≤ 1 → d0 - d1 ≤ d0 - d1 * x := by
    intro x _ h; nlinarith
  -- a polynomial `R` close to the integrand
  obtain ⟨R, dR, hR⟩ : ∃ R : ℝ[X], R.natDegree < 2 * N ∧ ∀ x, -1 ≤ x → x ≤ 1 → |P.eval x / (d0 - d1 * x) - R.eval x| ≤ 2 * B / ((d0 - d1) * (1 + s) ^ k) := by
    rcases h1.eq_or_lt with h0 | h0
    · subst h0
      refine ⟨C (1 / d0) * P, lt_of_le_of_lt (natDegree_C_mul_le _ _) hP, fun x _ _ => ?_⟩
      rw [eval_mul, eval_C, show P.eval x / (d0 - 0 * x) - 1 / d0 * P.eval x = 0 by ring, abs_zero]
      positivity
    · set a := d0 / d1 with hadef
      have ha : 1 < a := by rw [hadef, lt_div_iff₀ h0]; linarith
      have hda : d0 = d1 * a := by rw [hadef]; field_simp
      obtain ⟨q, T, t, c1, c2, c3, c4, c5⟩ := pole_approx k a ha
      have hst : s ≤ Real.sqrt (2 * (a - 1)) := by
        apply Real.le_sqrt_of_sq_le
        rw [hda] at hsd
        have : d1 * s ^ 2 ≤ d1 * (2 * (a - 1)) := by linarith
        exact le_of_mul_le_mul_left this h0
      have ht : (1 + s) ^ k / 2 ≤ t := by
        refine le_trans ?_ c3
        have := pow_le_pow_left₀ (by positivity) (add_le_add_right hst 1) k
        linarith
      have hpk : 0 < (1 + s) ^ k := by positivity
      have htp : 0 < t := by linarith
      refine ⟨C (1 / d1) * (P * q), ?_, ?_⟩
      · refine lt_of_le_of_lt (natDegree_C_mul_le _ _) ?_
        rcases Nat.eq_zero_or_pos k with rfl | hk0
        · rw [c2 rfl, mul_zero, natDegree_zero]; omega
        · refine lt_of_le_of_lt natDegree_mul_le ?_
          rcases c1 with c1 | c1 <;> omega
      · intro x x1 x2
        have hx := hden x x1 x2
        have hx0 : 0 < d0 - d1 * x := by linarith
        have e : P.eval x / (d0 - d1 * x) - (C (1 / d1) * (P * q)).eval x = P.eval x * T.eval x / ((d0 - d1 * x) * t) := by
          rw [eval_mul, eval_C, eval_mul]
          have h5 := c5 x
          have hq : q.eval x = (1 - T.eval x / t) / (a - x) := by
            rw [eq_div_iff (by have : 0 < d1 * (a - x) := by rw [mul_sub, ← hda]; exact hx0
                               exact ((mul_pos_iff_of_pos_left h0).1 this).ne')]
            linarith
          have hax : d0 - d1 * x = d1 * (a - x) := by rw [hda]; ring
          have hax0 : a - x ≠ 0 := by
            intro h; rw [hax, h, mul_zero] at hx0; exact lt_irrefl _ hx0
          rw [hq, hax]
          field_simp
          ring
        rw [e, abs_div, abs_mul, abs_of_pos (mul_pos hx0 htp)]
        have n1 : |P.eval x| * |T.eval x| ≤ B := by
          calc _ ≤ B * 1 := mul_le_mul (hB x x1 x2) (c4 x x1 x2) (abs_nonneg _) hB0
            _ = B := mul_one B
        have n2 : (d0 - d1) * (1 + s) ^ k / 2 ≤ (d0 - d1 * x) * t := by
          have := mul_le_mul hx ht (by positivity) hx0.le
          linarith
        calc _ ≤ B / ((d0 - d1) * (1 + s) ^ k / 2) := div_le_div₀ hB0 n1 (by positivity) n2
          _ = _ := by field_simp
  set e := 2 * B / ((d0 - d1) * (1 + s) ^ k) with he
  have hsum : (g.map Prod.snd).sum = 2 := by
    have := G.exact 1 (by simp; omega)
    simp only [eval_one, mul_one] at this
    rw [show (fun xw : ℝ × ℝ => xw.2) = Prod.snd from rfl] at this
    rw [this]
    simp
    norm_num
  have s1 : |(g.map fun p => p.2 * (P.eval p.1 / (d0 - d1 * p.1))).sum - (g.map fun p => p.2 * R.eval p.1).sum| ≤ e * (g.map Prod.snd).sum := by
    have : ∀ l : List (ℝ × ℝ), (∀ p ∈ l, -1 ≤ p.1 ∧ p.1 ≤ 1 ∧ 0 ≤ p.2) →
        |(l.map fun p => p.2 * (P.eval p.1 / (d0 - d1 * p.1))).sum - (l.map fun p => p.2 * R.eval p.1).sum| ≤ e * (l.map Prod.snd).sum := by
      intro l hl
      induction l with
      | nil => simp
      | cons p l ih =>
        simp only [List.map_cons, List.sum_cons]
        obtain ⟨p1, p2, p3⟩ := hl p (by simp)
        have i := ih fun r hr => hl r (List.mem_cons_of_mem _ hr)
        have j : |p.2 * (P.eval p.1 / (d0 - d1 * p.1)) - p.2 * R.eval p.1| ≤ e * p.2 := by
          rw [← mul_sub, abs_mul, abs_of_nonneg p3, mul_comm]
          exact mul_le_mul_of_nonneg_right (hR p.1 p1 p2) p3
        rw [abs_le] at i j ⊢
        constructor <;> linarith [i.1, i.2, j.1, j.2]
    exact this g fun p hp => ⟨(G.inside p hp).1.le, (G.inside p hp).2.le, (G.positive p hp).le⟩
  have hcont : ContinuousOn (fun x => P.eval x / (d0 - d1 * x)) (Set.uIcc (-1 : ℝ) 1) := by
    refine ContinuousOn.div P.continuous.continuousOn (by fun_prop) ?_
    intro x hx
    rw [Set.uIcc_of_le (by norm_num)] at hx
    have := hden x hx.1 hx.2
    linarith
  have s2 : |(∫ x in (-1 : ℝ)..1, P.eval x / (d0 - d1 * x)) - ∫ x in (-1 : ℝ)..1, R.eval x| ≤ e * 2 := by
    rw [← intervalIntegral.integral_sub hcont.intervalIntegrable (R.continuous.intervalIntegrable _ _)]
    have := intervalIntegral.norm_integral_le_of_norm_le_const (a := (-1 : ℝ)) (b := 1) (C := e) (f := fun x => P.eval x / (d0 - d1 * x) - R.eval x) (by
      intro x hx
      rw [Set.uIoc_of_le (by norm_num)] at hx
      exact hR x hx.1.le hx.2)
    rw [Real.norm_eq_abs] at this
    refine this.trans_eq ?_
    norm_num
  have s3 := G.exact R dR
  rw [hsum] at s1
  have e4 : 8 * B / ((d0 - d1) * (1 + s) ^ k) = e * 2 + e * 2 := by rw [he]; ring
  rw [e4]
  rw [abs_le] at s1 s2 ⊢
  constructor <;> linarith [s1.1, s1.2, s2.1, s2.2]

theorem legendre_deriv_bound (n : Nat) (x : ℝ) (hx : |x| ≤ 1) : |(derivative (Spec.legendre n)).eval x| ≤ (n : ℝ) * (n + 1) / 2 := by
  induction n with
  | zero => 
    have : Spec.legendre 0 = 1 := by simp [Spec.legendre]
    rw [this]; simp
  | succ n ih =>
    rw [legendre_deriv_up]
    simp only [eval_add, eval_mul, eval_X, eval_natCast, eval_one]
    have h1 := legendre_abs_le_one n x hx
    have h2 : |x * (derivative (Spec.legendre n)).eval x| ≤ (n : ℝ) * (n + 1) / 2 := by
      rw [abs_mul]
      calc _ ≤ 1 * |(derivative (Spec.legendre n)).eval x| := mul_le_mul_of_nonneg_right hx (abs_nonneg _)
        _ ≤ _ := by rw [one_mul]; exact ih
    have h3 : |((n : ℝ) + 1) * (Spec.legendre n).eval x| ≤ (n : ℝ) + 1 := by
      rw [abs_mul, abs_of_nonneg (by positivity)]
      exact mul_le_of_le_one_right (by positivity) h1
    push_cast
    refine (abs_add_le _ _).trans ?_
    linarith

end TicTac
end
