import Verif.Lemmas.Legendre
import Mathlib.Analysis.Calculus.LocalExtr.Polynomial
import Mathlib.Analysis.Calculus.Deriv.Polynomial
import Mathlib.Analysis.SpecialFunctions.Integrals.Basic
import Mathlib.LinearAlgebra.Lagrange
/-! Roots and orthogonality of the Legendre polynomials, and the Gauss-Legendre weights. -/
noncomputable section
namespace TicTac
open Polynomial

/-! ### Degree, end points, common zeros -/

theorem legendre_natDegree_le (n : Nat) : (Spec.legendre n).natDegree ≤ n := by
  unfold Spec.legendre
  refine (natDegree_C_mul_le _ _).trans ((natDegree_iterate_derivative _ _).trans ?_)
  have h1 : ((X : ℝ[X]) ^ 2 - 1).natDegree ≤ 2 := by
    rw [show ((X : ℝ[X]) ^ 2 - 1) = X ^ 2 - C 1 by simp]
    exact (natDegree_sub_C).trans_le (natDegree_X_pow_le 2)
  have : (((X : ℝ[X]) ^ 2 - 1) ^ n).natDegree ≤ n * 2 := natDegree_pow_le_of_le n h1
  omega

theorem legendre_eval_one (n : Nat) : (Spec.legendre n).eval 1 = 1 := by
  induction n using Nat.strong_induction_on with
  | _ n ih =>
    match n with
    | 0 => simp [legendre_zero]
    | 1 => simp [legendre_one]
    | m + 2 =>
      rw [legendre_eval_bonnet, ih m (by omega), ih (m + 1) (by omega)]
      have : (m : ℝ) + 2 ≠ 0 := by positivity
      field_simp
      ring

theorem legendre_eval_neg (n : Nat) (x : ℝ) : (Spec.legendre n).eval (-x) = (-1) ^ n * (Spec.legendre n).eval x := by
  induction n using Nat.strong_induction_on with
  | _ n ih =>
    match n with
    | 0 => simp [legendre_zero]
    | 1 => simp [legendre_one]
    | m + 2 =>
      rw [legendre_eval_bonnet, legendre_eval_bonnet, ih m (by omega), ih (m + 1) (by omega)]
      ring

theorem legendre_ne_zero (n : Nat) : Spec.legendre n ≠ 0 := by
  intro h
  have := legendre_eval_one n
  rw [h] at this
  simp at this

theorem legendre_no_common (n : Nat) (x : ℝ) (h1 : (Spec.legendre (n + 1)).eval x = 0) (h2 : (Spec.legendre n).eval x = 0) : False := by
  induction n with
  | zero => rw [legendre_zero] at h2; simp at h2
  | succ n ih =>
    refine ih h2 ?_
    have := legendre_eval_bonnet n x
    rw [h1, h2] at this
    have hp : (n : ℝ) + 2 ≠ 0 := by positivity
    have hp1 : (n : ℝ) + 1 ≠ 0 := by positivity
    field_simp at this
    simp at this
    rcases this with h | h
    · exact absurd h hp1
    · exact h

theorem legendre_root_ne_one (n : Nat) (x : ℝ) (h : (Spec.legendre n).eval x = 0) : x ^ 2 - 1 ≠ 0 := by
  intro hx
  have : (x - 1) * (x + 1) = 0 := by linear_combination hx
  rcases mul_eq_zero.1 this with h' | h'
  · rw [show x = 1 by linarith, legendre_eval_one] at h; norm_num at h
  · rw [show x = -1 by linarith, legendre_eval_neg, legendre_eval_one] at h; simp at h

theorem legendre_deriv_ne (n : Nat) (x : ℝ) (h : (Spec.legendre n).eval x = 0) : (derivative (Spec.legendre n)).eval x ≠ 0 := by
  match n with
  | 0 => rw [legendre_zero] at h; simp at h
  | m + 1 =>
    intro hd
    have := congrArg (eval x) (legendre_deriv m)
    simp [h, hd] at this
    have hp1 : (m : ℝ) + 1 ≠ 0 := by positivity
    rcases this with h' | h'
    · exact hp1 h'
    · exact legendre_no_common m x h h'

/-! ### All roots are real -/

theorem card_roots_iter (p : ℝ[X]) (k : Nat) : p.roots.card ≤ (derivative^[k] p).roots.card + k := by
  induction k with
  | zero => simp
  | succ k ih =>
    rw [Function.iterate_succ_apply']
    have := card_roots_le_derivative (derivative^[k] p)
    omega

theorem legendre_card_roots (n : Nat) : (Spec.legendre n).roots.card = n ∧ (Spec.legendre n).natDegree = n := by
  have hle := legendre_natDegree_le n
  have hr := card_roots' (Spec.legendre n)
  have hge : n ≤ (Spec.legendre n).roots.card := by
    unfold Spec.legendre
    rw [roots_C_mul _ (by positivity)]
    have h1 := card_roots_iter (((X : ℝ[X]) ^ 2 - 1) ^ n) n
    have h2 : (((X : ℝ[X]) ^ 2 - 1) ^ n).roots.card = 2 * n := by
      rw [show ((X : ℝ[X]) ^ 2 - 1) = (X - C 1) * (X - C (-1)) by simp; ring, roots_pow,
        roots_mul (mul_ne_zero (X_sub_C_ne_zero _) (X_sub_C_ne_zero _)), roots_X_sub_C, roots_X_sub_C]
      simp
      ring
    omega
  omega

theorem legendre_splits (n : Nat) : (Spec.legendre n).Splits := by
  rw [splits_iff_card_roots]
  have := legendre_card_roots n
  omega

/-- A Newton step of size less than `eps` means a true root is within `n * eps`. -/
theorem newton_root_close (n : Nat) (x eps : ℝ) (hd : (derivative (Spec.legendre n)).eval x ≠ 0)
    (h : |(Spec.legendre n).eval x / (derivative (Spec.legendre n)).eval x| < eps) :
    ∃ r, (Spec.legendre n).eval r = 0 ∧ |x - r| < n * eps := by
  by_cases h0 : (Spec.legendre n).eval x = 0
  · refine ⟨x, h0, ?_⟩
    have he : 0 < eps := (abs_nonneg _).trans_lt h
    have : 0 < n := by
      rcases Nat.eq_zero_or_pos n with rfl | h'
      · rw [legendre_zero] at h0; simp at h0
      · exact h'
    simp
    positivity
  · by_contra hne
    push Not at hne
    have hs := (legendre_splits n).eval_derivative_div_eval_of_ne_zero h0
    have he : 0 < eps := (abs_nonneg _).trans_lt h
    have hn : (0 : ℝ) < n := by
      rcases Nat.eq_zero_or_pos n with rfl | h'
      · rw [legendre_zero] at hd; simp at hd
      · exact_mod_cast h'
    have hb : |(derivative (Spec.legendre n)).eval x / (Spec.legendre n).eval x| ≤ 1 / eps := by
      rw [hs]
      refine Multiset.abs_sum_le_sum_abs.trans ?_
      have : (Multiset.map (fun z => |z|) (Multiset.map (fun z => 1 / (x - z)) (Spec.legendre n).roots)).sum ≤
          (Multiset.map (fun z => |z|) (Multiset.map (fun z => 1 / (x - z)) (Spec.legendre n).roots)).card • (1 / (n * eps)) := by
        apply Multiset.sum_le_card_nsmul
        intro y hy
        simp only [Multiset.map_map, Function.comp, Multiset.mem_map] at hy
        obtain ⟨r, hr, rfl⟩ := hy
        have hr' := hne r (isRoot_of_mem_roots hr)
        rw [abs_div, abs_one]
        exact one_div_le_one_div_of_le (by positivity) hr'
      refine this.trans ?_
      simp only [Multiset.card_map, (legendre_card_roots n).1, nsmul_eq_mul]
      apply le_of_eq
      field_simp
    rw [← inv_div, abs_inv] at hb
    have hq : 0 < |(Spec.legendre n).eval x / (derivative (Spec.legendre n)).eval x| := abs_pos.2 (div_ne_zero h0 hd)
    rw [one_div, inv_le_inv₀ hq he] at hb
    linarith

/-! ### Integration over (-1,1) -/

/-- `∫_{-1}^{1} f`. -/
def pint (f : ℝ[X]) : ℝ := ∫ x in (-1 : ℝ)..1, f.eval x

theorem pint_add (f g : ℝ[X]) : pint (f + g) = pint f + pint g := by
  unfold pint
  simp only [eval_add]
  exact intervalIntegral.integral_add (f.continuous.intervalIntegrable _ _) (g.continuous.intervalIntegrable _ _)

theorem pint_C_mul (c : ℝ) (f : ℝ[X]) : pint (C c * f) = c * pint f := by
  unfold pint
  simp only [eval_mul, eval_C]
  exact intervalIntegral.integral_const_mul _ _

theorem pint_deriv (f : ℝ[X]) : pint (derivative f) = f.eval 1 - f.eval (-1) := by
  unfold pint
  exact intervalIntegral.integral_eq_sub_of_hasDerivAt (fun x _ => f.hasDerivAt x) (f.derivative.continuous.intervalIntegrable _ _)

theorem pint_zero : pint 0 = 0 := by simp [pint]

theorem pint_sum {ι : Type} (s : Finset ι) (f : ι → ℝ[X]) : pint (∑ i ∈ s, f i) = ∑ i ∈ s, pint (f i) := by
  classical
  induction s using Finset.induction_on with
  | empty => simp [pint_zero]
  | insert a s ha ih => rw [Finset.sum_insert ha, Finset.sum_insert ha, pint_add, ih]

theorem pint_parts (f g : ℝ[X]) : pint (derivative f * g) = f.eval 1 * g.eval 1 - f.eval (-1) * g.eval (-1) - pint (f * derivative g) := by
  have := pint_deriv (f * g)
  rw [derivative_mul, pint_add] at this
  simp only [eval_mul] at this
  linarith

/-- `n(n+1) ∫ P_n f = -∫ (x²-1) P_n' f'`. -/
theorem pint_ode (n : Nat) (f : ℝ[X]) : (n : ℝ) * (n + 1) * pint (Spec.legendre n * f) =
    -pint ((X ^ 2 - 1) * derivative (Spec.legendre n) * derivative f) := by
  have h := pint_parts ((X ^ 2 - 1) * derivative (Spec.legendre n)) f
  rw [legendre_ode] at h
  have e : (n : ℝ[X]) * ((n : ℝ[X]) + 1) * Spec.legendre n * f = C ((n : ℝ) * (n + 1)) * (Spec.legendre n * f) := by
    simp; ring
  rw [e, pint_C_mul] at h
  simp at h
  linarith

theorem legendre_orth (n m : Nat) (h : n ≠ m) : pint (Spec.legendre n * Spec.legendre m) = 0 := by
  have h1 := pint_ode n (Spec.legendre m)
  have h2 := pint_ode m (Spec.legendre n)
  rw [show (X ^ 2 - 1) * derivative (Spec.legendre m) * derivative (Spec.legendre n) =
    (X ^ 2 - 1) * derivative (Spec.legendre n) * derivative (Spec.legendre m) by ring,
    mul_comm (Spec.legendre m)] at h2
  have h3 : ((n : ℝ) * (n + 1) - m * (m + 1)) * pint (Spec.legendre n * Spec.legendre m) = 0 := by linarith
  rcases mul_eq_zero.1 h3 with h4 | h4
  · exfalso
    have : ((n : ℝ) - m) * (n + m + 1) = 0 := by linear_combination h4
    rcases mul_eq_zero.1 this with h5 | h5
    · exact h (by exact_mod_cast sub_eq_zero.1 h5)
    · have : (0 : ℝ) < n + m + 1 := by positivity
      linarith
  · exact h4

/-- `P_n` is orthogonal to every polynomial of smaller degree. -/
theorem legendre_orth_deg (n : Nat) (f : ℝ[X]) (h : f = 0 ∨ f.natDegree < n) : pint (Spec.legendre n * f) = 0 := by
  rcases h with h | h
  · subst h; simp [pint_zero]
  induction hk : f.natDegree using Nat.strong_induction_on generalizing f with
  | _ k ih =>
    have hdeg := (legendre_card_roots k).2
    have hl : (Spec.legendre k).leadingCoeff ≠ 0 := leadingCoeff_ne_zero.2 (legendre_ne_zero k)
    set c := f.leadingCoeff / (Spec.legendre k).leadingCoeff with hc
    set g := f - C c * Spec.legendre k with hg
    have hfg : f = C c * Spec.legendre k + g := by rw [hg]; ring
    have hgz : pint (Spec.legendre n * g) = 0 := by
      by_cases hg0 : g = 0
      · rw [hg0]; simp [pint_zero]
      rcases Nat.eq_zero_or_pos k with h0 | hkpos
      · exfalso
        apply hg0
        subst h0
        have h2 : f = C (f.coeff 0) := eq_C_of_natDegree_eq_zero hk
        rw [hg, hc, legendre_zero]
        have : f.leadingCoeff = f.coeff 0 := by rw [leadingCoeff, hk]
        simp [this]
        rw [← h2]; ring
      · have hlt : g.natDegree < k := by
          have hgk : g.natDegree ≤ k := by
            rw [hg]
            refine (natDegree_sub_le _ _).trans ?_
            have := natDegree_C_mul_le c (Spec.legendre k)
            omega
          refine lt_of_le_of_ne hgk fun he => ?_
          have hco : g.coeff k = 0 := by
            rw [hg, coeff_sub, coeff_C_mul]
            have e1 : f.coeff k = f.leadingCoeff := by rw [leadingCoeff, hk]
            have e2 : (Spec.legendre k).coeff k = (Spec.legendre k).leadingCoeff := by rw [leadingCoeff, hdeg]
            rw [e1, e2, hc]
            field_simp
            ring
          rw [← he] at hco
          exact hg0 (leadingCoeff_eq_zero.1 hco)
        exact ih g.natDegree hlt g (by omega) rfl
    rw [hfg, mul_add, pint_add, hgz, show Spec.legendre n * (C c * Spec.legendre k) = C c * (Spec.legendre n * Spec.legendre k) by ring,
      pint_C_mul, legendre_orth n k (by omega)]
    simp

/-! ### Gauss rule -/

/-- The integral of a polynomial of degree < 2n is its sum over the roots of P_n with the textbook weights. -/
theorem gauss_exact (n : Nat) (s : Finset ℝ) (hs : ∀ t ∈ s, (Spec.legendre n).eval t = 0) (hcard : s.card = n)
    (f : ℝ[X]) (hf : f.natDegree < 2 * n) :
    pint f = ∑ t ∈ s, 2 / ((1 - t ^ 2) * ((derivative (Spec.legendre n)).eval t) ^ 2) * f.eval t := by
  classical
  set P := Spec.legendre n with hP
  have hP0 : P ≠ 0 := legendre_ne_zero n
  have hdeg : P.natDegree = n := (legendre_card_roots n).2
  have hn : 0 < n := by omega
  -- low-degree exactness with the interpolation weights
  have hint : ∀ g : ℝ[X], g.degree < n → pint g = ∑ t ∈ s, g.eval t * pint (Lagrange.basis s id t) := by
    intro g hg
    have := Lagrange.eq_interpolate_of_eval_eq (s := s) (v := id) (f := g) (fun t => g.eval t)
      (Set.injOn_id _) (by rw [hcard]; exact hg) (fun i _ => rfl)
    conv_lhs => rw [this]
    rw [Lagrange.interpolate_apply, pint_sum]
    exact Finset.sum_congr rfl fun t _ => pint_C_mul _ _
  -- exactness up to degree 2n-1
  have hint2 : ∀ g : ℝ[X], g.natDegree < 2 * n → pint g = ∑ t ∈ s, g.eval t * pint (Lagrange.basis s id t) := by
    intro g hg
    have hdm : g % P + P * (g / P) = g := EuclideanDomain.mod_add_div g P
    have hmod : (g % P).degree < n := by
      have := degree_mod_lt g hP0
      rwa [degree_eq_natDegree hP0, hdeg] at this
    have hq : g / P = 0 ∨ (g / P).natDegree < n := by
      by_cases hq0 : g / P = 0
      · exact Or.inl hq0
      right
      have hlt : ¬ g.degree < P.degree := fun h => hq0 ((Polynomial.div_eq_zero_iff hP0).2 h)
      have hadd := degree_add_div hP0 (not_lt.1 hlt)
      have hg0 : g ≠ 0 := by rintro rfl; simp at hq0
      rw [degree_eq_natDegree hP0, degree_eq_natDegree hq0, degree_eq_natDegree hg0, hdeg] at hadd
      have : n + (g / P).natDegree = g.natDegree := by exact_mod_cast hadd
      omega
    have horth := legendre_orth_deg n (g / P) hq
    rw [← hP] at horth
    conv_lhs => rw [← hdm]
    rw [pint_add, horth, add_zero, hint _ hmod]
    refine Finset.sum_congr rfl fun t ht => ?_
    congr 1
    conv_rhs => rw [← hdm]
    rw [eval_add, eval_mul, hs t ht]; ring
  -- the weights
  rw [hint2 f hf]
  refine Finset.sum_congr rfl fun t ht => ?_
  rw [mul_comm]
  congr 1
  obtain ⟨g, hg⟩ := dvd_iff_isRoot.2 (show IsRoot P t from hs t ht)
  have hg0 : g ≠ 0 := by rintro rfl; simp at hg; exact hP0 hg
  have hgd : g.natDegree + 1 = n := by
    have := congrArg natDegree hg
    rw [natDegree_mul (X_sub_C_ne_zero _) hg0, natDegree_X_sub_C, hdeg] at this
    omega
  have hPd : derivative P = g + (X - C t) * derivative g := by rw [hg, derivative_mul]; simp
  have hgt : g.eval t = (derivative P).eval t := by rw [hPd]; simp
  have hPt : (derivative P).eval t ≠ 0 := legendre_deriv_ne n t (hs t ht)
  -- other nodes are zeros of g
  have hgo : ∀ u ∈ s, u ≠ t → g.eval u = 0 := by
    intro u hu hut
    have := hs u hu
    rw [hg] at this
    simp at this
    rcases this with h | h
    · exact absurd (sub_eq_zero.1 h) hut
    · exact h
  have hdP : (derivative P).natDegree < n := by
    have := natDegree_derivative_lt (p := P) (by omega)
    omega
  have h1 := hint2 (derivative P * g) (by
    refine (natDegree_mul_le).trans_lt ?_
    omega)
  rw [Finset.sum_eq_single t (fun u hu hut => by rw [eval_mul, hgo u hu hut]; ring) (fun h => absurd ht h), eval_mul, hgt] at h1
  have h2 := pint_parts P g
  have h3 : pint (P * derivative g) = 0 := by
    apply legendre_orth_deg n
    by_cases h0 : g.natDegree = 0
    · left
      rw [eq_C_of_natDegree_eq_zero h0]; simp
    · right
      have := natDegree_derivative_lt h0
      omega
  have hne := legendre_root_ne_one n t (hs t ht)
  have ht1 : t - 1 ≠ 0 := fun h => hne (by linear_combination (t + 1) * h)
  have ht2 : t + 1 ≠ 0 := fun h => hne (by linear_combination (t - 1) * h)
  have e1 : P.eval 1 = 1 := legendre_eval_one n
  have em : P.eval (-1) = (-1) ^ n := by rw [hP, legendre_eval_neg, legendre_eval_one]; ring
  have g1 : g.eval 1 = 1 / (1 - t) := by
    have := congrArg (eval 1) hg
    rw [e1] at this
    simp at this
    have : (1 - t) ≠ 0 := fun h => ht1 (by linarith)
    field_simp
    linarith
  have gm : g.eval (-1) = (-1) ^ n / (-1 - t) := by
    have := congrArg (eval (-1)) hg
    rw [em] at this
    simp at this
    have : (-1 - t) ≠ 0 := fun h => ht2 (by linarith)
    field_simp
    linarith
  rw [h3, e1, em, g1, gm] at h2
  have hsq : ((-1 : ℝ) ^ n) * ((-1) ^ n / (-1 - t)) = 1 / (-1 - t) := by
    rw [← mul_div_assoc, ← mul_pow]; simp
  rw [hsq] at h2
  have hw : (derivative P).eval t * (derivative P).eval t * pint (Lagrange.basis s id t) = 2 / (1 - t ^ 2) := by
    rw [← h1, h2]
    have a1 : (1 - t) ≠ 0 := fun h => ht1 (by linarith)
    have a2 : (-1 - t) ≠ 0 := fun h => ht2 (by linarith)
    have a3 : (1 - t ^ 2) ≠ 0 := fun h => hne (by linarith)
    field_simp
    ring
  have a3 : (1 - t ^ 2) ≠ 0 := fun h => hne (by linarith)
  rw [eq_div_iff (mul_ne_zero a3 (pow_ne_zero 2 hPt))]
  rw [eq_div_iff a3] at hw
  linear_combination hw

end TicTac
end
