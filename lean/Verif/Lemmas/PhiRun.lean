import Verif.Lemmas.PhiStart
import Verif.Lemmas.GaussRule
import Verif.Props.PhiMesh
/-! Newton's iteration of the phi mesh, from every start value. -/
noncomputable section
namespace TicTac
open Set Polynomial

theorem legendre_zone (N : Nat) (r d : ℝ) (hroot : (Spec.legendre N).eval r = 0) (d0 : 0 < d) (near : d ≤ (1 - r ^ 2) / 8)
    (osc : ((N : ℝ) + 1/2) ^ 2 * d ^ 2 ≤ (1 - r ^ 2) / 15) :
    ∃ s : ℝ, s ≠ 0 ∧ LocalZone (C s * Spec.legendre N) (N * (N + 1)) ((N : ℝ) + 1/2) r d := by
  have hne := legendre_deriv_ne N r hroot
  refine ⟨(derivative (Spec.legendre N)).eval r, hne, ?_⟩
  set s := (derivative (Spec.legendre N)).eval r with hs
  refine ⟨?_, by positivity, by nlinarith, d0, near, osc, by rw [eval_mul, hroot, mul_zero], ?_⟩
  · intro x
    have := legendre_second N x
    simp only [derivative_C_mul, eval_mul, eval_C]
    linear_combination s * this
  · simp only [derivative_C_mul, eval_mul, eval_C]
    rw [← hs]
    exact mul_self_pos.2 hne

theorem rootStart_eq (N j : Nat) (hj : j < N) :
    rootStart N j = Real.cos ((((N - j : Nat) : ℝ) - 1/4) * (Real.pi / ((N : ℝ) + 1/2)) - (Real.pi - 3.14159) * ((((N - j : Nat) : ℝ) - 1/4) / ((N : ℝ) + 1/2))) := by
  unfold rootStart
  congr 1
  have : ((N - 1 - j : Nat) : ℝ) + 1 = ((N - j : Nat) : ℝ) := by
    have : N - 1 - j + 1 = N - j := by omega
    exact_mod_cast this
  rw [this, show (0.25 : ℝ) = 1/4 by norm_num, show (0.5 : ℝ) = 1/2 by norm_num]
  ring

/-- Every start value lies in the zone of Newton convergence of the root with its number. -/
theorem phi_zone (N : Nat) (hN3 : N ≤ 3000) (th : Nat → ℝ) (Z : LegZeros N (Real.pi / ((N : ℝ) + 1/2)) th) (j : Nat) (hj : j < N) :
    ∃ s d, s ≠ 0 ∧ LocalZone (C s * Spec.legendre N) (N * (N + 1)) ((N : ℝ) + 1/2) (-Real.cos (th (j + 1))) d ∧
      |rootStart N j + Real.cos (th (j + 1))| ≤ d ∧ 9/4 ≤ ((N : ℝ) + 1/2) ^ 2 * (1 - Real.cos (th (j + 1)) ^ 2) := by
  have hp1 := Real.pi_gt_d6
  have hp2 := Real.pi_lt_d6
  have hM0 : (0 : ℝ) < (N : ℝ) + 1/2 := by positivity
  have hMle : (N : ℝ) + 1/2 ≤ 3001 := by
    have : (N : ℝ) ≤ 3000 := by exact_mod_cast hN3
    linarith
  have hmul := LegZeros.step_mul N
  have hcast : ((N - j : Nat) : ℝ) = (N : ℝ) - j := by push_cast [Nat.cast_sub hj.le]; ring
  have hjr : (0 : ℝ) ≤ j := by positivity
  have hjN : (j : ℝ) + 1 ≤ N := by exact_mod_cast hj
  have hm := Z.mem (j + 1) (by omega) (by omega)
  have hroot : (Spec.legendre N).eval (-Real.cos (th (j + 1))) = 0 := by
    rw [legendre_eval_neg, Z.root (j + 1) (by omega) (by omega), mul_zero]
  -- the perturbation of the angle
  have hpert : |(Real.pi - 3.14159) * ((((N - j : Nat) : ℝ) - 1/4) / ((N : ℝ) + 1/2))| ≤ 3e-6 := by
    rw [hcast, abs_mul, abs_of_nonneg (by norm_num at *; linarith)]
    have h1 : |((N : ℝ) - j - 1/4) / ((N : ℝ) + 1/2)| ≤ 1 := by
      rw [abs_div, abs_of_pos hM0, div_le_one hM0, abs_of_nonneg (by linarith)]
      linarith
    have := mul_le_mul (show Real.pi - 3.14159 ≤ 3e-6 by norm_num at *; linarith) h1 (abs_nonneg _) (by norm_num)
    linarith
  rw [rootStart_eq N j hj]
  set δ := (Real.pi - 3.14159) * ((((N - j : Nat) : ℝ) - 1/4) / ((N : ℝ) + 1/2)) with hδ
  rcases lt_trichotomy (2 * (j + 1)) (N + 1) with hlt | heq | hgt
  · -- left half: the mirror image of root j+1
    obtain ⟨d, d0, d1, d2, d3, d4⟩ := start_dist N hN3 th Z (j + 1) (by omega) hlt δ hpert
    rw [Real.sin_sq] at d1 d2 d4
    obtain ⟨s, hs, W⟩ := legendre_zone N _ d hroot d0 (by rw [neg_sq]; exact d1) (by rw [neg_sq]; exact d2)
    refine ⟨s, d, hs, W, ?_, d4⟩
    have e : ((((N - j : Nat) : ℝ) - 1/4) * (Real.pi / ((N : ℝ) + 1/2)) - δ) = Real.pi - ((((j + 1 : Nat) : ℝ) - 1/4) * (Real.pi / ((N : ℝ) + 1/2)) + δ) := by
      rw [hcast]
      push_cast
      linarith
    rw [e, Real.cos_pi_sub, neg_add_eq_sub, abs_sub_comm]
    exact d3
  · -- middle
    have hthm : Real.cos (th (j + 1)) = 0 := by
      have := Z.symm (j + 1) (by omega) (by omega)
      rw [show N + 1 - (j + 1) = j + 1 by omega] at this
      rw [show th (j + 1) = Real.pi / 2 by linarith, Real.cos_pi_div_two]
    rw [hthm] at hroot ⊢
    rw [neg_zero] at hroot ⊢
    obtain ⟨s, hs, W⟩ := legendre_zone N 0 3e-6 hroot (by norm_num) (by norm_num) (by
      have := pow_le_pow_left₀ hM0.le hMle 2
      norm_num at this ⊢
      linarith)
    refine ⟨s, _, hs, W, ?_, ?_⟩
    · rw [add_zero]
      have h2j : 2 * ((j : ℝ) + 1) = N + 1 := by exact_mod_cast heq
      have e : ((((N - j : Nat) : ℝ) - 1/4) * (Real.pi / ((N : ℝ) + 1/2)) - δ) = Real.pi / 2 - δ := by
        rw [hcast, show (N : ℝ) - j - 1/4 = ((N : ℝ) + 1/2) / 2 by linarith, div_mul_eq_mul_div, hmul]
      rw [e, Real.cos_pi_div_two_sub]
      exact (Real.abs_sin_le_abs (x := δ)).trans hpert
    · have : (1 : ℝ) ≤ N := by linarith
      nlinarith
  · -- right half
    have hsym := Z.symm (j + 1) (by omega) (by omega)
    rw [show N + 1 - (j + 1) = N - j by omega] at hsym
    have hcs : Real.cos (th (N - j)) = -Real.cos (th (j + 1)) := by rw [hsym, Real.cos_pi_sub]
    obtain ⟨d, d0, d1, d2, d3, d4⟩ := start_dist N hN3 th Z (N - j) (by omega) (by omega) (-δ) (by rw [abs_neg]; exact hpert)
    rw [Real.sin_sq, hcs] at d1 d2 d4
    rw [hcs] at d3
    obtain ⟨s, hs, W⟩ := legendre_zone N _ d hroot d0 d1 d2
    refine ⟨s, d, hs, W, ?_, by rw [neg_sq] at d4; exact d4⟩
    rw [← sub_eq_add_neg] at d3
    rwa [sub_neg_eq_add] at d3

set_option exponentiation.threshold 3000 in
theorem pow_tower (n : Nat) (h : 10 ≤ n) : (7/8 : ℝ) ^ (2 ^ n) ≤ 1/10^40 := by
  have hp : (7/8 : ℝ) ^ (2 ^ n) ≤ (7/8) ^ (2 ^ 10) :=
    pow_le_pow_of_le_one (by norm_num) (by norm_num) (Nat.pow_le_pow_right (by norm_num) h)
  exact hp.trans (by norm_num)

section
variable {P : Int → ℝ → ℝ} {N : Nat} {s r d : ℝ}

theorem local_leg (hs : s ≠ 0) (Z : LocalZone (C s * Spec.legendre N) (N * (N + 1)) ((N : ℝ) + 1/2) r d) (t : ℝ) (ht : |t - r| ≤ d) :
    (derivative (Spec.legendre N)).eval t ≠ 0 ∧ t ^ 2 < 1 ∧
      |t - (Spec.legendre N).eval t / (derivative (Spec.legendre N)).eval t - r| ≤ 11/4 * (|t - r| ^ 2 * (2 + ((N : ℝ) + 1/2) ^ 2 * |t - r|)) / (1 - r ^ 2) ∧
      |t - (Spec.legendre N).eval t / (derivative (Spec.legendre N)).eval t - r| * d ≤ 7/8 * |t - r| ^ 2 ∧
      |t - (Spec.legendre N).eval t / (derivative (Spec.legendre N)).eval t - r| ≤ 7/8 * |t - r| := by
  have h1 := Z.newton t ht
  have h2 := Z.newton_sq t ht
  have h3 := Z.newton_le t ht
  have h4 := Z.deriv_pos t ht
  simp only [derivative_C_mul, eval_mul, eval_C] at h1 h2 h3 h4
  rw [mul_div_mul_left _ _ hs] at h1 h2 h3
  have hW := Z.W0
  exact ⟨fun h => by rw [h, mul_zero] at h4; exact lt_irrefl _ h4, by linarith [(Z.range t ht).1], h1, h2, h3⟩

/-- The loop ends with a point of the zone: either after a step that passed the test, or after all its passes. -/
theorem newtonRoot_run (hP : Spec.IsLegendrePl P) (hN : 1 ≤ N) (hs : s ≠ 0) (Z : LocalZone (C s * Spec.legendre N) (N * (N + 1)) ((N : ℝ) + 1/2) r d)
    (K k : Nat) (x : ℝ) (hx : |x - r| ≤ d) (hk : 7/8 * |x - r| ≤ d * (7/8) ^ (2 ^ k)) :
    ∃ z, newtonRoot P N K x = some z ∧ |z - r| ≤ d ∧ (7/8 * |z - r| ≤ d * (7/8) ^ (2 ^ (k + K)) ∨
      ∃ x0, |x0 - r| ≤ d ∧ testDelta z x0 ∧ z = x0 - (Spec.legendre N).eval x0 / (derivative (Spec.legendre N)).eval x0) := by
  induction K generalizing k x with
  | zero => exact ⟨x, rfl, hx, Or.inl (by simpa using hk)⟩
  | succ K ih =>
    obtain ⟨a1, a2, a3, a4, a5⟩ := local_leg hs Z x hx
    set x1 := x - (Spec.legendre N).eval x / (derivative (Spec.legendre N)).eval x with hx1
    have hd := Z.d0
    have hx1d : |x1 - r| ≤ d := by have := abs_nonneg (x - r); linarith
    obtain ⟨-, b2, -⟩ := local_leg hs Z x1 hx1d
    unfold newtonRoot
    rw [if_neg (by rw [dLegendre_eq hP N hN x a2]; push Not; exact ⟨a2, a1⟩)]
    dsimp only
    rw [dLegendre_eq hP N hN x a2, hP N x a2.le, ← hx1, if_neg (by push Not; exact b2)]
    by_cases ht : testDelta x1 x
    · rw [if_pos ht]
      exact ⟨x1, rfl, hx1d, Or.inr ⟨x, hx, ht, hx1⟩⟩
    · rw [if_neg ht]
      obtain ⟨z, z1, z2, z3⟩ := ih (k + 1) x1 hx1d (by
        have e : (7/8 : ℝ) ^ (2 ^ (k + 1)) = (7/8) ^ (2 ^ k) * (7/8) ^ (2 ^ k) := by rw [← pow_add]; congr 1; ring
        rw [e]
        have h0 : 0 ≤ 7/8 * |x - r| := by positivity
        have h1 := mul_le_mul hk hk h0 (by positivity)
        have : 7/8 * |x1 - r| * d ≤ d * ((7/8) ^ (2 ^ k) * (7/8) ^ (2 ^ k)) * d := by nlinarith
        exact le_of_mul_le_mul_right this hd)
      exact ⟨z, z1, z2, by rwa [show k + 1 + K = k + (K + 1) by ring] at z3⟩

/-- Distance of the delivered point from the root. -/
theorem newtonRoot_near (hP : Spec.IsLegendrePl P) (hN : 1 ≤ N) (hN3 : N ≤ 3000) (hs : s ≠ 0)
    (Z : LocalZone (C s * Spec.legendre N) (N * (N + 1)) ((N : ℝ) + 1/2) r d) (hwide : 9/4 ≤ ((N : ℝ) + 1/2) ^ 2 * (1 - r ^ 2)) (x : ℝ) (hx : |x - r| ≤ d) :
    ∃ z, newtonRoot P N 100 x = some z ∧ |z - r| ≤ d ∧ |z - r| * (1 - r ^ 2) ≤ 9e-18 := by
  have hf : 10 ≤ 0 + 100 := by norm_num
  generalize 100 = K at *
  obtain ⟨z, h1, h2, h3⟩ := newtonRoot_run hP hN hs Z K 0 x hx (by have := Z.d0; rw [pow_zero, pow_one, mul_comm d]; exact mul_le_mul_of_nonneg_left hx (by norm_num))
  refine ⟨z, h1, h2, ?_⟩
  have hW := Z.W0
  have hW1 : 1 - r ^ 2 ≤ 1 := by have := sq_nonneg r; linarith
  have hd1 : d ≤ 1/8 := by have := Z.near; linarith
  have hMle : (N : ℝ) + 1/2 ≤ 3001 := by
    have : (N : ℝ) ≤ 3000 := by exact_mod_cast hN3
    linarith
  have hM0 : (0 : ℝ) < (N : ℝ) + 1/2 := by positivity
  have hMsq : ((N : ℝ) + 1/2) ^ 2 ≤ 9006001 := (pow_le_pow_left₀ hM0.le hMle 2).trans (by norm_num)
  have hWlow : (24/100000000 : ℝ) ≤ 1 - r ^ 2 := by
    have := mul_le_mul_of_nonneg_right hMsq hW.le
    linarith
  have e0 := abs_nonneg (z - r)
  rcases h3 with h3 | ⟨x0, hx0, ht, hz⟩
  · have h4 := mul_le_mul hd1 (pow_tower _ hf) (by positivity) (by norm_num)
    generalize (7/8 : ℝ) ^ (2 ^ (0 + K)) = T at *
    have h5 := mul_le_mul_of_nonneg_left hW1 e0
    norm_num at h4 ⊢
    linarith
  · obtain ⟨-, -, a3, -, a5⟩ := local_leg hs Z x0 hx0
    rw [← hz] at a3 a5
    have f0 := abs_nonneg (x0 - r)
    rcases ht with ht | ht
    · have hz1 : |z| ≤ 1 := (Z.range z h2).2.2.1
      have ht1 : |z - x0| ≤ 1e-9 := by
        have := mul_le_mul_of_nonneg_left hz1 (show (0 : ℝ) ≤ 1e-9 by norm_num)
        linarith
      have htri : |x0 - r| ≤ |z - x0| + |z - r| := by
        have := abs_sub_le x0 z r
        rwa [abs_sub_comm x0 z] at this
      have hc : |x0 - r| ≤ 8e-9 := by norm_num at ht1 ⊢; linarith
      generalize |x0 - r| = e at *
      generalize |z - r| = f at *
      have hMe : ((N : ℝ) + 1/2) ^ 2 * e ≤ 73/1000 := by
        have := mul_le_mul hMsq hc f0 (by norm_num)
        norm_num at this ⊢
        linarith
      rw [le_div_iff₀ hW] at a3
      have h6 : f * (1 - r ^ 2) ≤ 571/100 * e ^ 2 := by
        have := mul_le_mul_of_nonneg_left (show 2 + ((N : ℝ) + 1/2) ^ 2 * e ≤ 2073/1000 by linarith) (sq_nonneg e)
        nlinarith
      have h7 : f ≤ 1/5 * e := by
        have h8 : 571/100 * e ^ 2 ≤ 1/5 * e * (1 - r ^ 2) := by
          have : 571/100 * e ≤ 1/5 * (1 - r ^ 2) := by norm_num at hc; linarith
          nlinarith
        exact le_of_mul_le_mul_right (h6.trans h8) hW
      have h9 : e ≤ 1.25e-9 := by norm_num at ht1 ⊢; linarith
      have h10 := pow_le_pow_left₀ f0 h9 2
      norm_num at h10 ⊢
      linarith
    · subst ht
      have : |z - r| = 0 := by linarith
      rw [this, zero_mul]
      norm_num
end
end TicTac
