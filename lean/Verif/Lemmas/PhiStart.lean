import Verif.Lemmas.NewtonLocal
import Verif.Model.PhiMesh
/-! The start values of the phi mesh lie in the zone of Newton convergence. -/
noncomputable section
namespace TicTac
open Set Polynomial

theorem cos_dist (x y : ℝ) (hx : 0 ≤ x) (hx2 : x ≤ Real.pi / 2) : |Real.cos (x + y) - Real.cos x| ≤ (Real.sin x + |y|) * |y| := by
  rw [Real.cos_sub_cos, show (x + y + x) / 2 = x + y / 2 by ring, show (x + y - x) / 2 = y / 2 by ring, abs_mul, abs_mul]
  have h1 : |Real.sin (y / 2)| ≤ |y| / 2 := by
    have := Real.abs_sin_le_abs (x := y / 2)
    rwa [abs_div, abs_two] at this
  have h2 : |Real.sin (x + y / 2)| ≤ Real.sin x + |y| := by
    rw [Real.sin_add]
    have hs : 0 ≤ Real.sin x := Real.sin_nonneg_of_nonneg_of_le_pi hx (by linarith [Real.pi_pos])
    refine (abs_add_le _ _).trans ?_
    rw [abs_mul, abs_mul, abs_of_nonneg hs]
    have i1 := mul_le_mul_of_nonneg_left (Real.abs_cos_le_one (y / 2)) hs
    have i2 := mul_le_mul (Real.abs_cos_le_one x) h1 (abs_nonneg _) zero_le_one
    have := abs_nonneg y
    linarith
  rw [abs_neg, abs_two]
  have := mul_le_mul h2 h1 (abs_nonneg _) (le_trans (abs_nonneg _) h2)
  linarith

/-- The angle of the exact start value is not too small. -/
theorem start_big (N i : Nat) (h1 : 1 ≤ i) (h2 : 2 * i < N + 1) :
    ∃ a, a = ((i : ℝ) - 1/4) * (Real.pi / ((N : ℝ) + 1/2)) ∧ 0 < a ∧ a < Real.pi / 2 ∧ 431/100 ≤ ((N : ℝ) + 1/2) ^ 2 * a * Real.sin a ∧
      3/2 ≤ ((N : ℝ) + 1/2) * Real.sin a := by
  refine ⟨_, rfl, ?_⟩
  have hM0 : (0 : ℝ) < (N : ℝ) + 1/2 := by positivity
  have hhp := LegZeros.step_pos N
  have hmul := LegZeros.step_mul N
  have hir : (1 : ℝ) ≤ i := by exact_mod_cast h1
  have hiN : 2 * (i : ℝ) + 1 ≤ N + 1 := by exact_mod_cast h2
  have hMpi : ((N : ℝ) + 1/2) * (((i : ℝ) - 1/4) * (Real.pi / ((N : ℝ) + 1/2))) = ((i : ℝ) - 1/4) * Real.pi := by rw [mul_left_comm, hmul]
  set M := (N : ℝ) + 1/2 with hM
  set h := Real.pi / M with hh
  set a := ((i : ℝ) - 1/4) * h with ha
  have hpi := Real.pi_pos
  have hp3 := Real.pi_gt_d6
  have hp4 := Real.pi_lt_d6
  have ha0 : 0 < a := mul_pos (by linarith) hhp
  have ha2 : a < Real.pi / 2 := by
    have : a ≤ (M / 2 - 1/2) * h := mul_le_mul_of_nonneg_right (by rw [hM]; linarith) hhp.le
    linarith
  have hJ := Real.mul_le_sin ha0.le ha2.le
  have hJ2 : M * (2 / Real.pi * a) = 2 * ((i : ℝ) - 1/4) := by
    rw [show M * (2 / Real.pi * a) = 2 / Real.pi * (M * a) by ring, hMpi]; field_simp
  refine ⟨ha0, ha2, ?_, ?_⟩
  · rcases Nat.eq_or_lt_of_le h1 with hi | hi
    · -- first root
      have hi1 : (i : ℝ) = 1 := by exact_mod_cast hi.symm
      rw [hi1] at hMpi
      have hN2 : (2 : ℝ) ≤ N := by exact_mod_cast (show 2 ≤ N by omega)
      have hMa : M * a = 3/4 * Real.pi := by rw [hMpi]; norm_num
      have hM5 : (5/2 : ℝ) ≤ M := by rw [hM]; linarith
      have haU : a ≤ 3/10 * Real.pi := by
        have := mul_le_mul_of_nonneg_right hM5 ha0.le
        linarith
      have ha1 : a ≤ 1 := by linarith
      have hsc := Real.sin_gt_sub_cube ha0
      have ha_sq : a ^ 2 ≤ 889/1000 := by
        have : a ≤ 9425/10000 := by linarith
        nlinarith
      have hs : 7777/10000 * a ≤ Real.sin a := by nlinarith
      have hMa2 : 555/100 ≤ (M * a) ^ 2 := by rw [hMa]; nlinarith
      have h3 := mul_le_mul_of_nonneg_left hs (show 0 ≤ M ^ 2 * a by positivity)
      nlinarith
    · have hi2 : (2 : ℝ) ≤ i := by exact_mod_cast hi
      have hMa : 7/4 * Real.pi ≤ M * a := by
        rw [hMpi]; exact mul_le_mul_of_nonneg_right (by linarith) hpi.le
      have h3 : 7/2 ≤ M * Real.sin a := by
        have := mul_le_mul_of_nonneg_left hJ hM0.le
        rw [hJ2] at this
        linarith
      have h4 := mul_le_mul (show (5 : ℝ) ≤ M * a by linarith) h3 (by norm_num) (by positivity)
      nlinarith
  · have := mul_le_mul_of_nonneg_left hJ hM0.le
    rw [hJ2] at this
    linarith

/-- Distance of a perturbed start value from the root, for a root in the right half. -/
theorem start_dist (N : Nat) (hN : N ≤ 3000) (th : Nat → ℝ) (Z : LegZeros N (Real.pi / ((N : ℝ) + 1/2)) th) (i : Nat) (h1 : 1 ≤ i) (h2 : 2 * i < N + 1)
    (y : ℝ) (hy : |y| ≤ 3e-6) :
    ∃ d, 0 < d ∧ d ≤ Real.sin (th i) ^ 2 / 8 ∧ ((N : ℝ) + 1/2) ^ 2 * d ^ 2 ≤ Real.sin (th i) ^ 2 / 15 ∧
      |Real.cos (((i : ℝ) - 1/4) * (Real.pi / ((N : ℝ) + 1/2)) + y) - Real.cos (th i)| ≤ d ∧ 9/4 ≤ ((N : ℝ) + 1/2) ^ 2 * Real.sin (th i) ^ 2 := by
  obtain ⟨a, ha, ha0, ha2, hbig, hsin⟩ := start_big N i h1 h2
  have hlow := Z.start_lt i h1 h2
  have hclose := Z.start_close i h1 h2
  have hhalf := Z.lt_half i h1 h2
  have hm := Z.mem i h1 (by omega)
  rw [← ha] at hlow hclose ⊢
  have hM0 : (0 : ℝ) < (N : ℝ) + 1/2 := by positivity
  have hMle : (N : ℝ) + 1/2 ≤ 3001 := by
    have : (N : ℝ) ≤ 3000 := by exact_mod_cast hN
    linarith
  set M := (N : ℝ) + 1/2 with hM
  clear_value M
  have hpi := Real.pi_pos
  have hst0 : 0 < Real.sin (th i) := Real.sin_pos_of_pos_of_lt_pi hm.1 hm.2
  have hsa0 : 0 < Real.sin a := Real.sin_pos_of_pos_of_lt_pi ha0 (by linarith)
  have hsle : Real.sin a ≤ Real.sin (th i) := Real.sin_le_sin_of_le_of_le_pi_div_two (by linarith) hhalf.le hlow.le
  have hct0 : 0 < Real.cos (th i) := Real.cos_pos_of_mem_Ioo ⟨by linarith, hhalf⟩
  have hcle : Real.cos (th i) ≤ Real.cos a := Real.cos_le_cos_of_nonneg_of_le_pi ha0.le hm.2.le hlow.le
  -- the exact start value
  have hD1 : |Real.cos a - Real.cos (th i)| ≤ Real.cos (th i) / (2 * M ^ 2) := by
    rw [abs_of_nonneg (by linarith)]
    have hmv : Real.cos a - Real.cos (th i) ≤ (th i - a) * Real.sin (th i) := by
      rw [Real.cos_sub_cos]
      have e1 : Real.sin ((a + th i) / 2) ≤ Real.sin (th i) := Real.sin_le_sin_of_le_of_le_pi_div_two (by linarith) hhalf.le (by linarith)
      have e2 : Real.sin ((a - th i) / 2) = -Real.sin ((th i - a) / 2) := by rw [← Real.sin_neg]; congr 1; ring
      have e3 : Real.sin ((th i - a) / 2) ≤ (th i - a) / 2 := Real.sin_le (by linarith)
      have := mul_le_mul e1 e3 (Real.sin_nonneg_of_nonneg_of_le_pi (by linarith) (by linarith)) hst0.le
      rw [e2]
      linarith
    have h3 := mul_le_mul_of_nonneg_right hclose hst0.le
    have e : 1 / (2 * M ^ 2) * (Real.cos (th i) / Real.sin (th i)) * Real.sin (th i) = Real.cos (th i) / (2 * M ^ 2) := by
      field_simp
    rw [e] at h3
    exact hmv.trans h3
  set c := Real.cos (th i) with hc
  set S := Real.sin a with hS
  set D1 := c / (2 * M ^ 2) with hD1d
  have hc1 : a * c ≤ S := by
    have := LegZeros.mul_cos_le_sin a ha0 ha2
    have := mul_le_mul_of_nonneg_left hcle ha0.le
    linarith
  have hD1a : D1 ≤ 1161/10000 * S ^ 2 := by
    rw [hD1d, div_le_iff₀ (by positivity)]
    have h3 : a * c ≤ a * (1161/10000 * S ^ 2 * (2 * M ^ 2)) := by
      have := mul_le_mul_of_nonneg_left hbig (show 0 ≤ S by exact hsa0.le)
      nlinarith
    exact le_of_mul_le_mul_left h3 ha0
  have hD1b : M ^ 2 * D1 ≤ 1/2 := by
    have : M ^ 2 * D1 = c / 2 := by rw [hD1d]; field_simp
    rw [this]
    have := Real.cos_le_one (th i)
    linarith
  have hD10 : 0 < D1 := by rw [hD1d]; positivity
  -- the perturbation
  have hyS : |y| ≤ 601/100000 * S := by
    have : (3/2 : ℝ) ≤ 3001 * S := hsin.trans (mul_le_mul_of_nonneg_right hMle hsa0.le)
    norm_num at hy
    linarith
  have hyM : M * |y| ≤ 91/10000 := by
    have := mul_le_mul hMle hy (abs_nonneg y) (by norm_num)
    norm_num at this ⊢
    linarith
  have hy0 := abs_nonneg y
  have hpert := cos_dist a y ha0.le ha2.le
  rw [← hS] at hpert
  set D2 := (S + |y|) * |y| with hD2
  have hD20 : 0 ≤ D2 := by positivity
  have hD2a : D2 ≤ 605/100000 * S ^ 2 := by
    have : D2 ≤ (S + 601/100000 * S) * (601/100000 * S) := mul_le_mul (by linarith) hyS hy0 (by positivity)
    nlinarith
  have hD2b : M * D2 ≤ 92/10000 * S := by
    have : M * D2 = (S + |y|) * (M * |y|) := by rw [hD2]; ring
    rw [this]
    have := mul_le_mul (show S + |y| ≤ 100601/100000 * S by linarith) hyM (by positivity) (by positivity)
    linarith
  have hD1c : M * D1 ≤ 241/1000 * S := by
    refine le_of_sq_le_sq ?_ (by positivity)
    have : (M * D1) ^ 2 = M ^ 2 * D1 * D1 := by ring
    rw [this]
    have := mul_le_mul hD1b hD1a hD10.le (by norm_num)
    have := sq_nonneg S
    nlinarith
  have hS2 : S ^ 2 ≤ Real.sin (th i) ^ 2 := pow_le_pow_left₀ hsa0.le hsle 2
  refine ⟨D1 + D2, by linarith, ?_, ?_, ?_, ?_⟩
  · linarith [sq_nonneg S]
  · have h3 : M * (D1 + D2) ≤ 251/1000 * S := by rw [mul_add]; linarith
    have h4 := pow_le_pow_left₀ (show 0 ≤ M * (D1 + D2) by positivity) h3 2
    rw [mul_pow, mul_pow] at h4
    have h5 : (251/1000 : ℝ) ^ 2 * S ^ 2 ≤ 1/15 * S ^ 2 := mul_le_mul_of_nonneg_right (by norm_num) (sq_nonneg S)
    linarith
  · have := abs_sub_le (Real.cos (a + y)) (Real.cos a) c
    linarith
  · have h3 := pow_le_pow_left₀ (by norm_num) hsin 2
    have h4 := mul_le_mul_of_nonneg_left hS2 (sq_nonneg M)
    rw [mul_pow] at h3
    norm_num at h3
    linarith
end TicTac
