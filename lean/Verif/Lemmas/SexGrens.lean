import Verif.Lemmas.SexCallLem
import Mathlib.Analysis.SpecialFunctions.Log.Deriv
import Mathlib.Analysis.Convex.SpecificFunctions.Basic
import Mathlib.Analysis.SpecialFunctions.Exponential
/-! `GRENS` nearly solves `w log w = x`. -/
noncomputable section
namespace TicTac
open Set

/-- `log` from below, sharp to third order. -/
theorem log_pade {u : ℝ} (hu : 1 ≤ u) : 2 * (u - 1) / (u + 1) ≤ Real.log u := by
  have h := Real.le_log_one_add_of_nonneg (x := u - 1) (by linarith)
  rw [show 1 + (u - 1) = u by ring, show u - 1 + 2 = u + 1 by ring] at h
  exact h

/-- The power pieces. -/
theorem pow_piece {p q v0 v1 v : ℝ} (hp : p + q = 1) (h0 : 1 < v0) (hv0 : v0 ≤ v) (hv1 : v ≤ v1) (e0 : 0.99 * v0 ^ q ≤ p * Real.log v0 - 2e-4) (e1 : 0.99 * v1 ^ q ≤ p * Real.log v1 - 2e-4) :
    0.99 * v ≤ v ^ p * (Real.log (v ^ p) - 2e-4) := by
  have p0 : 0 < v0 := by linarith
  have pv : 0 < v := by linarith
  have p1 : 0 < v1 := by linarith
  have l0 : Real.log v0 ≤ Real.log v := Real.log_le_log p0 hv0
  have l1 : Real.log v ≤ Real.log v1 := Real.log_le_log pv hv1
  have key : 0.99 * v ^ q ≤ p * Real.log v - 2e-4 := by
    obtain ⟨a, b, ha, hb, hab, hs⟩ : ∃ a b : ℝ, 0 ≤ a ∧ 0 ≤ b ∧ a + b = 1 ∧ a * Real.log v0 + b * Real.log v1 = Real.log v := by
      have hseg : Real.log v ∈ segment ℝ (Real.log v0) (Real.log v1) := by
        rw [segment_eq_Icc (l0.trans l1)]; exact ⟨l0, l1⟩
      obtain ⟨a, b, ha, hb, hab, hs⟩ := hseg
      exact ⟨a, b, ha, hb, hab, by simpa [smul_eq_mul] using hs⟩
    have hc := convexOn_exp.2 (mem_univ (Real.log v0 * q)) (mem_univ (Real.log v1 * q)) ha hb hab
    simp only [smul_eq_mul] at hc
    rw [← Real.rpow_def_of_pos p0, ← Real.rpow_def_of_pos p1, show a * (Real.log v0 * q) + b * (Real.log v1 * q) = Real.log v * q by rw [← hs]; ring, ← Real.rpow_def_of_pos pv] at hc
    have i0 := mul_le_mul_of_nonneg_left e0 ha
    have i1 := mul_le_mul_of_nonneg_left e1 hb
    rw [← hs]
    have : (2e-4 : ℝ) = a * 2e-4 + b * 2e-4 := by rw [← add_mul, hab, one_mul]
    nlinarith
  rw [Real.log_rpow pv]
  have hvv : v = v ^ p * v ^ q := by rw [← Real.rpow_add pv, hp, Real.rpow_one]
  have vp : 0 < v ^ p := Real.rpow_pos_of_pos pv p
  calc 0.99 * v = v ^ p * (0.99 * v ^ q) := by
        conv_lhs => rw [hvv]
        ring
    _ ≤ _ := mul_le_mul_of_nonneg_left key vp.le

/-- A bound of `v^q` by exact powers. -/
theorem rpow_le_of {v c : ℝ} (hv : 0 < v) (hc : 0 < c) (a b : Nat) (hb : b ≠ 0) {q : ℝ} (hq : q = a / b) (h : v ^ a ≤ c ^ b) : v ^ q ≤ c := by
  have e : (v ^ q) ^ b = v ^ a := by
    rw [← Real.rpow_natCast (v ^ q), ← Real.rpow_mul hv.le, hq, div_mul_cancel₀ _ (by exact_mod_cast hb), Real.rpow_natCast]
  have := Real.rpow_pos_of_pos hv q
  by_contra hcon
  have : c ^ b < (v ^ q) ^ b := pow_lt_pow_left₀ (not_le.1 hcon) hc.le hb
  rw [e] at this
  linarith

theorem ln2 : (0.69314 : ℝ) < Real.log 2 := by linarith [Real.log_two_gt_d9]

set_option exponentiation.threshold 3000 in
theorem le_log_of {v : ℝ} {c : ℝ} (a b : Nat) (hb : b ≠ 0) (hv : 0 < v) (hc : c = 0.69314 * (a / b)) (h : (2 : ℝ) ^ a ≤ v ^ b) : c ≤ Real.log v := by
  have h1 := Real.log_le_log (by positivity) h
  rw [Real.log_pow, Real.log_pow] at h1
  have b0 : (0 : ℝ) < b := by exact_mod_cast Nat.pos_of_ne_zero hb
  rw [hc, mul_div_assoc', div_le_iff₀ b0]
  have := mul_le_mul_of_nonneg_right ln2.le (Nat.cast_nonneg (α := ℝ) a)
  linarith


set_option exponentiation.threshold 3000 in
theorem grens_piece0 {v : ℝ} (h0 : 23 ≤ v) (h1 : v ≤ 460) : 0.99 * v ≤ v ^ (0.751 : ℝ) * (Real.log (v ^ (0.751 : ℝ)) - 2e-4) := by
  have l0 : (0.69314 : ℝ) * ((90 : Nat) / (20 : Nat)) ≤ Real.log 23 := le_log_of 90 20 (by norm_num) (by norm_num) rfl (by norm_num)
  have r0 : (23 : ℝ) ^ (0.249 : ℝ) ≤ 2.2 := rpow_le_of (by norm_num) (by norm_num) 249 1000 (by norm_num) (by norm_num) (by norm_num)
  have l1 : (0.69314 : ℝ) * ((176 : Nat) / (20 : Nat)) ≤ Real.log 460 := le_log_of 176 20 (by norm_num) (by norm_num) rfl (by norm_num)
  have r1 : (460 : ℝ) ^ (0.249 : ℝ) ≤ 4.61 := rpow_le_of (by norm_num) (by norm_num) 249 1000 (by norm_num) (by norm_num) (by norm_num)
  refine pow_piece (q := 0.249) (by norm_num) (by norm_num) h0 h1 ?_ ?_
  · norm_num at l0 ⊢; linarith
  · norm_num at l1 ⊢; linarith

set_option exponentiation.threshold 3000 in
theorem grens_piece1 {v : ℝ} (h0 : 460 ≤ v) (h1 : v ≤ 6900) : 0.99 * v ≤ v ^ (0.781 : ℝ) * (Real.log (v ^ (0.781 : ℝ)) - 2e-4) := by
  have l0 : (0.69314 : ℝ) * ((176 : Nat) / (20 : Nat)) ≤ Real.log 460 := le_log_of 176 20 (by norm_num) (by norm_num) rfl (by norm_num)
  have r0 : (460 : ℝ) ^ (0.219 : ℝ) ≤ 3.9 := rpow_le_of (by norm_num) (by norm_num) 219 1000 (by norm_num) (by norm_num) (by norm_num)
  have l1 : (0.69314 : ℝ) * ((255 : Nat) / (20 : Nat)) ≤ Real.log 6900 := le_log_of 255 20 (by norm_num) (by norm_num) rfl (by norm_num)
  have r1 : (6900 : ℝ) ^ (0.219 : ℝ) ≤ 6.94 := rpow_le_of (by norm_num) (by norm_num) 219 1000 (by norm_num) (by norm_num) (by norm_num)
  refine pow_piece (q := 0.219) (by norm_num) (by norm_num) h0 h1 ?_ ?_
  · norm_num at l0 ⊢; linarith
  · norm_num at l1 ⊢; linarith

set_option exponentiation.threshold 3000 in
theorem grens_piece2 {v : ℝ} (h0 : 6900 ≤ v) (h1 : v ≤ 90000) : 0.99 * v ≤ v ^ (0.806 : ℝ) * (Real.log (v ^ (0.806 : ℝ)) - 2e-4) := by
  have l0 : (0.69314 : ℝ) * ((255 : Nat) / (20 : Nat)) ≤ Real.log 6900 := le_log_of 255 20 (by norm_num) (by norm_num) rfl (by norm_num)
  have r0 : (6900 : ℝ) ^ (0.194 : ℝ) ≤ 5.7 := rpow_le_of (by norm_num) (by norm_num) 194 1000 (by norm_num) (by norm_num) (by norm_num)
  have l1 : (0.69314 : ℝ) * ((329 : Nat) / (20 : Nat)) ≤ Real.log 90000 := le_log_of 329 20 (by norm_num) (by norm_num) rfl (by norm_num)
  have r1 : (90000 : ℝ) ^ (0.194 : ℝ) ≤ 9.16 := rpow_le_of (by norm_num) (by norm_num) 194 1000 (by norm_num) (by norm_num) (by norm_num)
  refine pow_piece (q := 0.194) (by norm_num) (by norm_num) h0 h1 ?_ ?_
  · norm_num at l0 ⊢; linarith
  · norm_num at l1 ⊢; linarith

set_option exponentiation.threshold 3000 in
theorem grens_piece3 {v : ℝ} (h0 : 90000 ≤ v) (h1 : v ≤ 1200000) : 0.99 * v ≤ v ^ (0.825 : ℝ) * (Real.log (v ^ (0.825 : ℝ)) - 2e-4) := by
  have l0 : (0.69314 : ℝ) * ((329 : Nat) / (20 : Nat)) ≤ Real.log 90000 := le_log_of 329 20 (by norm_num) (by norm_num) rfl (by norm_num)
  have r0 : (90000 : ℝ) ^ (0.175 : ℝ) ≤ 7.5 := rpow_le_of (by norm_num) (by norm_num) 175 1000 (by norm_num) (by norm_num) (by norm_num)
  have l1 : (0.69314 : ℝ) * ((403 : Nat) / (20 : Nat)) ≤ Real.log 1200000 := le_log_of 403 20 (by norm_num) (by norm_num) rfl (by norm_num)
  have r1 : (1200000 : ℝ) ^ (0.175 : ℝ) ≤ 11.6 := rpow_le_of (by norm_num) (by norm_num) 175 1000 (by norm_num) (by norm_num) (by norm_num)
  refine pow_piece (q := 0.175) (by norm_num) (by norm_num) h0 h1 ?_ ?_
  · norm_num at l0 ⊢; linarith
  · norm_num at l1 ⊢; linarith

/-- The quadratic piece, around `c`. -/
theorem quad_at {c L w : ℝ} (hc : 0 < c) (hL : L ≤ Real.log c) (h0 : c ≤ w)
    (hp : 0 ≤ (L - 2e-4) * (w + c) * (w * (1 + 0.1809910 * w)) + 2 * (w - c) * (w * (1 + 0.1809910 * w)) - 0.95 * (0.649227 * w ^ 2 - 0.0595734 * w - 0.589654) * (w + c)) :
    0.95 * (0.649227 * w ^ 2 - 0.0595734 * w - 0.589654) ≤ w * (Real.log w - 2e-4) * (1 + 0.1809910 * w) := by
  have hw : 0 < w := by linarith
  have h1 := log_pade (u := w / c) (by rw [le_div_iff₀ hc]; linarith)
  rw [Real.log_div hw.ne' hc.ne', show 2 * (w / c - 1) / (w / c + 1) = 2 * (w - c) / (w + c) by field_simp] at h1
  have h2 : L + 2 * (w - c) / (w + c) ≤ Real.log w := by linarith
  have h3 : (L - 2e-4 + 2 * (w - c) / (w + c)) * (w * (1 + 0.1809910 * w)) ≤ w * (Real.log w - 2e-4) * (1 + 0.1809910 * w) := by
    have := mul_le_mul_of_nonneg_right (show L - 2e-4 + 2 * (w - c) / (w + c) ≤ Real.log w - 2e-4 by linarith) (show 0 ≤ w * (1 + 0.1809910 * w) by positivity)
    linarith
  refine le_trans ?_ h3
  rw [show L - 2e-4 + 2 * (w - c) / (w + c) = ((L - 2e-4) * (w + c) + 2 * (w - c)) / (w + c) by field_simp, div_mul_eq_mul_div, le_div_iff₀ (by linarith)]
  linarith

theorem quad_piece {w : ℝ} (h0 : 1.4 ≤ w) (h1 : w ≤ 12) :
    0.95 * (0.649227 * w ^ 2 - 0.0595734 * w - 0.589654) ≤ w * (Real.log w - 2e-4) * (1 + 0.1809910 * w) := by
  have l2 := ln2
  have l4 : Real.log 4 = 2 * Real.log 2 := by rw [show (4 : ℝ) = 2 ^ 2 by norm_num, Real.log_pow]; norm_num
  have l8 : Real.log 8 = 3 * Real.log 2 := by rw [show (8 : ℝ) = 2 ^ 3 by norm_num, Real.log_pow]; norm_num
  rcases le_total w 2 with a | a
  · refine quad_at (c := 1) (L := 0) (by norm_num) (by simp) (by linarith) ?_
    have p1 := mul_nonneg (sub_nonneg.2 h0) (sub_nonneg.2 a)
    have p2 := mul_nonneg p1 (sub_nonneg.2 h0)
    have p3 := mul_nonneg p1 (sub_nonneg.2 a)
    nlinarith
  rcases le_total w 4 with b | b
  · refine quad_at (c := 2) (L := 0.69314) (by norm_num) l2.le (by linarith) ?_
    have p1 := mul_nonneg (sub_nonneg.2 a) (sub_nonneg.2 b)
    have p2 := mul_nonneg p1 (sub_nonneg.2 a)
    have p3 := mul_nonneg p1 (sub_nonneg.2 b)
    nlinarith
  rcases le_total w 8 with d | d
  · refine quad_at (c := 4) (L := 2 * 0.69314) (by norm_num) (by linarith) (by linarith) ?_
    have p1 := mul_nonneg (sub_nonneg.2 b) (sub_nonneg.2 d)
    have p2 := mul_nonneg p1 (sub_nonneg.2 b)
    have p3 := mul_nonneg p1 (sub_nonneg.2 d)
    nlinarith
  · refine quad_at (c := 8) (L := 3 * 0.69314) (by norm_num) (by linarith) (by linarith) ?_
    have p1 := mul_nonneg (sub_nonneg.2 d) (sub_nonneg.2 h1)
    have p2 := mul_nonneg p1 (sub_nonneg.2 d)
    have p3 := mul_nonneg p1 (sub_nonneg.2 h1)
    nlinarith

/-- `GRENS` where the start of the recursion uses it. -/
theorem grens_small {v : ℝ} (h0 : 0.5 ≤ v) (h1 : v ≤ 23) : 1.4 ≤ sexGrens v ∧ sexGrens v ≤ 12 ∧ 0.95 * v ≤ sexGrens v * (Real.log (sexGrens v) - 2e-4) := by
  unfold sexGrens
  rw [if_neg (by norm_num at *; linarith), if_neg (by norm_num at *; linarith), if_neg (by norm_num at *; linarith), if_neg (by norm_num at *; linarith), if_neg (by norm_num at *; linarith)]
  have hD : 0 ≤ (-0.0595734 - v * 0.1809910) ^ 2 - 4 * 0.649227 * (-0.589654 - v) := by nlinarith [sq_nonneg (-0.0595734 - v * 0.1809910)]
  have hs := Real.sq_sqrt hD
  have hs0 := Real.sqrt_nonneg ((-0.0595734 - v * 0.1809910) ^ 2 - 4 * 0.649227 * (-0.589654 - v))
  set r := Real.sqrt ((-0.0595734 - v * 0.1809910) ^ 2 - 4 * 0.649227 * (-0.589654 - v))
  set w := (v * 0.1809910 - -0.0595734 + r) / 2 / 0.649227 with hw
  have hr : r = 2 * 0.649227 * w - (v * 0.1809910 + 0.0595734) := by rw [hw]; ring
  have hq : v * (1 + 0.1809910 * w) = 0.649227 * w ^ 2 - 0.0595734 * w - 0.589654 := by
    rw [hr] at hs
    nlinarith
  have w0 : 0 < w := by rw [hw]; have : 0 < v * 0.1809910 - -0.0595734 + r := by linarith
                        positivity
  have w1 : 1.4 ≤ w := by
    by_contra h
    have h := not_le.1 h
    nlinarith
  have w2 : w ≤ 12 := by
    by_contra h
    have h := not_le.1 h
    nlinarith
  refine ⟨w1, w2, ?_⟩
  have h := quad_piece w1 w2
  rw [← hq] at h
  have pos : 0 < 1 + 0.1809910 * w := by positivity
  have : 0.95 * v * (1 + 0.1809910 * w) ≤ w * (Real.log w - 2e-4) * (1 + 0.1809910 * w) := by linarith
  exact le_of_mul_le_mul_right this pos

theorem grens_big {v : ℝ} (h0 : 23 < v) (h1 : v ≤ 1200000) : 1.4 ≤ sexGrens v ∧ sexGrens v ≤ v ∧ 0.99 * v ≤ sexGrens v * (Real.log (sexGrens v) - 2e-4) := by
  have pw : ∀ p : ℝ, 0.751 ≤ p → p ≤ 1 → 1.4 ≤ v ^ p ∧ v ^ p ≤ v := by
    intro p p1 p2
    constructor
    · have a := Real.rpow_le_rpow_of_exponent_le (show (1 : ℝ) ≤ v by linarith) (show (1 / 2 : ℝ) ≤ p by linarith)
      have b : (1.4 : ℝ) ≤ v ^ (1 / 2 : ℝ) := by
        rw [← Real.sqrt_eq_rpow]
        exact Real.le_sqrt_of_sq_le (by norm_num; linarith)
      linarith
    · have a := Real.rpow_le_rpow_of_exponent_le (show (1 : ℝ) ≤ v by linarith) p2
      rwa [Real.rpow_one] at a
  unfold sexGrens
  rw [if_neg (by norm_num at *; linarith)]
  by_cases a : 9e4 < v
  · rw [if_pos a]
    exact ⟨(pw _ (by norm_num) (by norm_num)).1, (pw _ (by norm_num) (by norm_num)).2, grens_piece3 (by norm_num at a; linarith) h1⟩
  rw [if_neg a]
  by_cases b : 6900 < v
  · rw [if_pos b]
    exact ⟨(pw _ (by norm_num) (by norm_num)).1, (pw _ (by norm_num) (by norm_num)).2, grens_piece2 b.le (by norm_num at a; linarith)⟩
  rw [if_neg b]
  by_cases d : 460 < v
  · rw [if_pos d]
    exact ⟨(pw _ (by norm_num) (by norm_num)).1, (pw _ (by norm_num) (by norm_num)).2, grens_piece1 d.le (not_lt.1 b)⟩
  rw [if_neg d, if_pos h0]
  exact ⟨(pw _ (by norm_num) (by norm_num)).1, (pw _ (by norm_num) (by norm_num)).2, grens_piece0 h0.le (not_lt.1 d)⟩

end TicTac
end
