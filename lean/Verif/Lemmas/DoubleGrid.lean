import Verif.Lemmas.DoubleSub
import Mathlib.Analysis.Real.Pi.Bounds
import Mathlib.Analysis.SpecialFunctions.Pow.Real
import Mathlib.Analysis.SpecialFunctions.Trigonometric.Bounds
/-! Rounding in the Chebyshev grid. -/
noncomputable section
namespace TicTac
open Spec

theorem pow_u_upper (n : Nat) : (1 - ulpHalf) ^ n ≤ 1 - n * ulpHalf + (n * ulpHalf) ^ 2 := by
  have hu := u_pos
  have hu1 := one_sub_u_pos
  induction n with
  | zero => simp
  | succ m ih =>
    rw [pow_succ]
    refine (mul_le_mul_of_nonneg_right ih hu1.le).trans ?_
    push_cast
    have h2 : (0 : ℝ) ≤ m ^ 2 * ulpHalf ^ 3 := by positivity
    have h3 : (0 : ℝ) ≤ m * ulpHalf ^ 2 := by positivity
    nlinarith [h2, h3, sq_nonneg ulpHalf]

theorem close_of_err {n : Nat} {x X : ℝ} (hX : 0 < X) (hn : (n : ℝ) * ulpHalf ≤ 1 / 100) (h : |x - X| ≤ 0.99 * (n * ulpHalf) * X) : Close n x X := by
  have hu := u_pos
  have hp := pow_u_upper n
  have hpp := pow_u_pos n
  have hb := abs_le.1 h
  have h0 : (0 : ℝ) ≤ n * ulpHalf := by positivity
  generalize (n : ℝ) * ulpHalf = y at *
  have hlow : (1 - ulpHalf) ^ n ≤ 1 - 0.99 * y := by
    refine hp.trans ?_
    have : y ^ 2 ≤ 0.01 * y := by rw [sq]; exact mul_le_mul_of_nonneg_right (by norm_num; linarith) h0
    norm_num at this ⊢
    linarith
  refine ⟨hX, ?_, ?_⟩
  · have := mul_le_mul_of_nonneg_left hlow hX.le
    linarith [hb.1]
  · have h1 : x ≤ X * (1 + 0.99 * y) := by linarith [hb.2]
    calc x * (1 - ulpHalf) ^ n ≤ X * (1 + 0.99 * y) * (1 - ulpHalf) ^ n := mul_le_mul_of_nonneg_right h1 hpp.le
      _ ≤ X * (1 + 0.99 * y) * (1 - 0.99 * y) := mul_le_mul_of_nonneg_left hlow (by positivity)
      _ = X * (1 - (0.99 * y) ^ 2) := by ring
      _ ≤ X := mul_le_of_le_one_right hX.le (by have := sq_nonneg (0.99 * y); linarith)

/-- Relative error of many roundings. -/
theorem Close.rel_many {k : Nat} {x X : ℝ} (hk : (k : ℝ) * ulpHalf ≤ 1 / 1000) (h : Close k x X) : |x - X| ≤ 1.01 * (k * ulpHalf) * X := by
  have hu := u_pos
  have hg := pow_u_ge k
  have hX := h.1
  have hx := h.pos
  have h1 := (mul_le_mul_of_nonneg_left hg hX.le).trans h.2.1
  have h2 := (mul_le_mul_of_nonneg_left hg hx.le).trans h.2.2
  have h0 : (0 : ℝ) ≤ k * ulpHalf := by positivity
  generalize (k : ℝ) * ulpHalf = y at *
  have hyX : 0 ≤ y * X := mul_nonneg h0 hX.le
  rw [abs_le]
  constructor
  · linarith
  · have h3 : x * (1 - 1 / 1000) ≤ X := le_trans (mul_le_mul_of_nonneg_left (by linarith) hx.le) h2
    have h4 : x ≤ 1.01 * X := by norm_num at h3 ⊢; linarith
    have h5 : x * y ≤ 1.01 * X * y := mul_le_mul_of_nonneg_right h4 h0
    linarith

theorem Close.rpow {k : Nat} {x X : ℝ} (h : Close k x X) {t : ℝ} (ht : 0 ≤ t) : Close (k * ⌈t⌉₊) (x ^ t) (X ^ t) := by
  have hx := h.pos
  have hX := h.1
  have hr := pow_u_pos k
  have key : (1 - ulpHalf) ^ (k * ⌈t⌉₊) ≤ ((1 - ulpHalf) ^ k) ^ t := by
    rw [pow_mul, ← Real.rpow_natCast ((1 - ulpHalf) ^ k)]
    exact Real.rpow_le_rpow_of_exponent_ge hr (pow_u_le_one k) (Nat.le_ceil t)
  refine ⟨Real.rpow_pos_of_pos hX t, ?_, ?_⟩
  · calc X ^ t * (1 - ulpHalf) ^ (k * ⌈t⌉₊) ≤ X ^ t * ((1 - ulpHalf) ^ k) ^ t := mul_le_mul_of_nonneg_left key (Real.rpow_pos_of_pos hX t).le
      _ = (X * (1 - ulpHalf) ^ k) ^ t := (Real.mul_rpow hX.le hr.le).symm
      _ ≤ x ^ t := Real.rpow_le_rpow (by positivity) h.2.1 ht
  · calc x ^ t * (1 - ulpHalf) ^ (k * ⌈t⌉₊) ≤ x ^ t * ((1 - ulpHalf) ^ k) ^ t := mul_le_mul_of_nonneg_left key (Real.rpow_pos_of_pos hx t).le
      _ = (x * (1 - ulpHalf) ^ k) ^ t := (Real.mul_rpow hx.le hr.le).symm
      _ ≤ X ^ t := Real.rpow_le_rpow (by positivity) h.2.2 ht

/-- An error of 2^-52 is at most three roundings. -/
theorem close_lib {v r : ℝ} (hv : 0 < v) (h : |r - v| ≤ (1 / 2 ^ 52) * v) : Close 3 r v := by
  refine close_of_err hv ?_ (h.trans ?_)
  · unfold ulpHalf; norm_num
  · refine mul_le_mul_of_nonneg_right ?_ hv.le
    unfold ulpHalf; norm_num

section
variable {F : Fpu} (hF : IEEE F)
include hF

/-- `M_PI` is π up to two roundings. -/
theorem dv_pi : Dv 2 1 F.mPi Real.pi := by
  have h1 := Real.pi_gt_d20
  have h2 := Real.pi_lt_d20
  have a : Dv 1 1 F.mPi (3.14159265358979323846 : ℝ) := Dv.lit hF (by constructor <;> norm_num) (by norm_num)
  have hp := Real.pi_pos
  have c : Close 1 (3.14159265358979323846 : ℝ) Real.pi := by
    refine close_of_rel hp ?_
    unfold ulpHalf
    rw [abs_le]
    norm_num at h1 h2 ⊢
    constructor <;> linarith
  refine ⟨a.1, a.2.1.trans c, ?_⟩
  have := Real.pi_gt_three
  have := Real.pi_lt_four
  constructor <;> norm_num <;> linarith

/-- The argument of the tangent. -/
theorem dv_theta {N i : Nat} (h1 : 1 ≤ i) (h2 : i ≤ N) (hN : N ≤ 10 ^ 6) :
    Dv 4 15 (F.div (F.mul (((2 * (i : ℤ) - 1 : ℤ) : ℝ)) F.mPi) ((4 * (N : ℤ) : ℤ) : ℝ)) ((2 * (i : ℝ) - 1) * Real.pi / (4 * N)) := by
  have e1 : ((2 * (i : ℤ) - 1 : ℤ) : ℝ) = ((2 * i - 1 : ℕ) : ℝ) := by
    rw [Nat.cast_sub (by omega)]; push_cast; ring
  have e2 : ((4 * (N : ℤ) : ℤ) : ℝ) = ((4 * N : ℕ) : ℝ) := by push_cast; ring
  have e3 : (2 * (i : ℝ) - 1) = ((2 * i - 1 : ℕ) : ℝ) := by rw [Nat.cast_sub (by omega)]; push_cast; ring
  have e4 : (4 * (N : ℝ)) = ((4 * N : ℕ) : ℝ) := by push_cast; ring
  rw [e1, e2, e3, e4]
  have di : ∀ n : ℕ, 1 ≤ n → n ≤ 10 ^ 7 → Dv 0 7 (n : ℝ) n := by
    intro n g1 g2
    refine Dv.nat (by omega) ⟨?_, by exact_mod_cast g2⟩
    have : (1 : ℝ) ≤ n := by exact_mod_cast g1
    norm_num; linarith
  exact Dv.div hF (Dv.mul hF (di _ (by omega) (by omega)) (dv_pi hF) (by norm_num) (by norm_num)) (di _ (by omega) (by omega)) (by norm_num) (by norm_num)

end

/-- What four roundings leave of the angle. -/
theorem theta_bounds {N i : Nat} (h1 : 1 ≤ i) (h2 : i ≤ N) (hN : N ≤ 10 ^ 6) {x : ℝ} (hx : Close 4 x ((2 * (i : ℝ) - 1) * Real.pi / (4 * N))) :
    |x - (2 * (i : ℝ) - 1) * Real.pi / (4 * N)| ≤ 4.01 * ulpHalf * ((2 * (i : ℝ) - 1) * Real.pi / (4 * N)) ∧ 0 < x ∧
    (2 * (i : ℝ) - 1) * Real.pi / (4 * N) ≤ Real.pi / 2 - Real.pi / (4 * N) ∧ Real.pi / (4 * N) * 0.99 ≤ Real.pi / 2 - x ∧ Real.pi / (4 * N) * 0.99 ≤ x := by
  have hp := Real.pi_pos
  have hi1 : (1 : ℝ) ≤ i := by exact_mod_cast h1
  have hi2 : (i : ℝ) ≤ N := by exact_mod_cast h2
  have hN' : (N : ℝ) ≤ 10 ^ 6 := by exact_mod_cast hN
  have hN0 : (0 : ℝ) < N := by linarith
  have hu := u_pos
  have hus := u_small
  have hr := hx.rel (by norm_num)
  have hx0 := hx.pos
  have hupper : (2 * (i : ℝ) - 1) * Real.pi / (4 * N) ≤ Real.pi / 2 - Real.pi / (4 * N) := by
    have : Real.pi / 2 - Real.pi / (4 * N) = (2 * (N : ℝ) - 1) * Real.pi / (4 * N) := by field_simp; ring
    rw [this]
    gcongr
  have hlower : Real.pi / (4 * N) ≤ (2 * (i : ℝ) - 1) * Real.pi / (4 * N) := by
    rw [mul_div_assoc]
    exact le_mul_of_one_le_left (by positivity) (by linarith)
  have hq : (1 : ℝ) / 10 ^ 6 * (Real.pi / 4) ≤ Real.pi / (4 * N) := by
    rw [show Real.pi / (4 * (N : ℝ)) = 1 / N * (Real.pi / 4) by field_simp]
    exact mul_le_mul_of_nonneg_right (one_div_le_one_div_of_le hN0 hN') (by positivity)
  generalize (2 * (i : ℝ) - 1) * Real.pi / (4 * N) = θ at *
  generalize Real.pi / (4 * (N : ℝ)) = g at *
  have hθ : 0 < θ := hx.1
  have e : |x - θ| ≤ 4.01 * ulpHalf * θ := by
    refine hr.trans (mul_le_mul_of_nonneg_right ?_ hθ.le)
    push_cast
    have : 1.001 * (4 : ℝ) ≤ 4.01 := by norm_num
    exact mul_le_mul_of_nonneg_right this hu.le
  have hg0 : 0 < g := lt_of_lt_of_le (by positivity) hq
  have hsmall : 4.01 * ulpHalf * θ ≤ g * 0.01 := by
    have a1 : θ ≤ 2 * (Real.pi / 4) := by linarith
    have a2 : 4.01 * ulpHalf * θ ≤ 4.01 * (1 / 10 ^ 15) * (2 * (Real.pi / 4)) := by gcongr
    have a3 : 4.01 * ((1 : ℝ) / 10 ^ 15) * (2 * (Real.pi / 4)) ≤ 1 / 10 ^ 6 * (Real.pi / 4) * 0.01 := by
      have : 0 < Real.pi / 4 := by positivity
      generalize Real.pi / 4 = z at *
      norm_num
      linarith
    exact a2.trans (a3.trans (mul_le_mul_of_nonneg_right hq (by norm_num)))
  have hb := abs_le.1 e
  refine ⟨e, hx0, hupper, ?_, ?_⟩ <;> norm_num at * <;> linarith [hb.1, hb.2]

theorem tan_sub_eq {x y : ℝ} (hx : Real.cos x ≠ 0) (hy : Real.cos y ≠ 0) : Real.tan y - Real.tan x = Real.sin (y - x) / (Real.cos x * Real.cos y) := by
  rw [Real.tan_eq_sin_div_cos, Real.tan_eq_sin_div_cos, Real.sin_sub]
  field_simp

/-- The tangent grows at least in proportion to `2/π` of its argument. -/
theorem tan_ratio {x y : ℝ} (hx : 0 < x) (hxy : x ≤ y) (hy : y < Real.pi / 2) : Real.tan x * (1 + 1 / 2 * ((y - x) / x)) ≤ Real.tan y := by
  have hp := Real.pi_pos
  have cx : 0 < Real.cos x := Real.cos_pos_of_mem_Ioo ⟨by linarith, by linarith⟩
  have cy : 0 < Real.cos y := Real.cos_pos_of_mem_Ioo ⟨by linarith, by linarith⟩
  have hs : Real.sin x ≤ x := Real.sin_le hx.le
  have hd : 2 / Real.pi * (y - x) ≤ Real.sin (y - x) := Real.mul_le_sin (by linarith) (by linarith)
  have hc1 : Real.cos y ≤ 1 := Real.cos_le_one y
  have h1 := tan_sub_eq cx.ne' cy.ne'
  have hd2 : 1 / 2 * (y - x) ≤ Real.sin (y - x) := by
    refine le_trans (mul_le_mul_of_nonneg_right ?_ (by linarith)) hd
    rw [div_le_div_iff₀ (by norm_num) hp]
    linarith [Real.pi_lt_four]
  have : Real.tan x * (1 / 2 * ((y - x) / x)) ≤ Real.sin (y - x) / (Real.cos x * Real.cos y) := by
    rw [Real.tan_eq_sin_div_cos]
    have e : Real.sin x / Real.cos x * (1 / 2 * ((y - x) / x)) = (Real.sin x / x) * (1 / 2 * (y - x)) / Real.cos x := by field_simp
    rw [e]
    have a1 : Real.sin x / x ≤ 1 := (div_le_one hx).2 hs
    have a2 : (Real.sin x / x) * (1 / 2 * (y - x)) ≤ 1 * Real.sin (y - x) := mul_le_mul a1 hd2 (by linarith) (by norm_num)
    have hsn : 0 ≤ Real.sin (y - x) := le_trans (by linarith) hd2
    calc (Real.sin x / x) * (1 / 2 * (y - x)) / Real.cos x ≤ Real.sin (y - x) / Real.cos x := by
          gcongr; linarith
      _ ≤ Real.sin (y - x) / (Real.cos x * Real.cos y) := by
          apply div_le_div_of_nonneg_left hsn (by positivity)
          exact mul_le_of_le_one_right cx.le hc1
  linarith

/-- Relative change of the tangent. -/
theorem tan_near {x y : ℝ} (hx : 0 < x) (hx2 : x < Real.pi / 2) (hy0 : 0 < y) (hy : y < Real.pi / 2) :
    |Real.tan y - Real.tan x| ≤ (Real.pi / 2) * (Real.pi / 2) * (|y - x| / x) / (Real.pi / 2 - y) * Real.tan x := by
  have hp := Real.pi_pos
  have cx : 0 < Real.cos x := Real.cos_pos_of_mem_Ioo ⟨by linarith, by linarith⟩
  have cy : 0 < Real.cos y := Real.cos_pos_of_mem_Ioo ⟨by linarith, by linarith⟩
  have hs : 2 / Real.pi * x ≤ Real.sin x := Real.mul_le_sin hx.le hx2.le
  have hc : 2 / Real.pi * (Real.pi / 2 - y) ≤ Real.cos y := by
    rw [← Real.sin_pi_div_two_sub]; exact Real.mul_le_sin (by linarith) (by linarith)
  have hsp : 0 < Real.sin x := lt_of_lt_of_le (by positivity) hs
  rw [tan_sub_eq cx.ne' cy.ne', abs_div, abs_of_pos (mul_pos cx cy), Real.tan_eq_sin_div_cos]
  have hsin : |Real.sin (y - x)| ≤ |y - x| := Real.abs_sin_le_abs
  have hg : 0 < Real.pi / 2 - y := by linarith
  have e : (Real.pi / 2) * (Real.pi / 2) * (|y - x| / x) / (Real.pi / 2 - y) * (Real.sin x / Real.cos x)
      = |y - x| / Real.cos x * (Real.sin x / (2 / Real.pi * x)) / (2 / Real.pi * (Real.pi / 2 - y)) := by field_simp
  rw [e]
  have a1 : 1 ≤ Real.sin x / (2 / Real.pi * x) := by rw [le_div_iff₀ (by positivity), one_mul]; exact hs
  calc |Real.sin (y - x)| / (Real.cos x * Real.cos y) = |Real.sin (y - x)| / Real.cos x / Real.cos y := by rw [div_div]
    _ ≤ |y - x| / Real.cos x / Real.cos y := by gcongr
    _ ≤ |y - x| / Real.cos x / (2 / Real.pi * (Real.pi / 2 - y)) := by
        apply div_le_div_of_nonneg_left (by positivity) (by positivity) hc
    _ ≤ _ := by
        gcongr
        exact le_mul_of_one_le_right (by positivity) a1

end TicTac
end
