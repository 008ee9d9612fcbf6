import Verif.Lemmas.DoubleGrid
import Verif.Props.Numeric
import Verif.Props.Double
/-! C129: the momentum grid in double precision. -/
noncomputable section
namespace TicTac
open Spec

/-- The argument handed to `tan`. -/
def Fpu.theta (F : Fpu) (N i : Nat) : ℝ := F.div (F.mul (((2 * (i : ℤ) - 1 : ℤ) : ℝ)) F.mPi) ((4 * (N : ℤ) : ℤ) : ℝ)

section
variable {F : Fpu} (hF : IEEE F) (hL : Libm F)
include hF hL

theorem tan_val {N i : Nat} (h1 : 1 ≤ i) (h2 : i ≤ N) (hN : N ≤ 10 ^ 6) :
    IsDouble (F.tan (F.theta N i)) ∧ Close 3 (F.tan (F.theta N i)) (Real.tan (F.theta N i)) ∧ Rng 7 (F.tan (F.theta N i)) := by
  have ht := dv_theta hF h1 h2 hN
  have hb := theta_bounds h1 h2 hN ht.2.1
  have hp := Real.pi_pos
  have hp3 := Real.pi_gt_three
  have hN' : (N : ℝ) ≤ 10 ^ 6 := by exact_mod_cast hN
  have hN0 : (0 : ℝ) < N := by
    have : (1 : ℝ) ≤ N := by exact_mod_cast h1.trans h2
    linarith
  have hg : (1 : ℝ) / 10 ^ 6 * (3 / 4) ≤ Real.pi / (4 * N) := by
    rw [show Real.pi / (4 * (N : ℝ)) = 1 / N * (Real.pi / 4) by field_simp]
    exact mul_le_mul (one_div_le_one_div_of_le hN0 hN') (by linarith) (by norm_num) (by positivity)
  change Dv 4 15 (F.theta N i) _ at ht
  change _ ∧ 0 < F.theta N i ∧ _ ∧ _ ≤ Real.pi / 2 - F.theta N i ∧ _ ≤ F.theta N i at hb
  have hd := ht.1
  generalize F.theta N i = x at *
  generalize Real.pi / (4 * (N : ℝ)) = g at *
  obtain ⟨-, hx0, -, hc, hx⟩ := hb
  have hxlt : x < Real.pi / 2 := by norm_num at hg hc; linarith
  have hl := hL.tan x hd (by norm_num at hg hx ⊢; linarith) (by norm_num at hg hc ⊢; linarith)
  have htp : 0 < Real.tan x := Real.tan_pos_of_pos_of_lt_pi_div_two hx0 hxlt
  have hcl := close_lib htp hl.2
  refine ⟨hl.1, hcl, ?_⟩
  have hlow : x ≤ Real.tan x := Real.le_tan hx0.le hxlt
  have hup : Real.tan x * (Real.pi / 2 - x) ≤ 1 := by
    have h3 : Real.pi / 2 - x ≤ Real.tan (Real.pi / 2 - x) := Real.le_tan (by linarith) (by linarith)
    rw [Real.tan_pi_div_two_sub] at h3
    calc Real.tan x * (Real.pi / 2 - x) ≤ Real.tan x * (Real.tan x)⁻¹ := mul_le_mul_of_nonneg_left h3 htp.le
      _ = 1 := mul_inv_cancel₀ htp.ne'
  have hhalf := pow_u_half (k := 3) (by norm_num)
  have c1 := (mul_le_mul_of_nonneg_left hhalf htp.le).trans hcl.2.1
  have c2 := (mul_le_mul_of_nonneg_left hhalf hcl.pos.le).trans hcl.2.2
  have hup2 : Real.tan x * (7 / 10 ^ 7) ≤ 1 := le_trans (mul_le_mul_of_nonneg_left (by norm_num at hg hc ⊢; linarith) htp.le) hup
  constructor <;> norm_num at * <;> linarith

omit hF hL in
theorem rng_rpow {n : Nat} {x t : ℝ} (h : Rng n x) (ht0 : 0 ≤ t) {m : Nat} (ht : t ≤ m) : Rng (n * m) (x ^ t) := by
  have hb : (1 : ℝ) ≤ 10 ^ n := one_le_pow₀ (by norm_num)
  have hup : ((10 : ℝ) ^ n) ^ t ≤ 10 ^ (n * m) := by
    rw [pow_mul, ← Real.rpow_natCast ((10 : ℝ) ^ n) m]
    exact Real.rpow_le_rpow_of_exponent_le hb ht
  constructor
  · calc (1 : ℝ) / 10 ^ (n * m) ≤ 1 / ((10 : ℝ) ^ n) ^ t := one_div_le_one_div_of_le (Real.rpow_pos_of_pos (by positivity) _) hup
      _ = (1 / (10 : ℝ) ^ n) ^ t := by rw [Real.div_rpow (by norm_num) (by positivity), Real.one_rpow]
      _ ≤ x ^ t := Real.rpow_le_rpow (by positivity) h.1 ht0
  · exact (Real.rpow_le_rpow h.pos.le h.2 ht0).trans hup

theorem cheb_val {N i : Nat} {scale t : ℝ} (h1 : 1 ≤ i) (h2 : i ≤ N) (hN : N ≤ 10 ^ 6) (hs : IsDouble scale) (hsr : Rng 100 scale) (htd : IsDouble t) (ht0 : 0 ≤ t) (ht : t ≤ 20) :
    Dv 4 240 (F.chebValue N scale t i) (scale * F.tan (F.theta N i) ^ t) := by
  obtain ⟨hd, -, hr⟩ := tan_val hF hL h1 h2 hN
  have hrp : Rng 140 (F.tan (F.theta N i) ^ t) := rng_rpow (n := 7) (m := 20) hr ht0 (by exact_mod_cast ht)
  have big : (10 : ℝ) ^ 140 ≤ 2 ^ 1000 := by
    have : (10 : ℝ) ^ 140 ≤ (2 ^ 4) ^ 140 := pow_le_pow_left₀ (by norm_num) (by norm_num) _
    refine this.trans ?_
    rw [← pow_mul]
    exact pow_le_pow_right₀ (by norm_num) (by norm_num)
  have hp := hL.pow (F.tan (F.theta N i)) t hd htd hr.pos ((one_div_le_one_div_of_le (by positivity) big).trans hrp.1) (hrp.2.trans big)
  have dv : Dv 3 140 (F.pow (F.tan (F.theta N i)) t) (F.tan (F.theta N i) ^ t) := ⟨hp.1, close_lib hrp.pos hp.2, hrp⟩
  exact Dv.mul hF (Dv.exact hs hsr) dv (by norm_num) (by norm_num)

/-- Computed boundaries increase strictly. -/
theorem cheb_step {N i : Nat} {scale t : ℝ} (h1 : 1 ≤ i) (h2 : i + 1 ≤ N) (hN : N ≤ 10 ^ 6) (hs : IsDouble scale) (hsr : Rng 100 scale) (htd : IsDouble t) (ht0 : 1 / 10 ^ 6 ≤ t) (ht : t ≤ 20) :
    F.chebValue N scale t i * (1 + 5 / 10 ^ 14) ≤ F.chebValue N scale t (i + 1) := by
  have hu := u_pos
  have hus := u_small
  have htp : 0 < t := lt_of_lt_of_le (by norm_num) ht0
  have v1 := cheb_val hF hL h1 (by omega) hN hs hsr htd htp.le ht
  have v2 := cheb_val hF hL (i := i + 1) (by omega) h2 hN hs hsr htd htp.le ht
  obtain ⟨-, c1, r1⟩ := tan_val hF hL h1 (by omega) hN
  obtain ⟨-, c2, r2⟩ := tan_val hF hL (i := i + 1) (by omega) h2 hN
  have t1 : Dv 4 15 (F.theta N i) _ := dv_theta hF h1 (by omega) hN
  have t2 : Dv 4 15 (F.theta N (i + 1)) _ := dv_theta hF (i := i + 1) (by omega) h2 hN
  have b1 := theta_bounds h1 (by omega) hN t1.2.1
  have b2 := theta_bounds (i := i + 1) (by omega) h2 hN t2.2.1
  have hp := Real.pi_pos
  have hi : (1 : ℝ) ≤ i := by exact_mod_cast h1
  have hiN : (i : ℝ) + 1 ≤ N := by exact_mod_cast h2
  have hN' : (N : ℝ) ≤ 10 ^ 6 := by exact_mod_cast hN
  have hN0 : (0 : ℝ) < N := by linarith
  -- ratio of the angles
  have hrat : F.theta N i * (1 + 9 / 10 ^ 7) ≤ F.theta N (i + 1) := by
    have e1 := t1.2.1.2.2
    have e2 := t2.2.1.2.1
    push_cast at e2
    have hgap : (2 * (i : ℝ) - 1) * (1 + 1 / 10 ^ 6) ≤ 2 * ((i : ℝ) + 1) - 1 := by
      have : (2 * (i : ℝ) - 1) * (1 / 10 ^ 6) ≤ 2 := by
        have : 2 * (i : ℝ) - 1 ≤ 2 * 10 ^ 6 := by linarith
        rw [mul_one_div, div_le_iff₀ (by norm_num)]
        exact this
      linarith
    have hth : ((2 * (i : ℝ) - 1) * Real.pi / (4 * N)) * (1 + 1 / 10 ^ 6) ≤ (2 * ((i : ℝ) + 1) - 1) * Real.pi / (4 * N) := by
      have : ((2 * (i : ℝ) - 1) * Real.pi / (4 * N)) * (1 + 1 / 10 ^ 6) = ((2 * (i : ℝ) - 1) * (1 + 1 / 10 ^ 6)) * Real.pi / (4 * N) := by ring
      rw [this]
      gcongr
    have hx0 := t1.2.1.pos
    have g := pow_u_ge 4
    have hP : 1 - 1 / 10 ^ 14 ≤ (1 - ulpHalf) ^ 4 := by push_cast at g; norm_num at hus ⊢; linarith
    have hPp := pow_u_pos 4
    generalize (2 * (i : ℝ) - 1) * Real.pi / (4 * N) = A at *
    generalize (2 * ((i : ℝ) + 1) - 1) * Real.pi / (4 * N) = B at *
    generalize (1 - ulpHalf) ^ 4 = P at *
    generalize F.theta N i = x at *
    generalize F.theta N (i + 1) = y at *
    have a1 : x * P * (1 + 1 / 10 ^ 6) * P ≤ y := by
      calc x * P * (1 + 1 / 10 ^ 6) * P ≤ A * (1 + 1 / 10 ^ 6) * P := by gcongr
        _ ≤ B * P := by gcongr
        _ ≤ y := e2
    refine le_trans ?_ a1
    have : (1 + 9 / 10 ^ 7 : ℝ) ≤ P * (1 + 1 / 10 ^ 6) * P := by
      have : (1 - 1 / 10 ^ 14 : ℝ) * (1 + 1 / 10 ^ 6) * (1 - 1 / 10 ^ 14) ≤ P * (1 + 1 / 10 ^ 6) * P := by gcongr
      refine le_trans (by norm_num) this
    calc x * (1 + 9 / 10 ^ 7) ≤ x * (P * (1 + 1 / 10 ^ 6) * P) := by gcongr
      _ = _ := by ring
  change _ ∧ 0 < F.theta N i ∧ _ ∧ _ ≤ Real.pi / 2 - F.theta N i ∧ _ ≤ F.theta N i at b1
  change _ ∧ 0 < F.theta N (i + 1) ∧ _ ∧ _ ≤ Real.pi / 2 - F.theta N (i + 1) ∧ _ ≤ F.theta N (i + 1) at b2
  have hx0 := b1.2.1
  have hylt : F.theta N (i + 1) < Real.pi / 2 := by
    have : 0 < Real.pi / (4 * (N : ℝ)) * 0.99 := by positivity
    linarith [b2.2.2.2.1]
  have hxy : F.theta N i ≤ F.theta N (i + 1) := le_trans (by nlinarith) hrat
  have htan := tan_ratio hx0 hxy hylt
  have htan0 : 0 < Real.tan (F.theta N i) := c1.1
  -- ratio of the computed tangents
  have hratT : F.tan (F.theta N i) * (1 + 4 / 10 ^ 7) ≤ F.tan (F.theta N (i + 1)) := by
    have h9 : (9 : ℝ) / 10 ^ 7 ≤ (F.theta N (i + 1) - F.theta N i) / F.theta N i := by rw [le_div_iff₀ hx0]; linarith
    have g := pow_u_ge 3
    have hP : 1 - 1 / 10 ^ 14 ≤ (1 - ulpHalf) ^ 3 := by push_cast at g; norm_num at hus ⊢; linarith
    have hPp := pow_u_pos 3
    have e1 := c1.2.2
    have e2 := c2.2.1
    have c1p := c1.pos
    have ht2 : Real.tan (F.theta N i) * (1 + 1 / 2 * (9 / 10 ^ 7)) ≤ Real.tan (F.theta N (i + 1)) := le_trans (mul_le_mul_of_nonneg_left (by linarith) htan0.le) htan
    clear htan h9
    generalize (1 - ulpHalf) ^ 3 = P at *
    generalize Real.tan (F.theta N i) = A at *
    generalize Real.tan (F.theta N (i + 1)) = B at *
    generalize F.tan (F.theta N i) = x at *
    generalize F.tan (F.theta N (i + 1)) = y at *
    have a1 : x * P * (1 + 1 / 2 * (9 / 10 ^ 7)) * P ≤ y := by
      calc x * P * (1 + 1 / 2 * (9 / 10 ^ 7)) * P ≤ A * (1 + 1 / 2 * (9 / 10 ^ 7)) * P := by gcongr
        _ ≤ B * P := by gcongr
        _ ≤ y := e2
    refine le_trans ?_ a1
    have : (1 + 4 / 10 ^ 7 : ℝ) ≤ P * (1 + 1 / 2 * (9 / 10 ^ 7)) * P := by
      have : (1 - 1 / 10 ^ 14 : ℝ) * (1 + 1 / 2 * (9 / 10 ^ 7)) * (1 - 1 / 10 ^ 14) ≤ P * (1 + 1 / 2 * (9 / 10 ^ 7)) * P := by gcongr
      refine le_trans (by norm_num) this
    calc x * (1 + 4 / 10 ^ 7) ≤ x * (P * (1 + 1 / 2 * (9 / 10 ^ 7)) * P) := by gcongr
      _ = _ := by ring
  -- ratio of the powers
  have hx := r1.pos
  have hpw : F.tan (F.theta N i) ^ t * (1 + 1 / 10 ^ 13) ≤ F.tan (F.theta N (i + 1)) ^ t := by
    have a1 : (F.tan (F.theta N i) * (1 + 4 / 10 ^ 7)) ^ t ≤ F.tan (F.theta N (i + 1)) ^ t := Real.rpow_le_rpow (by positivity) hratT htp.le
    rw [Real.mul_rpow hx.le (by norm_num)] at a1
    refine le_trans (mul_le_mul_of_nonneg_left ?_ (Real.rpow_pos_of_pos hx t).le) a1
    rw [Real.rpow_def_of_pos (by norm_num)]
    have a2 : Real.log (1 + 4 / 10 ^ 7) * t + 1 ≤ Real.exp (Real.log (1 + 4 / 10 ^ 7) * t) := Real.add_one_le_exp _
    have a3 : 1 - (1 + 4 / 10 ^ 7 : ℝ)⁻¹ ≤ Real.log (1 + 4 / 10 ^ 7) := Real.one_sub_inv_le_log_of_pos (by norm_num)
    have a4 : (1 : ℝ) / 10 ^ 7 ≤ Real.log (1 + 4 / 10 ^ 7) := le_trans (by norm_num) a3
    have a5 : (1 : ℝ) / 10 ^ 7 * (1 / 10 ^ 6) ≤ Real.log (1 + 4 / 10 ^ 7) * t := mul_le_mul a4 ht0 (by norm_num) (le_trans (by norm_num) a4)
    refine le_trans ?_ a2
    norm_num at a5 ⊢
    linarith
  have hsp := hsr.pos
  have e1 := v1.2.1.2.2
  have e2 := v2.2.1.2.1
  have vp := v1.2.1.pos
  have g := pow_u_ge 4
  have hP : 1 - 1 / 10 ^ 14 ≤ (1 - ulpHalf) ^ 4 := by push_cast at g; norm_num at hus ⊢; linarith
  have hPp := pow_u_pos 4
  generalize (1 - ulpHalf) ^ 4 = P at *
  generalize F.tan (F.theta N i) ^ t = A at *
  generalize F.tan (F.theta N (i + 1)) ^ t = B at *
  generalize F.chebValue N scale t i = x at *
  generalize F.chebValue N scale t (i + 1) = y at *
  have a1 : x * P * (1 + 1 / 10 ^ 13) * P ≤ y := by
    calc x * P * (1 + 1 / 10 ^ 13) * P ≤ scale * A * (1 + 1 / 10 ^ 13) * P := by gcongr
      _ = scale * (A * (1 + 1 / 10 ^ 13)) * P := by ring
      _ ≤ scale * B * P := by gcongr
      _ ≤ y := e2
  refine le_trans ?_ a1
  have : (1 + 5 / 10 ^ 14 : ℝ) ≤ P * (1 + 1 / 10 ^ 13) * P := by
    have : (1 - 1 / 10 ^ 14 : ℝ) * (1 + 1 / 10 ^ 13) * (1 - 1 / 10 ^ 14) ≤ P * (1 + 1 / 10 ^ 13) * P := by gcongr
    exact le_trans (by norm_num) this
  calc x * (1 + 5 / 10 ^ 14) ≤ x * (P * (1 + 1 / 10 ^ 13) * P) := mul_le_mul_of_nonneg_left this vp.le
    _ = _ := by ring

omit hF hL in
theorem updLoop_get (f : Nat → ℝ) (N : Nat) (init : Nat → ℝ) (i : Nat) (h1 : 1 ≤ i) (h2 : i ≤ N) :
    Function.update ((List.range N).foldl (fun arr k => Function.update arr (k + 1) (f (k + 1))) init) 0 0 i = f i := by
  rw [Function.update_of_ne (by omega)]
  induction N with
  | zero => omega
  | succ M ih =>
    rw [List.range_succ, List.foldl_append]
    simp only [List.foldl_cons, List.foldl_nil]
    rcases eq_or_ne i (M + 1) with rfl | hne
    · rw [Function.update_self]
    · rw [Function.update_of_ne hne]; exact ih (by omega)

omit hF hL in
theorem dchebArray_get (N : Nat) (scale t : ℝ) (init : Nat → ℝ) (i : Nat) (h1 : 1 ≤ i) (h2 : i ≤ N) : F.chebArray N scale t init i = F.chebValue N scale t i :=
  updLoop_get (F.chebValue N scale t) N init i h1 h2

end

section
variable {F : Fpu}

/-- The tangent of the rounded angle. -/
theorem tan_close (hF : IEEE F) {N i : Nat} (h1 : 1 ≤ i) (h2 : i ≤ N) (hN : N ≤ 10 ^ 6) :
    Close (14 * N) (Real.tan (F.theta N i)) (Real.tan ((2 * (i : ℝ) - 1) * Real.pi / (4 * N))) := by
  have ht : Dv 4 15 (F.theta N i) _ := dv_theta hF h1 h2 hN
  have hb := theta_bounds h1 h2 hN ht.2.1
  have hp := Real.pi_pos
  have hpi := Real.pi_lt_d2
  have hu := u_pos
  have hus := u_small
  have hN' : (N : ℝ) ≤ 10 ^ 6 := by exact_mod_cast hN
  have hN0 : (0 : ℝ) < N := by
    have : (1 : ℝ) ≤ N := by exact_mod_cast h1.trans h2
    linarith
  obtain ⟨herr, hx0, hθ, hc, -⟩ := hb
  have hθ0 := ht.2.1.1
  generalize (2 * (i : ℝ) - 1) * Real.pi / (4 * N) = θ at *
  generalize F.theta N i = x at *
  have hg : 0 < Real.pi / (4 * (N : ℝ)) := by positivity
  have hθlt : θ < Real.pi / 2 := by linarith
  have hxlt : x < Real.pi / 2 := by
    have : 0 < Real.pi / (4 * (N : ℝ)) * 0.99 := by positivity
    linarith
  have htp : 0 < Real.tan θ := Real.tan_pos_of_pos_of_lt_pi_div_two hθ0 hθlt
  refine close_of_err htp ?_ ?_
  · push_cast
    calc 14 * (N : ℝ) * ulpHalf ≤ 14 * 10 ^ 6 * (1 / 10 ^ 15) := by gcongr
      _ ≤ 1 / 100 := by norm_num
  · refine (tan_near hθ0 hθlt hx0 hxlt).trans (mul_le_mul_of_nonneg_right ?_ htp.le)
    have e1 : |x - θ| / θ ≤ 4.01 * ulpHalf := by rw [div_le_iff₀ hθ0]; exact herr
    calc Real.pi / 2 * (Real.pi / 2) * (|x - θ| / θ) / (Real.pi / 2 - x) ≤ Real.pi / 2 * (Real.pi / 2) * (4.01 * ulpHalf) / (Real.pi / (4 * N) * 0.99) := by gcongr
      _ = Real.pi * 4.01 / 0.99 * (N * ulpHalf) := by field_simp; norm_num
      _ ≤ 0.99 * 14 * (N * ulpHalf) := by
          refine mul_le_mul_of_nonneg_right ?_ (by positivity)
          norm_num at hpi ⊢
          linarith
      _ = 0.99 * (((14 * N : ℕ) : ℝ) * ulpHalf) := by push_cast; ring

/-- C129. The boundaries computed in double precision start at zero and increase strictly, for every number of bins up to a million, every sparseness from 10⁻⁶ to 20 and every
scale: rounding never merges or reorders two boundaries. -/
theorem C129_increasing (N : Nat) (scale t : ℝ) (init : Nat → ℝ) (hN : N ≤ 10 ^ 6) (hs : IsDouble scale) (hs1 : 1 / 10 ^ 100 ≤ scale) (hs2 : scale ≤ 10 ^ 100) (htd : IsDouble t)
    (ht0 : 1 / 10 ^ 6 ≤ t) (ht : t ≤ 20) (hF : IEEE F) (hL : Libm F) :
    F.chebArray N scale t init 0 = 0 ∧ ∀ i j, i < j → j ≤ N → F.chebArray N scale t init i < F.chebArray N scale t init j := by
  have htp : 0 < t := lt_of_lt_of_le (by norm_num) ht0
  have h0 : F.chebArray N scale t init 0 = 0 := by unfold Fpu.chebArray; rw [Function.update_self]
  refine ⟨h0, ?_⟩
  have step : ∀ i, i + 1 ≤ N → F.chebArray N scale t init i < F.chebArray N scale t init (i + 1) := by
    intro i hi
    rcases Nat.eq_zero_or_pos i with rfl | h
    · rw [h0, dchebArray_get _ _ _ _ _ (by omega) hi]
      exact (cheb_val hF hL (by omega) hi hN hs ⟨hs1, hs2⟩ htd htp.le ht).2.1.pos
    · rw [dchebArray_get _ _ _ _ _ h (by omega), dchebArray_get _ _ _ _ _ (by omega) hi]
      have hst := cheb_step hF hL h hi hN hs ⟨hs1, hs2⟩ htd ht0 ht
      have hpos := (cheb_val hF hL h (by omega) hN hs ⟨hs1, hs2⟩ htd htp.le ht).2.1.pos
      refine lt_of_lt_of_le ?_ hst
      norm_num
      linarith
  intro i j hij
  induction j, hij using Nat.le_induction with
  | base => intro hj; exact step i hj
  | succ j hij ih => intro hj; exact (ih (by omega)).trans (step j hj)

/-- C129. Every computed boundary is the exact one up to a relative error of 3·10⁻¹⁵ per bin and unit of sparseness. -/
theorem C129_near (N : Nat) (scale t : ℝ) (init init' : Nat → ℝ) (hN : N ≤ 10 ^ 6) (hs : IsDouble scale) (hs1 : 1 / 10 ^ 100 ≤ scale) (hs2 : scale ≤ 10 ^ 100) (htd : IsDouble t)
    (ht0 : 0 < t) (ht : t ≤ 20) (hF : IEEE F) (hL : Libm F) (i : Nat) (hi : i ≤ N) :
    |F.chebArray N scale t init i - chebArray N scale t init' i| ≤ 3 / 10 ^ 15 * N * (t + 1) * chebArray N scale t init' i := by
  rcases Nat.eq_zero_or_pos i with rfl | h
  · unfold Fpu.chebArray chebArray
    rw [Function.update_self, Function.update_self]
    simp
  · rw [dchebArray_get _ _ _ _ _ h hi, show chebArray N scale t init' i = chebValue N scale t i from updLoop_get (chebValue N scale t) N init' i h hi]
    have hu := u_pos
    have hus := u_small
    have hsp : 0 < scale := lt_of_lt_of_le (by positivity) hs1
    have v := (cheb_val hF hL h hi hN hs ⟨hs1, hs2⟩ htd ht0.le ht).2.1
    have c := ((tan_val hF hL h hi hN).2.1.trans (tan_close hF h hi hN)).rpow ht0.le
    have w := v.trans ((Close.refl hsp 0).mul c)
    have hN' : (N : ℝ) ≤ 10 ^ 6 := by exact_mod_cast hN
    have hN1 : (1 : ℝ) ≤ N := by exact_mod_cast (show 1 ≤ N by omega)
    have hk : (((4 + (0 + (3 + 14 * N) * ⌈t⌉₊) : ℕ)) : ℝ) ≤ 21 * N * (t + 1) := by
      have hcl := (Nat.ceil_lt_add_one ht0.le).le
      push_cast
      have a1 : (3 + 14 * (N : ℝ)) * ⌈t⌉₊ ≤ (17 * N) * (t + 1) := mul_le_mul (by linarith) hcl (by positivity) (by positivity)
      have a2 : 4 * 1 ≤ 4 * (N * (t + 1)) := by
        have : 1 * 1 ≤ (N : ℝ) * (t + 1) := mul_le_mul hN1 (by linarith) (by norm_num) (by linarith)
        linarith
      linarith
    have hku := mul_le_mul_of_nonneg_right hk hu.le
    have hsmall : 21 * (N : ℝ) * (t + 1) * ulpHalf ≤ 1 / 1000 := by
      calc 21 * (N : ℝ) * (t + 1) * ulpHalf ≤ 21 * 10 ^ 6 * (20 + 1) * (1 / 10 ^ 15) := by gcongr
        _ ≤ 1 / 1000 := by norm_num
    have r := w.rel_many (hku.trans hsmall)
    unfold chebValue
    refine r.trans (mul_le_mul_of_nonneg_right ?_ w.1.le)
    have : (0 : ℝ) ≤ N * (t + 1) := by positivity
    calc 1.01 * (((4 + (0 + (3 + 14 * N) * ⌈t⌉₊) : ℕ)) * ulpHalf) ≤ 1.01 * (21 * N * (t + 1) * ulpHalf) := by gcongr
      _ = (N * (t + 1)) * (1.01 * 21 * ulpHalf) := by ring
      _ ≤ (N * (t + 1)) * (3 / 10 ^ 15) := by
          refine mul_le_mul_of_nonneg_left ?_ this
          unfold ulpHalf; norm_num
      _ = _ := by ring

/-- Rounding does not cross a double. -/
theorem nearest_ge {v r d : ℝ} (h : Nearest v r) (hd : IsDouble d) (hdv : d ≤ v) : d ≤ r := by
  by_contra hlt
  push Not at hlt
  have := h.2 d hd
  rw [abs_of_neg (by linarith), abs_of_nonpos (by linarith)] at this
  linarith

theorem nearest_le {v r d : ℝ} (h : Nearest v r) (hd : IsDouble d) (hdv : v ≤ d) : r ≤ d := by
  have := nearest_ge h.neg (isDouble_neg hd) (neg_le_neg hdv)
  linarith

/-- Doubles are multiples of the smallest one. -/
theorem double_multiple {x : ℝ} (h : IsDouble x) : ∃ z : ℤ, x = z * (2 : ℝ) ^ (-1074 : ℤ) := by
  obtain ⟨neg, m, e, hok, rfl⟩ := h
  have he : (-1074 : ℤ) ≤ e := hok.2.1
  obtain ⟨k, rfl⟩ : ∃ k : ℕ, e = -1074 + k := ⟨(e + 1074).toNat, by omega⟩
  refine ⟨(if neg then -1 else 1) * (m * 2 ^ k), ?_⟩
  unfold dblValue
  rw [zpow_add₀ (by norm_num), zpow_natCast]
  cases neg <;> push_cast <;> ring

theorem double_tiny (k : Nat) (h : k ≤ 1074) : IsDouble ((2 : ℝ) ^ (-(k : ℤ))) := by
  rcases Nat.lt_or_ge k 1023 with hk | hk
  · refine ⟨false, 2 ^ 52, -(k : ℤ) - 52, ⟨by norm_num, by omega, by omega, Or.inl (le_refl _)⟩, ?_⟩
    unfold dblValue
    rw [zpow_sub₀ (by norm_num)]
    norm_num
    ring
  · obtain ⟨j, rfl⟩ : ∃ j, k = 1074 - j := ⟨1074 - k, by omega⟩
    refine ⟨false, 2 ^ j, -1074, ⟨?_, by norm_num, by norm_num, Or.inr rfl⟩, ?_⟩
    · exact Nat.pow_lt_pow_right (by norm_num) (by omega)
    · unfold dblValue
      have : (-((1074 - j : ℕ) : ℤ)) = j + (-1074) := by omega
      rw [this, zpow_add₀ (by norm_num), zpow_natCast]
      push_cast
      simp

/-- The difference of two different doubles never rounds to zero, nor does its root. -/
theorem norm_pos (hF : IEEE F) {a b : ℝ} (ha : IsDouble a) (hb : IsDouble b) (hab : a < b) (hbig : b - a ≤ 2 ^ 1023) : 0 < F.normalization a b := by
  obtain ⟨z, rfl⟩ := double_multiple ha
  obtain ⟨w, rfl⟩ := double_multiple hb
  have ht : (0 : ℝ) < (2 : ℝ) ^ (-1074 : ℤ) := by positivity
  have hzw : z < w := by
    have := lt_of_mul_lt_mul_right hab ht.le
    exact_mod_cast this
  have h1 : (2 : ℝ) ^ (-1074 : ℤ) ≤ w * (2 : ℝ) ^ (-1074 : ℤ) - z * (2 : ℝ) ^ (-1074 : ℤ) := by
    rw [← sub_mul]
    refine le_mul_of_one_le_left ht.le ?_
    have : z + 1 ≤ w := hzw
    have h2 : (z : ℝ) + 1 ≤ w := by exact_mod_cast this
    linarith
  have hn := hF.sub _ _ hb ha (by rw [abs_of_pos (lt_of_lt_of_le ht h1)]; exact hbig)
  have d1 : IsDouble ((2 : ℝ) ^ (-1074 : ℤ)) := by simpa using double_tiny 1074 (le_refl _)
  have hs := nearest_ge hn d1 h1
  have h537 : (2 : ℝ) ^ (-537 : ℤ) ≤ Real.sqrt (F.sub (w * (2 : ℝ) ^ (-1074 : ℤ)) (z * (2 : ℝ) ^ (-1074 : ℤ))) := by
    apply Real.le_sqrt_of_sq_le
    refine le_trans (le_of_eq ?_) hs
    rw [← zpow_natCast, ← zpow_mul]
    norm_num
  have hq := hF.sqrt _ hn.1 (ht.le.trans hs)
  have d2 : IsDouble ((2 : ℝ) ^ (-537 : ℤ)) := by simpa using double_tiny 537 (by norm_num)
  exact lt_of_lt_of_le (by positivity) (nearest_ge hq d2 h537)

/-- The midpoint of two numbers that differ by more than the rounding errors. -/
theorem mid_inside (hF : IEEE F) {a b : ℝ} (ha : IsDouble a) (hb : IsDouble b) (ha0 : 0 ≤ a) (hab : a * (1 + 5 / 10 ^ 14) ≤ b) (hr : Rng 241 b) :
    a < F.binMidpoint a b ∧ F.binMidpoint a b < b := by
  have hu := u_pos
  have hus := u_small
  have hb0 := hr.pos
  have hl : F.lit 0.5 = 0.5 := nearest_eq (hF.lit 0.5 (by rw [abs_of_pos (by norm_num)]; exact le_trans (by norm_num) (one_le_pow₀ (by norm_num)))) double_half
  unfold Fpu.binMidpoint
  rw [hl]
  have hale : a ≤ b * (1 - 4 / 10 ^ 14) := by
    have h1 : a * (1 + 5 / 10 ^ 14) * (1 - 4.5 / 10 ^ 14) ≤ b * (1 - 4.5 / 10 ^ 14) := mul_le_mul_of_nonneg_right hab (by norm_num)
    norm_num at h1 ⊢
    linarith
  have rs : Rng 242 (a + b) := by
    have e : (10 : ℝ) ^ 242 = 10 * 10 ^ 241 := by rw [pow_succ]; ring
    have e2 : (1 : ℝ) / 10 ^ 242 ≤ 1 / 10 ^ 241 := one_div_le_one_div_of_le (by positivity) (pow_le_pow_right₀ (by norm_num) (by norm_num))
    have h1 := hr.1
    have h2 := hr.2
    have hab' : a ≤ b := by norm_num at hale; linarith
    constructor
    · linarith
    · rw [e]; linarith [pow_pos (show (0 : ℝ) < 10 by norm_num) 241]
  have hs0 := rs.pos
  have v1 := round_val (Close.refl hs0 0) (by norm_num) (rs.safe (by norm_num)) (hF.add a b ha hb (abs_range (Close.refl hs0 0) (by norm_num) (rs.safe (by norm_num))))
  have dvs : Dv 1 242 (F.add a b) (a + b) := ⟨v1.1, v1.2, rs⟩
  have dvh : Dv 0 1 (0.5 : ℝ) 0.5 := Dv.exact double_half (by constructor <;> norm_num)
  have dm := (Dv.mul hF dvh dvs (by norm_num) (by norm_num)).bound (by norm_num) (e := 3 / 10 ^ 16) (by norm_num)
  have hm := abs_le.1 dm
  norm_num at hm hale hab ⊢
  constructor <;> linarith [hm.1, hm.2]

/-- C129. Every bin of a computed grid has a positive norm, and its computed midpoint lies strictly inside. -/
theorem C129_bins (N : Nat) (scale t : ℝ) (init : Nat → ℝ) (hN : N ≤ 10 ^ 6) (hs : IsDouble scale) (hs1 : 1 / 10 ^ 100 ≤ scale) (hs2 : scale ≤ 10 ^ 100) (htd : IsDouble t)
    (ht0 : 1 / 10 ^ 6 ≤ t) (ht : t ≤ 20) (hF : IEEE F) (hL : Libm F) (i : Nat) (hi : i < N) :
    0 < F.normalization (F.chebArray N scale t init i) (F.chebArray N scale t init (i + 1)) ∧
    F.chebArray N scale t init i < F.binMidpoint (F.chebArray N scale t init i) (F.chebArray N scale t init (i + 1)) ∧
    F.binMidpoint (F.chebArray N scale t init i) (F.chebArray N scale t init (i + 1)) < F.chebArray N scale t init (i + 1) := by
  have htp : 0 < t := lt_of_lt_of_le (by norm_num) ht0
  have inc := (C129_increasing N scale t init hN hs hs1 hs2 htd ht0 ht hF hL).2 i (i + 1) (by omega) hi
  have v := cheb_val hF hL (i := i + 1) (by omega) hi hN hs ⟨hs1, hs2⟩ htd htp.le ht
  rw [dchebArray_get _ _ _ _ (i + 1) (by omega) hi] at inc ⊢
  have hlow : IsDouble (F.chebArray N scale t init i) ∧ 0 ≤ F.chebArray N scale t init i ∧ F.chebArray N scale t init i * (1 + 5 / 10 ^ 14) ≤ F.chebValue N scale t (i + 1) := by
    rcases Nat.eq_zero_or_pos i with rfl | h
    · have h0 : F.chebArray N scale t init 0 = 0 := by unfold Fpu.chebArray; rw [Function.update_self]
      rw [h0]
      exact ⟨double_zero, le_refl _, by rw [zero_mul]; exact v.2.1.pos.le⟩
    · rw [dchebArray_get _ _ _ _ _ h (by omega)]
      have w := cheb_val hF hL h (by omega) hN hs ⟨hs1, hs2⟩ htd htp.le ht
      exact ⟨w.1, w.2.1.pos.le, cheb_step hF hL h hi hN hs ⟨hs1, hs2⟩ htd ht0 ht⟩
  obtain ⟨hd, h0, hst⟩ := hlow
  have hhalf := pow_u_half (k := 4) (by norm_num)
  have c1 := (mul_le_mul_of_nonneg_left hhalf v.2.1.1.le).trans v.2.1.2.1
  have c2 := (mul_le_mul_of_nonneg_left hhalf v.2.1.pos.le).trans v.2.1.2.2
  have big := (safe_range v.2.1 (by norm_num) (v.2.2.safe (by norm_num))).2
  have big' : F.chebValue N scale t (i + 1) ≤ 2 ^ 1023 := by exact_mod_cast big
  refine ⟨norm_pos hF hd v.1 inc ((sub_le_self _ h0).trans big'), ?_⟩
  refine mid_inside hF hd v.1 h0 hst ?_
  have hv := v.2.2
  have e : (10 : ℝ) ^ 241 = 10 * 10 ^ 240 := by rw [pow_succ]; ring
  have e2 : (1 : ℝ) / 10 ^ 241 = 1 / 10 * (1 / 10 ^ 240) := by rw [e]; field_simp
  have hp : (0 : ℝ) < 1 / 10 ^ 240 := by positivity
  have hp2 : (0 : ℝ) < 10 ^ 240 := by positivity
  have hv1 := hv.1
  have hv2 := hv.2
  unfold Rng
  rw [e2, e]
  generalize (1 : ℝ) / 10 ^ 240 = s1 at *
  generalize (10 : ℝ) ^ 240 = s2 at *
  constructor <;> linarith

end

section
/-- There are finitely many doubles. -/
theorem doubles_finite : {x : ℝ | IsDouble x}.Finite := by
  refine ((((Set.finite_Iio (2 ^ 53 : ℕ)).prod (Set.finite_Icc (-1074 : ℤ) 971)).prod (Set.toFinite (Set.univ : Set Bool))).image
    (fun p => dblValue p.2 p.1.1 p.1.2)).subset ?_
  rintro x ⟨neg, m, e, hok, rfl⟩
  exact ⟨((m, e), neg), ⟨⟨hok.1, hok.2.1, hok.2.2.1⟩, trivial⟩, rfl⟩

theorem exists_nearest (v : ℝ) : ∃ r, Nearest v r := by
  obtain ⟨r, hr, hm⟩ := Set.exists_min_image {x : ℝ | IsDouble x} (fun d => |d - v|) doubles_finite ⟨0, double_zero⟩
  exact ⟨r, hr, fun d hd => hm d hd⟩

/-- A unit that rounds everything to a nearest double. -/
def roundFpu : Fpu :=
  let rd v := Classical.choose (exists_nearest v)
  { add := fun x y => rd (x + y), sub := fun x y => rd (x - y), mul := fun x y => rd (x * y), div := fun x y => rd (x / y), sqrt := fun x => rd (Real.sqrt x),
    lit := rd, tan := fun x => rd (Real.tan x), pow := fun x y => rd (x ^ y) }

theorem roundFpu_ieee : IEEE roundFpu :=
  ⟨fun x y _ _ _ => Classical.choose_spec (exists_nearest (x + y)), fun x y _ _ _ => Classical.choose_spec (exists_nearest (x - y)),
    fun x y _ _ _ => Classical.choose_spec (exists_nearest (x * y)), fun x y _ _ _ _ => Classical.choose_spec (exists_nearest (x / y)),
    fun x _ _ => Classical.choose_spec (exists_nearest (Real.sqrt x)), fun v _ => Classical.choose_spec (exists_nearest v)⟩

theorem roundFpu_libm : Libm roundFpu := by
  have lib : ∀ v : ℝ, 1 / 2 ^ 1000 ≤ v → v ≤ 2 ^ 1000 → |Classical.choose (exists_nearest v) - v| ≤ (1 / 2 ^ 52) * v := by
    intro v h1 h2
    have hv : 0 < v := lt_of_lt_of_le (by positivity) h1
    have := nearest_rel (Classical.choose_spec (exists_nearest v)) (le_trans ?_ h1) (h2.trans ?_)
    · refine this.trans (mul_le_mul_of_nonneg_right ?_ hv.le)
      unfold ulpHalf; norm_num
    · rw [zpow_neg, one_div]
      refine inv_anti₀ (by positivity) ?_
      exact_mod_cast pow_le_pow_right₀ (show (1 : ℝ) ≤ 2 by norm_num) (show 1000 ≤ 1022 by norm_num)
    · exact_mod_cast pow_le_pow_right₀ (show (1 : ℝ) ≤ 2 by norm_num) (show 1000 ≤ 1023 by norm_num)
  have big : (10 : ℝ) ^ 10 ≤ 2 ^ 1000 := by
    have : (10 : ℝ) ^ 10 ≤ 2 ^ 40 := by norm_num
    exact this.trans (pow_le_pow_right₀ (by norm_num) (by norm_num))
  refine ⟨fun x hx h1 h2 => ⟨(Classical.choose_spec (exists_nearest _)).1, lib _ ?_ ?_⟩, fun x y hx hy h0 h1 h2 => ⟨(Classical.choose_spec (exists_nearest _)).1, lib _ h1 h2⟩⟩
  · have hp : (0 : ℝ) < 1 / 10 ^ 10 := by norm_num
    have := Real.le_tan (by linarith) (show x < Real.pi / 2 by linarith)
    exact (one_div_le_one_div_of_le (by positivity) big).trans (h1.trans this)
  · have hp : (0 : ℝ) < 1 / 10 ^ 10 := by norm_num
    have hx0 : 0 < x := by linarith
    have hlt : x < Real.pi / 2 := by linarith
    have htp : 0 < Real.tan x := Real.tan_pos_of_pos_of_lt_pi_div_two hx0 hlt
    have h3 : Real.pi / 2 - x ≤ Real.tan (Real.pi / 2 - x) := Real.le_tan (by linarith) (by linarith)
    rw [Real.tan_pi_div_two_sub] at h3
    have h4 : (1 : ℝ) / 10 ^ 10 ≤ (Real.tan x)⁻¹ := by linarith
    have h5 : Real.tan x * (1 / 10 ^ 10) ≤ 1 := by
      calc Real.tan x * (1 / 10 ^ 10) ≤ Real.tan x * (Real.tan x)⁻¹ := mul_le_mul_of_nonneg_left h4 htp.le
        _ = 1 := mul_inv_cancel₀ htp.ne'
    refine le_trans ?_ big
    rw [mul_one_div, div_le_one (by positivity)] at h5
    exact h5

/-- The contracts can be met, and the example input's grid (30 bins, scale 200 MeV, sparseness 2) meets the hypotheses. -/
example (init : Nat → ℝ) : roundFpu.chebArray 30 200 2 init 7 < roundFpu.chebArray 30 200 2 init 8 :=
  (C129_increasing 30 200 2 init (by norm_num) (by simpa using double_nat 200 (by norm_num)) (by norm_num) (by norm_num) (by simpa using double_nat 2 (by norm_num)) (by norm_num) (by norm_num)
    roundFpu_ieee roundFpu_libm).2 7 8 (by norm_num) (by norm_num)

example (init init' : Nat → ℝ) : |roundFpu.chebArray 30 200 2 init 7 - chebArray 30 200 2 init' 7| ≤ 27 / 10 ^ 14 * chebArray 30 200 2 init' 7 := by
  have := C129_near 30 200 2 init init' (by norm_num) (by simpa using double_nat 200 (by norm_num)) (by norm_num) (by norm_num) (by simpa using double_nat 2 (by norm_num)) (by norm_num) (by norm_num)
    roundFpu_ieee roundFpu_libm 7 (by norm_num)
  norm_num at this ⊢
  linarith

/-- C128 for the measured binding energy as a double near −2.225 MeV. -/
example : |roundFpu.labEnergyToComMomentum 13 (-2) - labEnergyToComMomentum 13 (-2)| ≤ 4 / 10 ^ 15 * labEnergyToComMomentum 13 (-2) :=
  C128_lab_to_com 13 (-2) (by simpa using double_nat 13 (by norm_num)) (isDouble_neg (by simpa using double_nat 2 (by norm_num))) (by norm_num) (by norm_num) (by norm_num) (by norm_num) roundFpu_ieee

example : |roundFpu.comMomentumToLabEnergy 100 (-2) - comMomentumToLabEnergy 100 (-2)| ≤ 1 / 10 ^ 14 * (Mp + 100 ^ 2 / deuteronMass (-2)) :=
  C128_com_to_lab 100 (-2) (by simpa using double_nat 100 (by norm_num)) (isDouble_neg (by simpa using double_nat 2 (by norm_num))) (by norm_num) (by norm_num) (by norm_num) (by norm_num) roundFpu_ieee

example : |roundFpu.comEnergyToComQ 5 - comEnergyToComQ 5| ≤ 2 / 10 ^ 15 * comEnergyToComQ 5 :=
  (C128_energies 5 (by simpa using double_nat 5 (by norm_num)) (by norm_num) (by norm_num) roundFpu_ieee).1

end
end TicTac
end
