import Verif.Lemmas.LegendreNewton
import Verif.Model.Numeric
import Verif.Props.Numeric
/-! The Newton loop of `gauss`: where it starts, that it stops, and what it leaves. -/
noncomputable section
namespace TicTac
open Set Polynomial

theorem gaussStart_eq (N i : Nat) : gaussStart N i = Real.cos (((i : ℝ) - 1/4) * (Real.pi / ((N : ℝ) + 1/2))) := by
  unfold gaussStart
  congr 1
  norm_num
  ring

/-- The start value and the zero it belongs to satisfy the hypotheses of the Newton analysis. -/
theorem zone_exists (N : Nat) (th : Nat → ℝ) (Z : LegZeros N (Real.pi / ((N : ℝ) + 1/2)) th) (i : Nat) (h1 : 1 ≤ i) (h2 : 2 * i < N + 1) :
    ∃ s : ℝ, s ≠ 0 ∧ NewtonZone (C s * Spec.legendre N) (N * (N + 1)) ((N : ℝ) + 1/2) (Real.cos (th i)) (gaussStart N i) := by
  have hlow := Z.start_lt i h1 h2
  have hclose := Z.start_close i h1 h2
  have hhalf := Z.lt_half i h1 h2
  have hm := Z.mem i h1 (by omega)
  rw [gaussStart_eq]
  have hM0 : (0 : ℝ) < (N : ℝ) + 1/2 := by positivity
  have hhp := LegZeros.step_pos N
  have hir : (1 : ℝ) ≤ i := by exact_mod_cast h1
  set h := Real.pi / ((N : ℝ) + 1/2) with hh
  set a := ((i : ℝ) - 1/4) * h with ha
  have ha0 : 3/4 * h ≤ a := mul_le_mul_of_nonneg_right (by linarith) hhp.le
  have hpi := Real.pi_pos
  have ha00 : 0 < a := by linarith
  have hr0 : 0 < Real.cos (th i) := Real.cos_pos_of_mem_Ioo ⟨by linarith, hhalf⟩
  have hrx : Real.cos (th i) < Real.cos a := Real.cos_lt_cos_of_nonneg_of_le_pi ha00.le hm.2.le hlow
  have hx1 : Real.cos a < 1 := by
    rw [← Real.cos_zero]; exact Real.cos_lt_cos_of_nonneg_of_le_pi le_rfl (by linarith) ha00
  have hne : ∀ x, Real.cos (th i) < x → x ≤ Real.cos a → (Spec.legendre N).eval x ≠ 0 := by
    intro x hx1' hx2 h0
    have hb1 : -1 ≤ x := by linarith [Real.neg_one_le_cos (th i)]
    have hb2 : x ≤ 1 := by linarith
    have hxa : a ≤ Real.arccos x := by
      have := Real.arccos_le_arccos hx2
      rwa [Real.arccos_cos ha00.le (by linarith)] at this
    have hxb : Real.arccos x < th i := by
      have := Real.arccos_lt_arccos (Real.neg_one_le_cos (th i)) hx1' hb2
      rwa [Real.arccos_cos hm.1.le hm.2.le] at this
    obtain ⟨k, k1, k2, hk⟩ := Z.all (Real.arccos x) (by linarith) (by linarith [hm.2]) (by rw [Real.cos_arccos hb1 hb2, h0])
    rw [hk] at hxa hxb
    have hki := Z.idx_lt k i h1 k2 hxb
    have hl := (Z.loc k k1 k2).2
    have : (k : ℝ) + 1 ≤ i := by exact_mod_cast hki
    have := mul_le_mul_of_nonneg_right (show (k : ℝ) + 1/4 ≤ (i : ℝ) - 3/4 by linarith) hhp.le
    have e : ((i : ℝ) - 3/4) * h = a - h / 2 := by rw [ha]; ring
    linarith
  have hx0 := hne _ hrx le_rfl
  refine ⟨(Spec.legendre N).eval (Real.cos a), hx0, ?_⟩
  set s := (Spec.legendre N).eval (Real.cos a) with hs
  have hsin0 : 0 < Real.sin (th i) := Real.sin_pos_of_pos_of_lt_pi hm.1 hm.2
  refine ⟨?_, by positivity, by nlinarith, hM0, hr0, hrx, hx1, ?_, ?_, ?_, ?_⟩
  · intro x
    have := legendre_second N x
    simp only [derivative_C_mul, eval_mul, eval_C]
    linear_combination s * this
  · rw [eval_mul, Z.root i h1 (by omega), mul_zero]
  · intro x hxa hxb
    rw [eval_mul, eval_C]
    by_contra hc
    push Not at hc
    have hcont : ContinuousOn (fun y => s * (Spec.legendre N).eval y) (Ioc (Real.cos (th i)) (Real.cos a)) :=
      (continuous_const.mul (Spec.legendre N).continuous).continuousOn
    have hpos : 0 ≤ s * (Spec.legendre N).eval (Real.cos a) := by rw [← hs]; exact mul_self_nonneg s
    obtain ⟨z, hz, hz0⟩ := isPreconnected_Ioc.intermediate_value (a := x) (b := Real.cos a) ⟨hxa, hxb⟩ ⟨hrx, le_rfl⟩ hcont
      (show (0 : ℝ) ∈ Icc _ _ from ⟨hc, hpos⟩)
    rcases mul_eq_zero.1 hz0 with h0 | h0
    · exact hx0 h0
    · exact hne z hz.1 hz.2 h0
  · -- closeness
    have hmv : Real.cos a - Real.cos (th i) ≤ (th i - a) * Real.sin (th i) := by
      rw [Real.cos_sub_cos]
      have e1 : Real.sin ((a + th i) / 2) ≤ Real.sin (th i) := Real.sin_le_sin_of_le_of_le_pi_div_two (by linarith) hhalf.le (by linarith)
      have e0 : 0 ≤ Real.sin ((a + th i) / 2) := Real.sin_nonneg_of_nonneg_of_le_pi (by linarith) (by linarith)
      have e2 : Real.sin ((a - th i) / 2) = -Real.sin ((th i - a) / 2) := by rw [← Real.sin_neg]; congr 1; ring
      have e3 : Real.sin ((th i - a) / 2) ≤ (th i - a) / 2 := Real.sin_le (by linarith)
      have := mul_le_mul e1 e3 (Real.sin_nonneg_of_nonneg_of_le_pi (by linarith) (by linarith)) hsin0.le
      rw [e2]
      linarith
    have h3 := mul_le_mul_of_nonneg_right hclose hsin0.le
    have e : 1 / (2 * ((N : ℝ) + 1/2) ^ 2) * (Real.cos (th i) / Real.sin (th i)) * Real.sin (th i) = Real.cos (th i) / (2 * ((N : ℝ) + 1/2) ^ 2) := by
      field_simp
    rw [e] at h3
    have h4 := mul_le_mul_of_nonneg_left (hmv.trans h3) (show (0 : ℝ) ≤ ((N : ℝ) + 1/2) ^ 2 by positivity)
    have e2 : ((N : ℝ) + 1/2) ^ 2 * (Real.cos (th i) / (2 * ((N : ℝ) + 1/2) ^ 2)) = Real.cos (th i) / 2 := by field_simp
    linarith
  · have e : 1 - Real.cos a ^ 2 = Real.sin a ^ 2 := by rw [Real.sin_sq]
    rw [e]
    have h3 := Real.mul_le_sin ha00.le (by linarith)
    have h4 : 2 / Real.pi * (3/4 * h) ≤ 2 / Real.pi * a := mul_le_mul_of_nonneg_left ha0 (by positivity)
    have h5 : 2 / Real.pi * (3/4 * h) = 3/2 / ((N : ℝ) + 1/2) := by rw [hh]; field_simp; norm_num
    rw [h5] at h4
    have h6 := (div_le_iff₀ hM0).1 (h4.trans h3)
    nlinarith

/-- Invariant of the loop after `k + 1` passes. -/
structure NewtonInv (N : Nat) (r x0 : ℝ) (k : Nat) (t t1 pp : ℝ) : Prop where
  lo : r ≤ t1
  hi : t1 ≤ x0
  step : t = t1 - (Spec.legendre N).eval t1 / (derivative (Spec.legendre N)).eval t1
  pp : pp = (derivative (Spec.legendre N)).eval t1
  small : 2 * (t1 - r) ≤ (4/9) ^ (2 ^ k) * (1 - x0 ^ 2)

section
variable {N : Nat} {s r x0 : ℝ}

theorem newton_leg (hs : s ≠ 0) (Z : NewtonZone (C s * Spec.legendre N) (N * (N + 1)) ((N : ℝ) + 1/2) r x0) (t : ℝ) (h1 : r ≤ t) (h2 : t ≤ x0) :
    r ≤ t - (Spec.legendre N).eval t / (derivative (Spec.legendre N)).eval t ∧
      t - (Spec.legendre N).eval t / (derivative (Spec.legendre N)).eval t ≤ t ∧
      (t - (Spec.legendre N).eval t / (derivative (Spec.legendre N)).eval t - r) * (1 - x0 ^ 2) ≤ 2 * (t - r) ^ 2 := by
  have h := Z.newton t h1 h2
  simp only [derivative_C_mul, eval_mul, eval_C] at h
  rwa [mul_div_mul_left _ _ hs] at h

theorem gauss_pass (hN : 1 ≤ N) (hs : s ≠ 0) (Z : NewtonZone (C s * Spec.legendre N) (N * (N + 1)) ((N : ℝ) + 1/2) r x0) (t : ℝ) (h1 : r ≤ t) (h2 : t ≤ x0) :
    gaussNewton N t = t - (Spec.legendre N).eval t / (derivative (Spec.legendre N)).eval t ∧
      gaussPP N t = (derivative (Spec.legendre N)).eval t := by
  have hsq := (Z.sq_lt t h1 h2).2
  obtain ⟨a, b⟩ := gaussPP_eq N hN t (by intro h; rw [h] at hsq; linarith)
  refine ⟨?_, a⟩
  unfold gaussNewton
  rw [a, b]

theorem gauss_loop_stops (hN : 1 ≤ N) (hs : s ≠ 0) (Z : NewtonZone (C s * Spec.legendre N) (N * (N + 1)) ((N : ℝ) + 1/2) r x0) (eps : ℝ)
    (fuel k : Nat) (t t1 pp : ℝ) (inv : NewtonInv N r x0 k t t1 pp) (hf : (4/9 : ℝ) ^ (2 ^ (k + fuel)) / 2 < eps) :
    ∃ k' t' t1' pp', gaussWhile N eps fuel (t, t1, pp) = some (t', t1', pp') ∧ NewtonInv N r x0 k' t' t1' pp' ∧ |t' - t1'| < eps := by
  induction fuel generalizing k t t1 pp with
  | zero =>
    refine ⟨k, t, t1, pp, ?_, inv, ?_⟩
    rotate_left
    all_goals
      have hlt : |t - t1| < eps := by
        have h := newton_leg hs Z t1 inv.lo inv.hi
        rw [← inv.step] at h
        rw [abs_of_nonpos (by linarith [h.2.1])]
        have hD : 1 - x0 ^ 2 ≤ 1 := by have := sq_nonneg x0; linarith
        have := mul_le_mul_of_nonneg_left hD (show (0 : ℝ) ≤ (4/9) ^ (2 ^ k) by positivity)
        have := inv.small
        simp only [add_zero] at hf
        linarith [h.1]
    · exact hlt
    · unfold gaussWhile
      rw [if_neg (not_le.2 hlt)]
  | succ f ih =>
    unfold gaussWhile
    by_cases hge : |t - t1| ≥ eps
    · rw [if_pos hge]
      have h := newton_leg hs Z t1 inv.lo inv.hi
      rw [← inv.step] at h
      have htx : t ≤ x0 := h.2.1.trans inv.hi
      obtain ⟨e1, e2⟩ := gauss_pass hN hs Z t h.1 htx
      refine ih (k + 1) _ _ _ ⟨h.1, htx, e1, e2, ?_⟩ (by rw [show k + 1 + f = k + (f + 1) by ring]; exact hf)
      have hD := (Z.sq_lt x0 Z.rx.le le_rfl).2
      have hsm := inv.small
      have h0 : 0 ≤ 2 * (t1 - r) := by linarith [inv.lo]
      have h3 := mul_le_mul hsm hsm h0 (by positivity)
      have e : (4/9 : ℝ) ^ (2 ^ (k + 1)) = (4/9) ^ (2 ^ k) * (4/9) ^ (2 ^ k) := by rw [← pow_add]; congr 1; ring
      rw [e]
      have : 2 * (t - r) * (1 - x0 ^ 2) ≤ (4/9 : ℝ) ^ (2 ^ k) * (4/9) ^ (2 ^ k) * (1 - x0 ^ 2) * (1 - x0 ^ 2) := by
        nlinarith [h.2.2]
      exact le_of_mul_le_mul_right this hD
    · rw [if_neg hge]
      exact ⟨k, t, t1, pp, rfl, inv, not_le.1 hge⟩

/-- The loop for one root, started where `gauss` starts it. -/
theorem gauss_run_stops (hN : 1 ≤ N) (hs : s ≠ 0) (i : Nat)
    (Z : NewtonZone (C s * Spec.legendre N) (N * (N + 1)) ((N : ℝ) + 1/2) r (gaussStart N i)) (eps : ℝ)
    (fuel : Nat) (hf : (4/9 : ℝ) ^ (2 ^ fuel) / 2 < eps) (he : eps ≤ 1 - gaussStart N i) :
    ∃ k t t1 pp, gaussRun N eps (fuel + 1) i = some (t, t1, pp) ∧ NewtonInv N r (gaussStart N i) k t t1 pp ∧ |t - t1| < eps := by
  unfold gaussRun gaussWhile
  rw [if_pos (by rw [abs_sub_comm]; exact he.trans (le_abs_self _))]
  obtain ⟨e1, e2⟩ := gauss_pass hN hs Z _ Z.rx.le le_rfl
  refine gauss_loop_stops hN hs Z eps fuel 0 _ _ _ ⟨Z.rx.le, le_rfl, e1, e2, ?_⟩ (by simpa using hf)
  have := Z.ratio
  norm_num
  linarith

/-- What the exit of the loop says about the node. -/
theorem gauss_exit (hs : s ≠ 0) (Z : NewtonZone (C s * Spec.legendre N) (N * (N + 1)) ((N : ℝ) + 1/2) r x0) (eps : ℝ) (k : Nat) (t t1 pp : ℝ)
    (inv : NewtonInv N r x0 k t t1 pp) (hlt : |t - t1| < eps) :
    r ≤ t ∧ t ≤ t1 ∧ t1 - r < 9/5 * eps ∧ t - r ≤ 4/9 * (t1 - r) ∧ t - r ≤ 72/25 * eps ^ 2 * ((N : ℝ) + 1/2) ^ 2 := by
  obtain ⟨h1, h2, h3⟩ := newton_leg hs Z t1 inv.lo inv.hi
  rw [← inv.step] at h1 h2 h3
  have hD := (Z.sq_lt x0 Z.rx.le le_rfl).2
  have hr := Z.ratio
  have hlo := inv.lo
  have hhi := inv.hi
  rw [abs_of_nonpos (by linarith)] at hlt
  have h4 : t - r ≤ 4/9 * (t1 - r) := by
    have : (t - r) * (1 - x0 ^ 2) ≤ 4/9 * (t1 - r) * (1 - x0 ^ 2) := by
      have := mul_le_mul_of_nonneg_left (show t1 - r ≤ 2/9 * (1 - x0 ^ 2) by linarith) (show 0 ≤ 2 * (t1 - r) by linarith)
      nlinarith
    exact le_of_mul_le_mul_right this hD
  have h5 : t1 - r < 9/5 * eps := by linarith
  refine ⟨h1, h2, h5, h4, ?_⟩
  have hw := Z.wide
  have hM := Z.M0
  have h6 : (t1 - r) ^ 2 ≤ (9/5 * eps) ^ 2 := pow_le_pow_left₀ (by linarith) h5.le 2
  have h7 : (t - r) * (9/4) ≤ (t - r) * (((N : ℝ) + 1/2) ^ 2 * (1 - x0 ^ 2)) := mul_le_mul_of_nonneg_left hw (by linarith)
  have h8 := mul_le_mul_of_nonneg_left (h3.trans (mul_le_mul_of_nonneg_left h6 zero_le_two)) (show (0 : ℝ) ≤ ((N : ℝ) + 1/2) ^ 2 by positivity)
  linarith

/-- ... and about the weight. -/
theorem gauss_exit_weight (hs : s ≠ 0) (Z : NewtonZone (C s * Spec.legendre N) (N * (N + 1)) ((N : ℝ) + 1/2) r x0) (eps : ℝ) (k : Nat) (t t1 pp : ℝ)
    (inv : NewtonInv N r x0 k t t1 pp) (hlt : |t - t1| < eps) :
    |gaussW t pp - gaussW r ((derivative (Spec.legendre N)).eval r)| ≤
      16/5 * eps * ((N : ℝ) + 1/2) ^ 2 * gaussW r ((derivative (Spec.legendre N)).eval r) ∧
      0 < gaussW t pp ∧ 0 < gaussW r ((derivative (Spec.legendre N)).eval r) := by
  obtain ⟨h1, h2, h5, h4, -⟩ := gauss_exit hs Z eps k t t1 pp inv hlt
  have hhi := inv.hi
  have hlo := inv.lo
  have hpr := Z.A_pos
  have hpt := Z.deriv_pos t1 inv.lo inv.hi
  have hmono := Z.deriv_mono r t1 le_rfl inv.lo inv.hi
  have hL := Z.L_le t1 inv.lo inv.hi
  have s0 := Z.sq_lt r le_rfl Z.rx.le
  have s1 := Z.sq_lt t1 inv.lo inv.hi
  have s2 := Z.sq_lt t h1 (h2.trans inv.hi)
  have hD := (Z.sq_lt x0 Z.rx.le le_rfl).2
  have hw := Z.wide
  have hM := Z.M0
  have hr0 := Z.r0
  have hx1 := Z.x1
  have hrat := Z.ratio
  rw [inv.pp]
  simp only [derivative_C_mul, eval_mul, eval_C] at hpr hpt hmono hL
  generalize (derivative (Spec.legendre N)).eval r = a at *
  generalize (derivative (Spec.legendre N)).eval t1 = b at *
  generalize (N : ℝ) + 1/2 = M at *
  have ha0 : a ≠ 0 := by rintro rfl; simp at hpr
  have hb0 : b ≠ 0 := by rintro rfl; simp at hpt
  -- ratio of derivatives
  set ρ := s * a / (s * b) with hρ
  have hρ0 : 0 < ρ := div_pos hpr hpt
  have hρ1 : ρ ≤ 1 := (div_le_one hpt).2 hmono
  have hρ2 : (1 - t1 ^ 2) / (1 - r ^ 2) ≤ ρ := by
    rw [hρ, div_le_div_iff₀ s0.2 hpt]; linarith
  have hρab : ρ = a / b := by rw [hρ, mul_div_mul_left _ _ hs]
  have hW : gaussW t b = (1 - r ^ 2) / (1 - t ^ 2) * ρ ^ 2 * gaussW r a := by
    unfold gaussW
    rw [hρab]
    have e1 : 1 - t ^ 2 ≠ 0 := s2.2.ne'
    have e2 : 1 - r ^ 2 ≠ 0 := s0.2.ne'
    rw [← pow_two t, ← pow_two r]
    field_simp
  have hWr : 0 < gaussW r a := by
    unfold gaussW
    have := s0.2
    rw [pow_two] at this
    have : 0 < a * a := mul_self_pos.2 ha0
    rw [mul_assoc]
    positivity
  have hs2 := s2.2
  have hs0 := s0.2
  refine ⟨?_, by rw [hW]; positivity, hWr⟩
  rw [hW]
  set κ := (1 - r ^ 2) / (1 - t ^ 2) with hκ
  have hκ1 : 1 ≤ κ := by
    rw [hκ, one_le_div s2.2]
    have := pow_le_pow_left₀ hr0.le h1 2
    linarith
  set δ := (t1 - r) / (1 - x0 ^ 2) with hδ
  have hδ0 : 0 ≤ δ := div_nonneg (by linarith) hD.le
  have hδ1 : δ ≤ 2/9 := by rw [hδ, div_le_iff₀ hD]; linarith
  have hκ2 : κ ≤ 1 + 4 * δ := by
    rw [hκ, div_le_iff₀ s2.2]
    have h6 : (t1 - r) ≤ δ * (1 - t ^ 2) := by
      have : δ * (1 - x0 ^ 2) = t1 - r := by rw [hδ]; field_simp
      have := mul_le_mul_of_nonneg_left s2.1 hδ0
      linarith
    have h7 : t ^ 2 - r ^ 2 ≤ (t - r) * 2 := by
      rw [show t ^ 2 - r ^ 2 = (t - r) * (t + r) by ring]
      exact mul_le_mul_of_nonneg_left (by linarith) (by linarith)
    have h8 : (1 + 4 * δ) * (1 - t ^ 2) = (1 - t ^ 2) + 4 * (δ * (1 - t ^ 2)) := by ring
    rw [h8]
    linarith only [h6, h7, h4, hlo, h2, h1]
  have hρ3 : 1 - 2 * δ ≤ ρ := by
    refine le_trans ?_ hρ2
    rw [le_div_iff₀ s0.2]
    have h6 : (t1 - r) ≤ δ * (1 - r ^ 2) := by
      have : δ * (1 - x0 ^ 2) = t1 - r := by rw [hδ]; field_simp
      have := mul_le_mul_of_nonneg_left s0.1 hδ0
      linarith
    have h7 : t1 ^ 2 - r ^ 2 ≤ (t1 - r) * 2 := by
      rw [show t1 ^ 2 - r ^ 2 = (t1 - r) * (t1 + r) by ring]
      exact mul_le_mul_of_nonneg_left (by linarith) (by linarith)
    have h8 : (1 - 2 * δ) * (1 - r ^ 2) = (1 - r ^ 2) - 2 * (δ * (1 - r ^ 2)) := by ring
    rw [h8]
    linarith only [h6, h7]
  have hρ4 : 1 - 4 * δ ≤ ρ ^ 2 := by
    have := pow_le_pow_left₀ (show 0 ≤ 1 - 2 * δ by linarith only [hδ1]) hρ3 2
    have h8 : (1 - 2 * δ) ^ 2 = 1 - 4 * δ + 4 * δ ^ 2 := by ring
    have := sq_nonneg δ
    linarith
  have hρ5 : ρ ^ 2 ≤ 1 := pow_le_one₀ hρ0.le hρ1
  have hmain : |κ * ρ ^ 2 - 1| ≤ 4 * δ := by
    rw [abs_le]
    constructor
    · have := mul_le_mul_of_nonneg_right hκ1 (sq_nonneg ρ)
      linarith only [this, hρ4]
    · have := mul_le_mul hκ2 hρ5 (sq_nonneg ρ) (by linarith)
      linarith
  have e : κ * ρ ^ 2 * gaussW r a - gaussW r a = (κ * ρ ^ 2 - 1) * gaussW r a := by ring
  rw [e, abs_mul, abs_of_pos hWr]
  refine mul_le_mul_of_nonneg_right (hmain.trans ?_) hWr.le
  have hδM : δ * (9/4) ≤ 9/5 * eps * M ^ 2 := by
    have h6 : δ * (9/4) ≤ δ * (M ^ 2 * (1 - x0 ^ 2)) := mul_le_mul_of_nonneg_left hw hδ0
    have h7 : δ * (M ^ 2 * (1 - x0 ^ 2)) = (t1 - r) * M ^ 2 := by rw [hδ]; field_simp
    have h8 := mul_le_mul_of_nonneg_right h5.le (sq_nonneg M)
    linarith
  linarith
end

end TicTac
