import Verif.Lemmas.LegendreNewton
/-! Newton's iteration to a Legendre zero from either side of it. -/
noncomputable section
namespace TicTac
open Set Polynomial

/-- `p` solves Legendre's equation and vanishes at `r`; `d` is small against `1 - r²`. -/
structure LocalZone (p : ℝ[X]) (c M r d : ℝ) : Prop where
  ode : ∀ x : ℝ, (derivative (derivative p)).eval x * (1 - x ^ 2) = 2 * x * (derivative p).eval x - c * p.eval x
  c0 : 0 ≤ c
  cM : c ≤ M ^ 2
  d0 : 0 < d
  near : d ≤ (1 - r ^ 2) / 8
  osc : M ^ 2 * d ^ 2 ≤ (1 - r ^ 2) / 15
  root : p.eval r = 0
  A : 0 < (derivative p).eval r

namespace LocalZone
variable {p : ℝ[X]} {c M r d : ℝ}

theorem W0 (Z : LocalZone p c M r d) : 0 < 1 - r ^ 2 := by have := Z.near; have := Z.d0; linarith

theorem range (Z : LocalZone p c M r d) (x : ℝ) (hx : |x - r| ≤ d) :
    3/4 * (1 - r ^ 2) ≤ 1 - x ^ 2 ∧ 1 - x ^ 2 ≤ 5/4 * (1 - r ^ 2) ∧ |x| ≤ 1 ∧ |x ^ 2 - r ^ 2| ≤ 2 * |x - r| := by
  have hW := Z.W0
  have hn := Z.near
  have hr : |r| < 1 := by rw [← sq_lt_one_iff_abs_lt_one]; linarith
  have hxr : |x| ≤ |r| + |x - r| := by have := abs_add_le r (x - r); rwa [add_sub_cancel] at this
  have e : 1 - r ^ 2 = (1 - |r|) * (1 + |r|) := by rw [← sq_abs r]; ring
  have hr0 := abs_nonneg r
  have hx1 : |x| ≤ 1 := by nlinarith
  have h2 : |x ^ 2 - r ^ 2| ≤ 2 * |x - r| := by
    rw [show x ^ 2 - r ^ 2 = (x + r) * (x - r) by ring, abs_mul]
    exact mul_le_mul_of_nonneg_right ((abs_add_le x r).trans (by linarith)) (abs_nonneg _)
  have h3 := abs_le.1 h2
  exact ⟨by linarith [h3.2], by linarith [h3.1], hx1, h2⟩

theorem mem_Icc (x : ℝ) : |x - r| ≤ d ↔ x ∈ Icc (r - d) (r + d) := by
  rw [abs_le, Set.mem_Icc]
  constructor <;> rintro ⟨a, b⟩ <;> constructor <;> linarith

theorem L_deriv (Z : LocalZone p c M r d) (x : ℝ) : HasDerivAt (fun y => (1 - y ^ 2) * (derivative p).eval y) (-(c * p.eval x)) x := by
  have h1 : HasDerivAt (fun y : ℝ => 1 - y ^ 2) (-(2 * x)) x := by
    simpa using (hasDerivAt_pow 2 x).const_sub 1
  have := h1.mul ((derivative p).hasDerivAt x)
  refine this.congr_deriv ?_
  linear_combination Z.ode x

/-- Mean value inequality on the part of the zone between `r` and `t`. -/
theorem mvt {f f' : ℝ → ℝ} (C t : ℝ) (hf : ∀ x, HasDerivAt f (f' x) x) (hb : ∀ x, |x - r| ≤ |t - r| → |f' x| ≤ C) : |f t - f r| ≤ C * |t - r| := by
  have := (convex_closedBall r |t - r|).norm_image_sub_le_of_norm_hasDerivWithin_le (f := f) (f' := f') (C := C)
    (fun x _ => (hf x).hasDerivWithinAt) (fun x hx => by rw [Metric.mem_closedBall, Real.dist_eq] at hx; exact hb x hx)
    (x := r) (y := t) (by simp) (by rw [Metric.mem_closedBall, Real.dist_eq])
  simpa [Real.norm_eq_abs] using this

theorem p_of_L (Z : LocalZone p c M r d) (m : ℝ) (hm : ∀ x, |x - r| ≤ d → |(1 - x ^ 2) * (derivative p).eval x| ≤ m) (x : ℝ) (hx : |x - r| ≤ d) :
    |(derivative p).eval x| ≤ 4/3 * (m / (1 - r ^ 2)) ∧ |p.eval x| ≤ 4/3 * (m / (1 - r ^ 2)) * |x - r| := by
  have hW := Z.W0
  have hd : ∀ y, |y - r| ≤ d → |(derivative p).eval y| ≤ 4/3 * (m / (1 - r ^ 2)) := by
    intro y hy
    have h := hm y hy
    obtain ⟨a, -, -, -⟩ := Z.range y hy
    rw [abs_mul, abs_of_pos (by linarith : 0 < 1 - y ^ 2)] at h
    rw [show 4/3 * (m / (1 - r ^ 2)) = m / (3/4 * (1 - r ^ 2)) by field_simp, le_div_iff₀ (by linarith)]
    have := mul_le_mul_of_nonneg_right a (abs_nonneg ((derivative p).eval y))
    linarith
  refine ⟨hd x hx, ?_⟩
  have := mvt (r := r) (4/3 * (m / (1 - r ^ 2))) x (fun y => p.hasDerivAt y) (fun y hy => hd y (hy.trans hx))
  rwa [Z.root, sub_zero] at this

theorem L_dist (Z : LocalZone p c M r d) (m : ℝ) (hm : ∀ x, |x - r| ≤ d → |(1 - x ^ 2) * (derivative p).eval x| ≤ m) (x : ℝ) (hx : |x - r| ≤ d) :
    |(1 - x ^ 2) * (derivative p).eval x - (1 - r ^ 2) * (derivative p).eval r| ≤ M ^ 2 * (4/3 * (m / (1 - r ^ 2)) * |x - r|) * |x - r| := by
  have hW := Z.W0
  refine mvt (r := r) (f := fun y => (1 - y ^ 2) * (derivative p).eval y) _ x (fun y => Z.L_deriv y) (fun y hy => ?_)
  have h1 := (Z.p_of_L m hm y (hy.trans hx)).2
  have hm0 : 0 ≤ m := le_trans (abs_nonneg _) (hm x hx)
  rw [abs_neg, abs_mul, abs_of_nonneg Z.c0]
  refine mul_le_mul Z.cM (h1.trans ?_) (abs_nonneg _) (sq_nonneg M)
  exact mul_le_mul_of_nonneg_left hy (by positivity)

/-- `(1-x²)p'` hardly varies in the zone. -/
theorem L_range (Z : LocalZone p c M r d) (x : ℝ) (hx : |x - r| ≤ d) :
    9/10 * ((1 - r ^ 2) * (derivative p).eval r) ≤ (1 - x ^ 2) * (derivative p).eval x ∧
      |(1 - x ^ 2) * (derivative p).eval x| ≤ 11/10 * ((1 - r ^ 2) * (derivative p).eval r) := by
  have hW := Z.W0
  have hA := mul_pos hW Z.A
  have hcont : ContinuousOn (fun y => |(1 - y ^ 2) * (derivative p).eval y|) (Icc (r - d) (r + d)) :=
    fun y _ => (Z.L_deriv y).continuousAt.abs.continuousWithinAt
  obtain ⟨xm, hxm, hmax⟩ := isCompact_Icc.exists_isMaxOn (nonempty_Icc.2 (by linarith [Z.d0])) hcont
  set m := |(1 - xm ^ 2) * (derivative p).eval xm| with hmdef
  have hm : ∀ x, |x - r| ≤ d → |(1 - x ^ 2) * (derivative p).eval x| ≤ m := fun y hy => hmax ((mem_Icc y).1 hy)
  have hm0 : 0 ≤ m := abs_nonneg _
  have hdist : ∀ y, |y - r| ≤ d → |(1 - y ^ 2) * (derivative p).eval y - (1 - r ^ 2) * (derivative p).eval r| ≤ 4/45 * m := by
    intro y hy
    refine (Z.L_dist m hm y hy).trans ?_
    have h1 : |y - r| * |y - r| ≤ d * d := mul_le_mul hy hy (abs_nonneg _) Z.d0.le
    have h2 : M ^ 2 * (|y - r| * |y - r|) ≤ (1 - r ^ 2) / 15 :=
      (mul_le_mul_of_nonneg_left h1 (sq_nonneg M)).trans (by rw [← pow_two]; exact Z.osc)
    have h3 := mul_le_mul_of_nonneg_left h2 (show 0 ≤ 4/3 * (m / (1 - r ^ 2)) by positivity)
    have e : 4/3 * (m / (1 - r ^ 2)) * ((1 - r ^ 2) / 15) = 4/45 * m := by field_simp; ring
    rw [e] at h3
    linarith
  set A := (1 - r ^ 2) * (derivative p).eval r with hAd
  have h4 : m ≤ A + 4/45 * m := by
    have h5 := hdist xm ((mem_Icc xm).2 hxm)
    have h6 := abs_add_le ((1 - xm ^ 2) * (derivative p).eval xm - A) A
    rw [sub_add_cancel, ← hmdef, abs_of_pos hA] at h6
    linarith
  have h7 : m ≤ 11/10 * A := by linarith
  refine ⟨?_, (hm x hx).trans h7⟩
  have := (abs_le.1 (hdist x hx)).1
  linarith

theorem deriv_pos (Z : LocalZone p c M r d) (x : ℝ) (hx : |x - r| ≤ d) : 0 < (derivative p).eval x := by
  have h := (Z.L_range x hx).1
  have hA := mul_pos Z.W0 Z.A
  obtain ⟨a, -⟩ := Z.range x hx
  by_contra hc
  push Not at hc
  have := mul_nonpos_of_nonneg_of_nonpos (show 0 ≤ 1 - x ^ 2 by linarith [Z.W0]) hc
  linarith

/-- One Newton step from anywhere in the zone. -/
theorem newton (Z : LocalZone p c M r d) (t : ℝ) (ht : |t - r| ≤ d) :
    |t - p.eval t / (derivative p).eval t - r| ≤ 11/4 * (|t - r| ^ 2 * (2 + M ^ 2 * |t - r|)) / (1 - r ^ 2) := by
  have hW := Z.W0
  have hA := Z.A
  set a := (derivative p).eval r with had
  have hd := Z.deriv_pos t ht
  have hm : ∀ x, |x - r| ≤ d → |(1 - x ^ 2) * (derivative p).eval x| ≤ 11/10 * ((1 - r ^ 2) * a) := fun x hx => (Z.L_range x hx).2
  have e0 := abs_nonneg (t - r)
  -- the second derivative
  have h2 : ∀ x, |x - r| ≤ |t - r| → |(x - r) * (derivative (derivative p)).eval x| ≤ |t - r| * (88/45 * (a / (1 - r ^ 2)) * (2 + M ^ 2 * |t - r|)) := by
    intro x hx
    have hxd := hx.trans ht
    obtain ⟨q1, q2⟩ := Z.p_of_L _ hm x hxd
    have e1 : 4/3 * (11/10 * ((1 - r ^ 2) * a) / (1 - r ^ 2)) = 22/15 * a := by field_simp; norm_num
    rw [e1] at q1 q2
    obtain ⟨w1, -, w3, -⟩ := Z.range x hxd
    have hode := Z.ode x
    rw [abs_mul]
    refine mul_le_mul hx ?_ (abs_nonneg _) e0
    have h3 : |(derivative (derivative p)).eval x| * (1 - x ^ 2) ≤ 22/15 * a * (2 + M ^ 2 * |t - r|) := by
      rw [← abs_of_pos (show 0 < 1 - x ^ 2 by linarith), ← abs_mul, hode]
      refine (abs_sub _ _).trans ?_
      rw [abs_mul, abs_mul, abs_mul, abs_two, abs_of_nonneg Z.c0]
      have i1 : |x| * |(derivative p).eval x| ≤ 1 * (22/15 * a) := mul_le_mul w3 q1 (abs_nonneg _) zero_le_one
      have i2 : c * |p.eval x| ≤ M ^ 2 * (22/15 * a * |t - r|) :=
        mul_le_mul Z.cM (q2.trans (mul_le_mul_of_nonneg_left hx (by positivity))) (abs_nonneg _) (sq_nonneg M)
      linarith
    have h4 := mul_le_mul_of_nonneg_left w1 (abs_nonneg ((derivative (derivative p)).eval x))
    rw [show 88/45 * (a / (1 - r ^ 2)) * (2 + M ^ 2 * |t - r|) = 22/15 * a * (2 + M ^ 2 * |t - r|) / (3/4 * (1 - r ^ 2)) by field_simp; norm_num, le_div_iff₀ (by positivity)]
    linarith
  have hg : ∀ x, HasDerivAt (fun y => (y - r) * (derivative p).eval y - p.eval y) ((x - r) * (derivative (derivative p)).eval x) x := by
    intro x
    have := (((hasDerivAt_id x).sub_const r).mul ((derivative p).hasDerivAt x)).sub (p.hasDerivAt x)
    refine this.congr_deriv ?_
    simp
  have h5 := mvt (r := r) _ t hg h2
  rw [sub_self, zero_mul, Z.root, sub_zero, sub_zero] at h5
  have e : t - p.eval t / (derivative p).eval t - r = ((t - r) * (derivative p).eval t - p.eval t) / (derivative p).eval t := by
    field_simp; ring
  rw [e, abs_div, abs_of_pos hd, div_le_iff₀ hd]
  have hL := (Z.L_range t ht).1
  obtain ⟨-, w2, -, -⟩ := Z.range t ht
  have h6 : 18/25 * a ≤ (derivative p).eval t := by
    have := mul_le_mul_of_nonneg_right w2 hd.le
    rw [← had] at hL
    have : (1 - r ^ 2) * (18/25 * a) ≤ (1 - r ^ 2) * (derivative p).eval t := by linarith
    exact le_of_mul_le_mul_left this hW
  refine h5.trans ?_
  have h7 := mul_le_mul_of_nonneg_left h6 (show 0 ≤ 11/4 * (|t - r| ^ 2 * (2 + M ^ 2 * |t - r|)) / (1 - r ^ 2) by positivity)
  refine le_trans ?_ h7
  have hpos : 0 ≤ |t - r| ^ 2 * (2 + M ^ 2 * |t - r|) * (a / (1 - r ^ 2)) := by positivity
  have e2 : |t - r| * (88/45 * (a / (1 - r ^ 2)) * (2 + M ^ 2 * |t - r|)) * |t - r| = 88/45 * (|t - r| ^ 2 * (2 + M ^ 2 * |t - r|) * (a / (1 - r ^ 2))) := by ring
  have e3 : 11/4 * (|t - r| ^ 2 * (2 + M ^ 2 * |t - r|)) / (1 - r ^ 2) * (18/25 * a) = 99/50 * (|t - r| ^ 2 * (2 + M ^ 2 * |t - r|) * (a / (1 - r ^ 2))) := by ring
  rw [e2, e3]
  exact mul_le_mul_of_nonneg_right (by norm_num) hpos

/-- ... it stays in the zone and converges quadratically. -/
theorem newton_sq (Z : LocalZone p c M r d) (t : ℝ) (ht : |t - r| ≤ d) :
    |t - p.eval t / (derivative p).eval t - r| * d ≤ 7/8 * |t - r| ^ 2 := by
  have h := Z.newton t ht
  have hW := Z.W0
  have hd := Z.d0
  have e0 := abs_nonneg (t - r)
  refine (mul_le_mul_of_nonneg_right h hd.le).trans ?_
  rw [div_mul_eq_mul_div, div_le_iff₀ hW]
  have h1 : M ^ 2 * |t - r| * d ≤ (1 - r ^ 2) / 15 := by
    have := mul_le_mul_of_nonneg_right (mul_le_mul_of_nonneg_left ht (sq_nonneg M)) hd.le
    have := Z.osc
    linarith
  have h2 : (2 + M ^ 2 * |t - r|) * d ≤ 19/60 * (1 - r ^ 2) := by have := Z.near; linarith
  have h3 := mul_le_mul_of_nonneg_left h2 (sq_nonneg |t - r|)
  have h4 : 0 ≤ |t - r| ^ 2 * (1 - r ^ 2) := by positivity
  linarith

theorem newton_le (Z : LocalZone p c M r d) (t : ℝ) (ht : |t - r| ≤ d) :
    |t - p.eval t / (derivative p).eval t - r| ≤ 7/8 * |t - r| := by
  have h := Z.newton_sq t ht
  have hd := Z.d0
  have e0 := abs_nonneg (t - r)
  have : |t - p.eval t / (derivative p).eval t - r| * d ≤ 7/8 * |t - r| * d := by
    have := mul_le_mul_of_nonneg_left ht e0
    nlinarith
  exact le_of_mul_le_mul_right this hd

end LocalZone
end TicTac
