import Verif.Lemmas.LegendreZeros
/-! Newton's iteration to a Legendre zero, started between the zero and the next inflection. -/
noncomputable section
namespace TicTac
open Set Polynomial

/-- `p` solves Legendre's equation, is positive on `(r, x0]`, vanishes at `r`, and `x0` is close to `r`. -/
structure NewtonZone (p : ℝ[X]) (c M r x0 : ℝ) : Prop where
  ode : ∀ x : ℝ, (derivative (derivative p)).eval x * (1 - x ^ 2) = 2 * x * (derivative p).eval x - c * p.eval x
  c0 : 0 ≤ c
  cM : c ≤ M ^ 2
  M0 : 0 < M
  r0 : 0 < r
  rx : r < x0
  x1 : x0 < 1
  root : p.eval r = 0
  pos : ∀ x, r < x → x ≤ x0 → 0 < p.eval x
  near : M ^ 2 * (x0 - r) ≤ r / 2
  wide : 9/4 ≤ M ^ 2 * (1 - x0 ^ 2)

namespace NewtonZone
variable {p : ℝ[X]} {c M r x0 : ℝ}

theorem sq_lt (Z : NewtonZone p c M r x0) (x : ℝ) (h1 : r ≤ x) (h2 : x ≤ x0) : 1 - x0 ^ 2 ≤ 1 - x ^ 2 ∧ 0 < 1 - x ^ 2 := by
  have := Z.r0; have := Z.x1
  have a : x ^ 2 ≤ x0 ^ 2 := pow_le_pow_left₀ (by linarith) h2 2
  have b : x0 ^ 2 < 1 := by nlinarith
  exact ⟨by linarith, by linarith⟩

theorem nonneg (Z : NewtonZone p c M r x0) (x : ℝ) (h1 : r ≤ x) (h2 : x ≤ x0) : 0 ≤ p.eval x := by
  rcases h1.eq_or_lt with rfl | h
  · rw [Z.root]
  · exact (Z.pos x h h2).le

/-- `L = (1 - x²) p'`. -/
theorem L_deriv (Z : NewtonZone p c M r x0) (x : ℝ) : HasDerivAt (fun y => (1 - y ^ 2) * (derivative p).eval y) (-(c * p.eval x)) x := by
  have h1 : HasDerivAt (fun y : ℝ => 1 - y ^ 2) (-(2 * x)) x := by
    simpa using (hasDerivAt_pow 2 x).const_sub 1
  have := h1.mul ((derivative p).hasDerivAt x)
  refine this.congr_deriv ?_
  linear_combination Z.ode x

theorem L_anti (Z : NewtonZone p c M r x0) : AntitoneOn (fun y => (1 - y ^ 2) * (derivative p).eval y) (Icc r x0) := by
  refine antitoneOn_of_deriv_nonpos (convex_Icc _ _) (fun x _ => (Z.L_deriv x).continuousAt.continuousWithinAt)
    (fun x _ => (Z.L_deriv x).differentiableAt.differentiableWithinAt) ?_
  intro x hx
  rw [interior_Icc] at hx
  rw [(Z.L_deriv x).deriv]
  have := mul_nonneg Z.c0 (Z.nonneg x hx.1.le hx.2.le)
  linarith

theorem A_pos (Z : NewtonZone p c M r x0) : 0 < (derivative p).eval r := by
  by_contra hc
  push Not at hc
  have hr := Z.sq_lt r le_rfl Z.rx.le
  have hA : (1 - r ^ 2) * (derivative p).eval r ≤ 0 := mul_nonpos_of_nonneg_of_nonpos hr.2.le hc
  have hanti : AntitoneOn (fun y => p.eval y) (Icc r x0) := by
    refine antitoneOn_of_deriv_nonpos (convex_Icc _ _) p.continuous.continuousOn p.differentiable.differentiableOn ?_
    intro x hx
    rw [interior_Icc] at hx
    rw [Polynomial.deriv]
    have hL : (1 - x ^ 2) * (derivative p).eval x ≤ (1 - r ^ 2) * (derivative p).eval r :=
      Z.L_anti ⟨le_rfl, Z.rx.le⟩ ⟨hx.1.le, hx.2.le⟩ hx.1.le
    have hs := (Z.sq_lt x hx.1.le hx.2.le).2
    by_contra hcc
    push Not at hcc
    have := mul_pos hs hcc
    linarith
  have h1 : p.eval x0 ≤ p.eval r := hanti ⟨le_rfl, Z.rx.le⟩ ⟨Z.rx.le, le_rfl⟩ Z.rx.le
  have h2 := Z.pos x0 Z.rx le_rfl
  rw [Z.root] at h1
  linarith

theorem L_le (Z : NewtonZone p c M r x0) (x : ℝ) (h1 : r ≤ x) (h2 : x ≤ x0) :
    (1 - x ^ 2) * (derivative p).eval x ≤ (1 - r ^ 2) * (derivative p).eval r :=
  Z.L_anti ⟨le_rfl, Z.rx.le⟩ ⟨h1, h2⟩ h1

theorem A0 (Z : NewtonZone p c M r x0) : 0 < (1 - r ^ 2) * (derivative p).eval r :=
  mul_pos (Z.sq_lt r le_rfl Z.rx.le).2 Z.A_pos

theorem p_le (Z : NewtonZone p c M r x0) (x : ℝ) (h1 : r ≤ x) (h2 : x ≤ x0) :
    p.eval x * (1 - x ^ 2) ≤ (1 - r ^ 2) * (derivative p).eval r * (x - r) := by
  have hx := (Z.sq_lt x h1 h2).2
  have hA := Z.A0
  have hb : ∀ y ∈ interior (Icc r x), deriv (fun z => p.eval z) y ≤ (1 - r ^ 2) * (derivative p).eval r / (1 - x ^ 2) := by
    intro y hy
    rw [interior_Icc] at hy
    rw [Polynomial.deriv, le_div_iff₀ hx]
    have hL := Z.L_le y hy.1.le (by linarith [hy.2])
    have hyx : 1 - x ^ 2 ≤ 1 - y ^ 2 := by
      have := pow_le_pow_left₀ (show (0 : ℝ) ≤ y by linarith [Z.r0, hy.1]) hy.2.le 2
      linarith
    rcases le_total ((derivative p).eval y) 0 with hn | hp
    · have := mul_nonpos_of_nonpos_of_nonneg hn hx.le
      linarith
    · have := mul_le_mul_of_nonneg_left hyx hp
      linarith
  have := (convex_Icc r x).image_sub_le_mul_sub_of_deriv_le p.continuous.continuousOn p.differentiable.differentiableOn hb r
    ⟨le_rfl, h1⟩ x ⟨h1, le_rfl⟩ h1
  rw [Z.root, sub_zero, div_mul_eq_mul_div, le_div_iff₀ hx] at this
  exact this

theorem ratio (Z : NewtonZone p c M r x0) : x0 - r ≤ 2/9 * (1 - x0 ^ 2) := by
  have hM := Z.M0
  have h1 := Z.near
  have h2 := Z.wide
  have hr : r ≤ 1 := by linarith [Z.rx, Z.x1]
  have hM2 : 0 < M ^ 2 := by positivity
  have : M ^ 2 * (x0 - r) ≤ M ^ 2 * (2/9 * (1 - x0 ^ 2)) := by nlinarith
  exact le_of_mul_le_mul_left this hM2

theorem L_ge (Z : NewtonZone p c M r x0) (x : ℝ) (h1 : r ≤ x) (h2 : x ≤ x0) :
    8/9 * ((1 - r ^ 2) * (derivative p).eval r) ≤ (1 - x ^ 2) * (derivative p).eval x := by
  have hA := Z.A0
  set A := (1 - r ^ 2) * (derivative p).eval r with hAd
  have hpb : ∀ y, r ≤ y → y ≤ x0 → p.eval y ≤ 2/9 * A := by
    intro y hy1 hy2
    obtain ⟨s1, s2⟩ := Z.sq_lt y hy1 hy2
    have h := Z.p_le y hy1 hy2
    rw [← hAd] at h
    have h3 : A * (y - r) ≤ A * (2/9 * (1 - y ^ 2)) := mul_le_mul_of_nonneg_left (by linarith [Z.ratio]) hA.le
    have : p.eval y * (1 - y ^ 2) ≤ 2/9 * A * (1 - y ^ 2) := by linarith
    exact le_of_mul_le_mul_right this s2
  have hb : ∀ y ∈ interior (Icc r x), -(M ^ 2 * (2/9 * A)) ≤ deriv (fun z => (1 - z ^ 2) * (derivative p).eval z) y := by
    intro y hy
    rw [interior_Icc] at hy
    rw [(Z.L_deriv y).deriv]
    have h3 := mul_le_mul Z.cM (hpb y hy.1.le (by linarith [hy.2])) (Z.nonneg y hy.1.le (by linarith [hy.2])) (by positivity)
    linarith
  have := (convex_Icc r x).mul_sub_le_image_sub_of_le_deriv (fun y _ => (Z.L_deriv y).continuousAt.continuousWithinAt)
    (fun y _ => (Z.L_deriv y).differentiableAt.differentiableWithinAt) hb r ⟨le_rfl, h1⟩ x ⟨h1, le_rfl⟩ h1
  rw [← hAd] at this
  have hr : r ≤ 1 := by linarith [Z.rx, Z.x1]
  have h4 : M ^ 2 * (x - r) ≤ 1/2 := by
    have := Z.near
    have := mul_le_mul_of_nonneg_left (show x - r ≤ x0 - r by linarith) (sq_nonneg M)
    linarith
  have h5 := mul_le_mul_of_nonneg_right h4 (show 0 ≤ 2/9 * A by positivity)
  linarith

theorem deriv_pos (Z : NewtonZone p c M r x0) (x : ℝ) (h1 : r ≤ x) (h2 : x ≤ x0) : 0 < (derivative p).eval x := by
  have := Z.L_ge x h1 h2
  have hA := Z.A0
  have hs := (Z.sq_lt x h1 h2).2
  by_contra hc
  push Not at hc
  have := mul_nonpos_of_nonneg_of_nonpos hs.le hc
  linarith

theorem second_nonneg (Z : NewtonZone p c M r x0) (x : ℝ) (h1 : r ≤ x) (h2 : x ≤ x0) : 0 ≤ (derivative (derivative p)).eval x := by
  have hs := (Z.sq_lt x h1 h2).2
  have hA := Z.A0
  have hL := Z.L_ge x h1 h2
  have hp := Z.p_le x h1 h2
  have hode := Z.ode x
  have hr := Z.r0
  set A := (1 - r ^ 2) * (derivative p).eval r with hAd
  have h4 : M ^ 2 * (x - r) ≤ x / 2 := by
    have := Z.near
    have := mul_le_mul_of_nonneg_left (show x - r ≤ x0 - r by linarith) (sq_nonneg M)
    linarith
  have h5 : c * (p.eval x * (1 - x ^ 2)) ≤ M ^ 2 * (A * (x - r)) :=
    mul_le_mul Z.cM hp (mul_nonneg (Z.nonneg x h1 h2) hs.le) (by positivity)
  have h6 : M ^ 2 * (A * (x - r)) ≤ A * (x / 2) := by
    have := mul_le_mul_of_nonneg_left h4 hA.le
    linarith
  have h7 : x * (8/9 * A) ≤ x * ((1 - x ^ 2) * (derivative p).eval x) := mul_le_mul_of_nonneg_left hL (by linarith)
  have hxA : 0 < x * A := mul_pos (by linarith) hA
  have h8 : 0 ≤ (derivative (derivative p)).eval x * (1 - x ^ 2) * (1 - x ^ 2) := by
    rw [hode]
    have : (2 * x * (derivative p).eval x - c * p.eval x) * (1 - x ^ 2) =
      2 * (x * ((1 - x ^ 2) * (derivative p).eval x)) - c * (p.eval x * (1 - x ^ 2)) := by ring
    rw [this]
    linarith
  by_contra hc
  push Not at hc
  have := mul_neg_of_neg_of_pos (mul_neg_of_neg_of_pos hc hs) hs
  linarith

theorem deriv_mono (Z : NewtonZone p c M r x0) (x y : ℝ) (h1 : r ≤ x) (hxy : x ≤ y) (h2 : y ≤ x0) :
    (derivative p).eval x ≤ (derivative p).eval y := by
  have : MonotoneOn (fun z => (derivative p).eval z) (Icc r x0) := by
    refine monotoneOn_of_deriv_nonneg (convex_Icc _ _) (derivative p).continuous.continuousOn (derivative p).differentiable.differentiableOn ?_
    intro x hx
    rw [interior_Icc] at hx
    rw [Polynomial.deriv]
    exact Z.second_nonneg x hx.1.le hx.2.le
  exact this ⟨h1, by linarith⟩ ⟨by linarith, h2⟩ hxy

theorem tangents (Z : NewtonZone p c M r x0) (t : ℝ) (h1 : r ≤ t) (h2 : t ≤ x0) :
    p.eval t ≤ (derivative p).eval t * (t - r) ∧ (derivative p).eval r * (t - r) ≤ p.eval t := by
  have a := (convex_Icc r t).image_sub_le_mul_sub_of_deriv_le (f := fun z => p.eval z) (C := (derivative p).eval t) p.continuous.continuousOn
    p.differentiable.differentiableOn (fun y hy => by
      rw [interior_Icc] at hy
      rw [Polynomial.deriv]; exact Z.deriv_mono y t hy.1.le hy.2.le h2) r ⟨le_rfl, h1⟩ t ⟨h1, le_rfl⟩ h1
  have b := (convex_Icc r t).mul_sub_le_image_sub_of_le_deriv (f := fun z => p.eval z) (C := (derivative p).eval r) p.continuous.continuousOn
    p.differentiable.differentiableOn (fun y hy => by
      rw [interior_Icc] at hy
      rw [Polynomial.deriv]; exact Z.deriv_mono r y le_rfl hy.1.le (by linarith [hy.2])) r ⟨le_rfl, h1⟩ t ⟨h1, le_rfl⟩ h1
  rw [Z.root, sub_zero] at a b
  exact ⟨a, b⟩

/-- One Newton step stays on the same side and converges quadratically. -/
theorem newton (Z : NewtonZone p c M r x0) (t : ℝ) (h1 : r ≤ t) (h2 : t ≤ x0) :
    r ≤ t - p.eval t / (derivative p).eval t ∧ t - p.eval t / (derivative p).eval t ≤ t ∧
      (t - p.eval t / (derivative p).eval t - r) * (1 - x0 ^ 2) ≤ 2 * (t - r) ^ 2 := by
  obtain ⟨a, b⟩ := Z.tangents t h1 h2
  have hd := Z.deriv_pos t h1 h2
  have hp := Z.nonneg t h1 h2
  have hq : p.eval t / (derivative p).eval t ≤ t - r := by rw [div_le_iff₀ hd]; linarith
  have hq0 : 0 ≤ p.eval t / (derivative p).eval t := div_nonneg hp hd.le
  refine ⟨by linarith, by linarith, ?_⟩
  have hL := Z.L_le t h1 h2
  have hs := Z.sq_lt t h1 h2
  have hsr := Z.sq_lt r le_rfl Z.rx.le
  have hstep : t - p.eval t / (derivative p).eval t - r ≤ (t - r) * ((t ^ 2 - r ^ 2) / (1 - r ^ 2)) := by
    have e : t - p.eval t / (derivative p).eval t - r = ((t - r) * (derivative p).eval t - p.eval t) / (derivative p).eval t := by
      field_simp; ring
    rw [e, ← mul_div_assoc, div_le_div_iff₀ hd hsr.2]
    have h3 := mul_le_mul_of_nonneg_right b hsr.2.le
    have h4 := mul_le_mul_of_nonneg_left hL (show 0 ≤ t - r by linarith)
    linarith
  have h5 : (t ^ 2 - r ^ 2) / (1 - r ^ 2) * (1 - x0 ^ 2) ≤ 2 * (t - r) := by
    have h6 : (t ^ 2 - r ^ 2) ≤ 2 * (t - r) := by
      have := Z.r0
      have := Z.x1
      nlinarith
    have h7 : (1 - x0 ^ 2) / (1 - r ^ 2) ≤ 1 := (div_le_one hsr.2).2 hsr.1
    have h8 : 0 ≤ (1 - x0 ^ 2) / (1 - r ^ 2) := div_nonneg (Z.sq_lt x0 Z.rx.le le_rfl).2.le hsr.2.le
    have e : (t ^ 2 - r ^ 2) / (1 - r ^ 2) * (1 - x0 ^ 2) = (t ^ 2 - r ^ 2) * ((1 - x0 ^ 2) / (1 - r ^ 2)) := by ring
    rw [e]
    have h9 : 0 ≤ t ^ 2 - r ^ 2 := by
      have := pow_le_pow_left₀ Z.r0.le h1 2
      linarith
    have := mul_le_mul_of_nonneg_left h7 h9
    linarith
  have h10 := mul_le_mul_of_nonneg_right hstep (Z.sq_lt x0 Z.rx.le le_rfl).2.le
  have h11 := mul_le_mul_of_nonneg_left h5 (show 0 ≤ t - r by linarith)
  linarith

end NewtonZone
end TicTac
