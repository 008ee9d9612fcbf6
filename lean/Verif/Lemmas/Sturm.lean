import Mathlib.Analysis.SpecialFunctions.Trigonometric.Deriv
import Mathlib.Analysis.SpecialFunctions.Trigonometric.Basic
import Mathlib.Analysis.Calculus.Deriv.MeanValue
import Mathlib.Analysis.Calculus.Deriv.Slope
import Mathlib.Topology.Order.IntermediateValue
/-! Sturm comparison with a sine, in both directions. -/
noncomputable section
namespace TicTac
open Set Filter Topology

/-- A solution of `f' = g`, `g' = -q f` on `[a,b]`. -/
structure Oscillates (f g q : ℝ → ℝ) (a b : ℝ) : Prop where
  df : ∀ x ∈ Icc a b, HasDerivAt f (g x) x
  dg : ∀ x ∈ Icc a b, HasDerivAt g (-(q x * f x)) x

theorem Oscillates.neg {f g q : ℝ → ℝ} {a b : ℝ} (h : Oscillates f g q a b) :
    Oscillates (fun x => -f x) (fun x => -g x) q a b where
  df x hx := (h.df x hx).neg
  dg x hx := by
    have := (h.dg x hx).neg
    refine this.congr_deriv ?_
    ring

/-- Wronskian of a solution with `sin (ω (x - a))`. -/
theorem wronskian_deriv {f g q : ℝ → ℝ} {a b : ℝ} (h : Oscillates f g q a b) (w : ℝ) (x : ℝ) (hx : x ∈ Icc a b) :
    HasDerivAt (fun x => f x * (w * Real.cos (w * (x - a))) - g x * Real.sin (w * (x - a)))
      ((q x - w ^ 2) * f x * Real.sin (w * (x - a))) x := by
  have hl : HasDerivAt (fun x : ℝ => w * (x - a)) w x := by
    simpa using ((hasDerivAt_id x).sub_const a).const_mul w
  have hc := (hl.cos).const_mul w
  have hs := hl.sin
  have := ((h.df x hx).mul hc).sub ((h.dg x hx).mul hs)
  refine this.congr_deriv ?_
  ring

theorem const_sign {f : ℝ → ℝ} {a b : ℝ} (hc : ∀ x ∈ Ioo a b, ContinuousAt f x) (h0 : ∀ x ∈ Ioo a b, f x ≠ 0) :
    (∀ x ∈ Ioo a b, 0 < f x) ∨ (∀ x ∈ Ioo a b, f x < 0) := by
  by_contra hcon
  push Not at hcon
  obtain ⟨⟨x, hx, hx0⟩, y, hy, hy0⟩ := hcon
  have hcon' : ContinuousOn f (Ioo a b) := fun z hz => (hc z hz).continuousWithinAt
  have := isPreconnected_Ioo.intermediate_value (a := x) (b := y) hx hy hcon' (show (0 : ℝ) ∈ Icc (f x) (f y) from ⟨hx0, hy0⟩)
  obtain ⟨z, hz, hz0⟩ := this
  exact h0 z hz hz0

theorem end_nonneg {f : ℝ → ℝ} {a b : ℝ} (hab : a < b) (h : ∀ x ∈ Ioo a b, 0 < f x) (ca : ContinuousAt f a) (cb : ContinuousAt f b) :
    0 ≤ f a ∧ 0 ≤ f b := by
  constructor
  · refine ge_of_tendsto (ca.tendsto.mono_left (nhdsWithin_le_nhds (s := Ioi a))) ?_
    filter_upwards [Ioo_mem_nhdsGT hab] with x hx
    exact (h x hx).le
  · refine ge_of_tendsto (cb.tendsto.mono_left (nhdsWithin_le_nhds (s := Iio b))) ?_
    filter_upwards [Ioo_mem_nhdsLT hab] with x hx
    exact (h x hx).le

/-- If `q > ω²`, a solution has a zero strictly inside every interval of length `π/ω`. -/
theorem sturm_zero {f g q : ℝ → ℝ} {a b w : ℝ} (hw : 0 < w) (hb : b = a + Real.pi / w) (h : Oscillates f g q a b)
    (hq : ∀ x ∈ Ioo a b, w ^ 2 < q x) : ∃ z ∈ Ioo a b, f z = 0 := by
  by_contra hcon
  push Not at hcon
  have hpi := Real.pi_pos
  have hab : a < b := by rw [hb]; have := div_pos hpi hw; linarith
  -- positive case
  have key : ∀ f g : ℝ → ℝ, Oscillates f g q a b → (∀ x ∈ Ioo a b, 0 < f x) → False := by
    intro f g h hpos
    obtain ⟨fa, fb⟩ := end_nonneg hab hpos (h.df a ⟨le_rfl, hab.le⟩).continuousAt (h.df b ⟨hab.le, le_rfl⟩).continuousAt
    have hmono : StrictMonoOn (fun x => f x * (w * Real.cos (w * (x - a))) - g x * Real.sin (w * (x - a))) (Icc a b) := by
      refine strictMonoOn_of_deriv_pos (convex_Icc a b) (fun x hx => (wronskian_deriv h w x hx).continuousAt.continuousWithinAt) ?_
      intro x hx
      rw [interior_Icc] at hx
      rw [(wronskian_deriv h w x (Ioo_subset_Icc_self hx)).deriv]
      refine mul_pos (mul_pos (by linarith [hq x hx]) (hpos x hx)) (Real.sin_pos_of_pos_of_lt_pi (mul_pos hw (by linarith [hx.1])) ?_)
      have : x - a < Real.pi / w := by linarith [hx.2]
      rwa [lt_div_iff₀ hw, mul_comm] at this
    have := hmono (⟨le_rfl, hab.le⟩ : a ∈ Icc a b) (⟨hab.le, le_rfl⟩ : b ∈ Icc a b) hab
    have e : w * (b - a) = Real.pi := by rw [hb]; field_simp; ring
    simp only [e, sub_self, mul_zero, Real.cos_zero, Real.sin_zero, Real.cos_pi, Real.sin_pi] at this
    nlinarith
  rcases const_sign (fun x hx => (h.df x (Ioo_subset_Icc_self hx)).continuousAt) hcon with hp | hn
  · exact key f g h hp
  · exact key _ _ h.neg fun x hx => by have := hn x hx; linarith

/-- If `q < Ω²` between two consecutive zeros, they are at least `π/Ω` apart. -/
theorem sturm_gap {f g q : ℝ → ℝ} {a b w : ℝ} (hw : 0 < w) (hab : a < b) (h : Oscillates f g q a b) (ha : f a = 0) (hb : f b = 0)
    (hne : ∀ x ∈ Ioo a b, f x ≠ 0) (hq : ∀ x ∈ Ioo a b, q x < w ^ 2) : Real.pi / w ≤ b - a := by
  by_contra hcon
  push Not at hcon
  have key : ∀ f g : ℝ → ℝ, Oscillates f g q a b → f a = 0 → f b = 0 → (∀ x ∈ Ioo a b, 0 < f x) → False := by
    intro f g h ha hb hpos
    have hg : g b ≤ 0 := by
      have ht := (h.df b ⟨hab.le, le_rfl⟩).tendsto_slope
      have ht2 := ht.mono_left (nhdsWithin_mono b (show Iio b ⊆ {b}ᶜ from fun x hx => ne_of_lt hx))
      refine le_of_tendsto ht2 ?_
      filter_upwards [Ioo_mem_nhdsLT hab] with x hx
      rw [slope_def_field, hb]
      have := hpos x hx
      exact div_nonpos_of_nonneg_of_nonpos (by linarith) (by linarith [hx.2])
    have hlt : ∀ x ∈ Ioc a b, 0 < Real.sin (w * (x - a)) := by
      intro x hx
      refine Real.sin_pos_of_pos_of_lt_pi (mul_pos hw (by linarith [hx.1])) ?_
      have : x - a < Real.pi / w := by linarith [hx.2]
      rwa [lt_div_iff₀ hw, mul_comm] at this
    have hmono : StrictAntiOn (fun x => f x * (w * Real.cos (w * (x - a))) - g x * Real.sin (w * (x - a))) (Icc a b) := by
      refine strictAntiOn_of_deriv_neg (convex_Icc a b) (fun x hx => (wronskian_deriv h w x hx).continuousAt.continuousWithinAt) ?_
      intro x hx
      rw [interior_Icc] at hx
      rw [(wronskian_deriv h w x (Ioo_subset_Icc_self hx)).deriv]
      exact mul_neg_of_neg_of_pos (mul_neg_of_neg_of_pos (by linarith [hq x hx]) (hpos x hx)) (hlt x ⟨hx.1, hx.2.le⟩)
    have := hmono (⟨le_rfl, hab.le⟩ : a ∈ Icc a b) (⟨hab.le, le_rfl⟩ : b ∈ Icc a b) hab
    simp only [ha, hb, sub_self, mul_zero, Real.sin_zero, zero_mul] at this
    have := mul_nonneg (neg_nonneg.2 hg) (hlt b ⟨hab, le_rfl⟩).le
    linarith
  rcases const_sign (fun x hx => (h.df x (Ioo_subset_Icc_self hx)).continuousAt) hne with hp | hn
  · exact key f g h ha hb hp
  · exact key _ _ h.neg (by rw [ha, neg_zero]) (by rw [hb, neg_zero]) fun x hx => by have := hn x hx; linarith

end TicTac
