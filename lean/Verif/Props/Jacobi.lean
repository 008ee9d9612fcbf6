import Verif.Model.Jacobi
import Mathlib.Analysis.InnerProductSpace.Basic
import Mathlib.Analysis.SpecialFunctions.Integrals.Basic
import Mathlib.Analysis.SpecialFunctions.Trigonometric.ArctanDeriv
import Mathlib.Tactic.LinearCombination
/-! Permuted Jacobi momenta and the wave-packet permutation element: C27, C28, C58, C71. -/
noncomputable section
namespace TicTac
open scoped RealInnerProductSpace

namespace Spec

/-- Jacobi momenta of three particles with total momentum zero (equal masses), spectator = first particle of the triple. -/
def jacobiP {V : Type} [AddCommGroup V] [Module ℝ V] (k₂ k₃ : V) : V := (1/2 : ℝ) • (k₂ - k₃)
def jacobiQ {V : Type} (k₁ : V) : V := k₁

/-- Kinetic energy (times the mass) in Jacobi momenta. -/
def kin (p q : ℝ) : ℝ := p ^ 2 + 3 / 4 * q ^ 2

end Spec

/-! ### C27 -/

private theorem perm_vectors {V : Type} [NormedAddCommGroup V] [InnerProductSpace ℝ V] (k₁ k₂ k₃ : V) (h : k₁ + k₂ + k₃ = 0) :
    Spec.jacobiP k₃ k₁ = -((1/2 : ℝ) • Spec.jacobiP k₂ k₃ + (3/4 : ℝ) • Spec.jacobiQ k₁) ∧
    Spec.jacobiQ k₂ = Spec.jacobiP k₂ k₃ - (1/2 : ℝ) • Spec.jacobiQ k₁ := by
  have h3 : k₃ = -k₁ - k₂ := by rw [eq_sub_iff_add_eq, ← sub_eq_zero, ← h]; abel
  subst h3
  unfold Spec.jacobiP Spec.jacobiQ
  constructor
  · module
  · module

theorem pi1_radicand (p q x : ℝ) (hx : x ^ 2 ≤ 1) : 0 ≤ 0.25 * p * p + 9.0 / 16.0 * q * q + 0.75 * p * q * x := by
  norm_num
  nlinarith [sq_nonneg (1/2 * p + 3/4 * q * x), mul_nonneg (sq_nonneg q) (sub_nonneg.2 hx)]

theorem pi2_radicand (p q x : ℝ) (hx : x ^ 2 ≤ 1) : 0 ≤ p * p + 0.25 * q * q - p * q * x := by
  norm_num
  nlinarith [sq_nonneg (p - 1/2 * q * x), mul_nonneg (sq_nonneg q) (sub_nonneg.2 hx)]

theorem pi1_sq (p q x : ℝ) (hx : x ^ 2 ≤ 1) : pi1Tilde p q x ^ 2 = 1/4 * p ^ 2 + 9/16 * q ^ 2 + 3/4 * p * q * x := by
  unfold pi1Tilde
  rw [Real.sq_sqrt (pi1_radicand p q x hx)]; norm_num; ring

theorem pi2_sq (p q x : ℝ) (hx : x ^ 2 ≤ 1) : pi2Tilde p q x ^ 2 = p ^ 2 + 1/4 * q ^ 2 - p * q * x := by
  unfold pi2Tilde
  rw [Real.sq_sqrt (pi2_radicand p q x hx)]; norm_num; ring

private theorem clamp_id {c : ℝ} (h : c ^ 2 ≤ 1) : clampCos c = c := by
  have := abs_le.1 ((sq_le_one_iff_abs_le_one c).1 h)
  unfold clampCos
  rw [if_neg (by linarith), if_neg (by linarith)]

/-- The cosines are physical: clamping never changes them (exact arithmetic). -/
theorem C27_cos_physical (p q x : ℝ) (hx : x ^ 2 ≤ 1) :
    (pi1Tilde p q x ≠ 0 → cosTheta1Raw p q x ^ 2 ≤ 1 ∧ cosTheta1 p q x = cosTheta1Raw p q x) ∧
    (pi2Tilde p q x ≠ 0 → cosTheta2Raw p q x ^ 2 ≤ 1 ∧ cosTheta2 p q x = cosTheta2Raw p q x) := by
  have hq : 0 ≤ q ^ 2 * (1 - x ^ 2) := mul_nonneg (sq_nonneg q) (sub_nonneg.2 hx)
  constructor
  · intro h
    have hp : 0 < pi1Tilde p q x ^ 2 := by positivity
    have : cosTheta1Raw p q x ^ 2 ≤ 1 := by
      unfold cosTheta1Raw
      rw [div_pow, div_le_one hp, pi1_sq p q x hx]
      norm_num
      nlinarith
    exact ⟨this, clamp_id this⟩
  · intro h
    have hp : 0 < pi2Tilde p q x ^ 2 := by positivity
    have : cosTheta2Raw p q x ^ 2 ≤ 1 := by
      unfold cosTheta2Raw
      rw [div_pow, div_le_one hp, pi2_sq p q x hx]
      norm_num
      nlinarith
    exact ⟨this, clamp_id this⟩

/-- C27: for three particles with total momentum zero, Jacobi momenta `p` (particles 2,3) and `q` (particle 1) and
`x` the cosine of the angle between them: the formulas give the lengths of the cyclically permuted Jacobi momenta, the
cosines of their angles with `p`, and kinetic energy is conserved. -/
theorem C27_permuted_momenta {V : Type} [NormedAddCommGroup V] [InnerProductSpace ℝ V] (k₁ k₂ k₃ : V) (h : k₁ + k₂ + k₃ = 0)
    (x : ℝ) (hx : x ^ 2 ≤ 1) (hang : ⟪Spec.jacobiP k₂ k₃, Spec.jacobiQ k₁⟫ = ‖Spec.jacobiP k₂ k₃‖ * ‖Spec.jacobiQ k₁‖ * x) :
    let p := ‖Spec.jacobiP k₂ k₃‖
    let q := ‖Spec.jacobiQ k₁‖
    ‖Spec.jacobiP k₃ k₁‖ = pi1Tilde p q x ∧ ‖Spec.jacobiQ k₂‖ = pi2Tilde p q x ∧
    (Spec.jacobiP k₃ k₁ ≠ 0 → ⟪Spec.jacobiP k₂ k₃, Spec.jacobiP k₃ k₁⟫ = p * ‖Spec.jacobiP k₃ k₁‖ * cosTheta1 p q x) ∧
    (Spec.jacobiQ k₂ ≠ 0 → ⟪Spec.jacobiP k₂ k₃, Spec.jacobiQ k₂⟫ = p * ‖Spec.jacobiQ k₂‖ * cosTheta2 p q x) ∧
    Spec.kin (pi1Tilde p q x) (pi2Tilde p q x) = Spec.kin p q := by
  intro p q
  obtain ⟨e1, e2⟩ := perm_vectors k₁ k₂ k₃ h
  set P := Spec.jacobiP k₂ k₃ with hP
  set Q := Spec.jacobiQ k₁ with hQ
  have hPP : ⟪P, P⟫ = p ^ 2 := real_inner_self_eq_norm_sq P
  have n1 : ‖Spec.jacobiP k₃ k₁‖ ^ 2 = 1/4 * p ^ 2 + 9/16 * q ^ 2 + 3/4 * p * q * x := by
    rw [e1, norm_neg, norm_add_sq_real, norm_smul, norm_smul, inner_smul_left, inner_smul_right, hang]
    simp only [Real.norm_eq_abs, conj_trivial]
    rw [abs_of_pos (by norm_num : (0:ℝ) < 1/2), abs_of_pos (by norm_num : (0:ℝ) < 3/4)]
    ring
  have n2 : ‖Spec.jacobiQ k₂‖ ^ 2 = p ^ 2 + 1/4 * q ^ 2 - p * q * x := by
    rw [e2, norm_sub_sq_real, norm_smul, inner_smul_right, hang]
    simp only [Real.norm_eq_abs]
    rw [abs_of_pos (by norm_num : (0:ℝ) < 1/2)]
    ring
  have l1 : ‖Spec.jacobiP k₃ k₁‖ = pi1Tilde p q x := by
    rw [← Real.sqrt_sq (norm_nonneg (Spec.jacobiP k₃ k₁)), n1, ← pi1_sq p q x hx]
    exact Real.sqrt_sq (Real.sqrt_nonneg _)
  have l2 : ‖Spec.jacobiQ k₂‖ = pi2Tilde p q x := by
    rw [← Real.sqrt_sq (norm_nonneg (Spec.jacobiQ k₂)), n2, ← pi2_sq p q x hx]
    exact Real.sqrt_sq (Real.sqrt_nonneg _)
  obtain ⟨c1, c2⟩ := C27_cos_physical p q x hx
  refine ⟨l1, l2, ?_, ?_, ?_⟩
  · intro hne
    have hz : pi1Tilde p q x ≠ 0 := by rw [← l1]; exact norm_ne_zero_iff.2 hne
    rw [(c1 hz).2, l1, e1, inner_neg_right, inner_add_right, inner_smul_right, inner_smul_right, hang, hPP]
    unfold cosTheta1Raw
    rw [mul_assoc p (_ : ℝ) (_ / _), mul_div_cancel₀ _ hz]
    change _ = _
    have hPp : ‖P‖ = p := rfl
    have hQq : ‖Q‖ = q := rfl
    rw [hPp, hQq]
    norm_num
    ring
  · intro hne
    have hz : pi2Tilde p q x ≠ 0 := by rw [← l2]; exact norm_ne_zero_iff.2 hne
    rw [(c2 hz).2, l2, e2, inner_sub_right, inner_smul_right, hang, hPP]
    unfold cosTheta2Raw
    rw [mul_assoc p (_ : ℝ) (_ / _), mul_div_cancel₀ _ hz]
    change _ = _
    have hPp : ‖P‖ = p := rfl
    have hQq : ‖Q‖ = q := rfl
    rw [hPp, hQq]
    norm_num
    ring
  · unfold Spec.kin
    rw [pi1_sq p q x hx, pi2_sq p q x hx]; ring

/-- Non-vacuity: three collinear momenta 3, -1, -2. -/
example : ‖Spec.jacobiP (-2 : ℝ) 3‖ = pi1Tilde ‖Spec.jacobiP (-1 : ℝ) (-2)‖ ‖Spec.jacobiQ (3 : ℝ)‖ 1 :=
  (C27_permuted_momenta (3 : ℝ) (-1) (-2) (by norm_num) 1 (by norm_num) (by
    simp [Spec.jacobiP, Spec.jacobiQ]; norm_num [abs_of_pos])).1

/-! ### Cells and meshes -/

/-- A proper cell: non-negative, non-empty bins. -/
def Cell.Proper (c : Cell) : Prop := 0 ≤ c.pl ∧ c.pl < c.pu ∧ 0 ≤ c.ql ∧ c.ql < c.qu

/-- What the meshes contain: x points strictly inside (-1,1); for phi, sine and cosine of angles strictly between the
bra cell's bounds (Gauss points are interior). -/
def Spec.XMesh (xs : List (ℝ × ℝ)) : Prop := ∀ x ∈ xs, -1 < x.1 ∧ x.1 < 1
def Spec.PhiMesh (bra : Cell) (phis : List (ℝ × ℝ × ℝ)) : Prop :=
  ∀ f ∈ phis, ∃ φ, phiLower bra < φ ∧ φ < phiUpper bra ∧ f.1 = Real.sin φ ∧ f.2.1 = Real.cos φ

theorem phiLower_nonneg (bra : Cell) (h : bra.Proper) : 0 ≤ phiLower bra := by
  obtain ⟨a, b, c, d⟩ := h
  unfold phiLower atanDiv
  rw [if_neg (by linarith)]
  exact Real.arctan_nonneg.2 (div_nonneg a (by linarith))

theorem phiUpper_le (bra : Cell) : phiUpper bra ≤ Real.pi / 2 := by
  unfold phiUpper atanDiv
  split
  · exact le_rfl
  · exact (Real.arctan_lt_pi_div_two _).le

theorem phi_range (bra : Cell) (h : bra.Proper) : phiLower bra < phiUpper bra := by
  obtain ⟨a, b, c, d⟩ := h
  unfold phiLower phiUpper atanDiv
  rw [if_neg (by linarith)]
  split
  · exact Real.arctan_lt_pi_div_two _
  · rename_i h0
    have hc : 0 < bra.ql := lt_of_le_of_ne c (Ne.symm h0)
    apply Real.arctan_strictMono
    rw [div_lt_div_iff₀ (by linarith) hc]
    nlinarith

theorem phi_pos (bra : Cell) (h : bra.Proper) (phis : List (ℝ × ℝ × ℝ)) (hm : Spec.PhiMesh bra phis) (f : ℝ × ℝ × ℝ) (hf : f ∈ phis) :
    0 < f.1 ∧ 0 < f.2.1 := by
  obtain ⟨φ, h1, h2, e1, e2⟩ := hm f hf
  have a := phiLower_nonneg bra h
  have b := phiUpper_le bra
  rw [e1, e2]
  exact ⟨Real.sin_pos_of_pos_of_lt_pi (by linarith) (by linarith [Real.pi_pos]),
    Real.cos_pos_of_mem_Ioo ⟨by linarith [Real.pi_pos], by linarith⟩⟩

theorem pi_pos (s c x : ℝ) (hs : 0 < s) (hc : 0 < c) (h1 : -1 < x) (h2 : x < 1) : 0 < pi1Tilde s c x ∧ 0 < pi2Tilde s c x := by
  have hx : 0 < 1 - x ^ 2 := by nlinarith
  have hc2 : 0 < c ^ 2 * (1 - x ^ 2) := by positivity
  constructor
  · apply Real.sqrt_pos.2
    norm_num
    nlinarith [sq_nonneg (1/2 * s + 3/4 * c * x)]
  · apply Real.sqrt_pos.2
    norm_num
    nlinarith [sq_nonneg (s - 1/2 * c * x)]

/-- The k interval of a quadrature point is the set of scale factors that put all four momenta into their bins. -/
theorem k_interval (ket bra : Cell) (s c z1 z2 : ℝ) (hs : 0 < s) (hc : 0 < c) (h1 : 0 < z1) (h2 : 0 < z2) (k : ℝ) :
    (kMin ket bra s c z1 z2 ≤ k ∧ k ≤ kMax ket bra s c z1 z2) ↔
      (bra.pl ≤ k * s ∧ k * s ≤ bra.pu) ∧ (bra.ql ≤ k * c ∧ k * c ≤ bra.qu) ∧
      (ket.pl ≤ k * z1 ∧ k * z1 ≤ ket.pu) ∧ (ket.ql ≤ k * z2 ∧ k * z2 ≤ ket.qu) := by
  unfold kMin kMax
  rw [max_le_iff, max_le_iff, max_le_iff, le_min_iff, le_min_iff, le_min_iff, div_le_iff₀ hs, div_le_iff₀ hc,
    div_le_iff₀ h1, div_le_iff₀ h2, le_div_iff₀ hs, le_div_iff₀ hc, le_div_iff₀ h1, le_div_iff₀ h2]
  tauto

/-! ### C28 -/

/-- Two cells are energetically compatible: they contain momenta of equal kinetic energy. -/
def Spec.Compatible (ket bra : Cell) : Prop :=
  ∃ p q p' q', (ket.pl ≤ p ∧ p ≤ ket.pu) ∧ (ket.ql ≤ q ∧ q ≤ ket.qu) ∧ (bra.pl ≤ p' ∧ p' ≤ bra.pu) ∧ (bra.ql ≤ q' ∧ q' ≤ bra.qu) ∧
    Spec.kin p q = Spec.kin p' q'

private theorem element_zero (ket bra : Cell) (G : Nat → Nat → ℝ) (xs : List (ℝ × ℝ)) (phis : List (ℝ × ℝ × ℝ))
    (h : ∀ x ∈ xs, ∀ f ∈ phis, ∀ g, p123Term ket bra g x.1 x.2 f.1 f.2.1 f.2.2 = 0) : p123Element ket bra G xs phis = 0 := by
  unfold p123Element
  rw [List.sum_eq_zero, zero_div]
  intro y hy
  obtain ⟨xi, hxi, rfl⟩ := List.mem_map.1 hy
  apply List.sum_eq_zero
  intro z hz
  obtain ⟨fi, hfi, rfl⟩ := List.mem_map.1 hz
  exact h _ (List.fst_mem_of_mem_zipIdx hxi) _ (List.fst_mem_of_mem_zipIdx hfi) _

/-- C28: between energetically incompatible cells the computed element is exactly zero, for all meshes. -/
theorem C28_incompatible_zero (ket bra : Cell) (hb : bra.Proper) (G : Nat → Nat → ℝ) (xs : List (ℝ × ℝ)) (phis : List (ℝ × ℝ × ℝ))
    (hx : Spec.XMesh xs) (hphi : Spec.PhiMesh bra phis) (hinc : ¬ Spec.Compatible ket bra) :
    p123Element ket bra G xs phis = 0 ∧ p123Stored ket bra G xs phis = 0 := by
  have hz : p123Element ket bra G xs phis = 0 := by
    apply element_zero
    intro x hxm f hfm g
    obtain ⟨hs, hc⟩ := phi_pos bra hb phis hphi f hfm
    obtain ⟨hx1, hx2⟩ := hx x hxm
    obtain ⟨hz1, hz2⟩ := pi_pos f.1 f.2.1 x.1 hs hc hx1 hx2
    unfold p123Term
    simp only
    split
    · rfl
    · rename_i hk
      exfalso
      apply hinc
      have hle := not_lt.1 hk
      obtain ⟨a1, a2, a3, a4⟩ := (k_interval ket bra f.1 f.2.1 _ _ hs hc hz1 hz2 _).1 ⟨le_rfl, hle⟩
      refine ⟨_, _, _, _, a3, a4, a1, a2, ?_⟩
      have hx' : x.1 ^ 2 ≤ 1 := by nlinarith
      unfold Spec.kin
      rw [mul_pow, mul_pow, mul_pow, mul_pow, pi1_sq _ _ _ hx', pi2_sq _ _ _ hx']
      ring
  refine ⟨hz, ?_⟩
  unfold p123Stored
  rw [hz]; simp

/-- Non-vacuity: a low-energy and a high-energy cell are incompatible. -/
example : ¬ Spec.Compatible ⟨0, 1, 0, 1⟩ ⟨5, 6, 0, 1⟩ := by
  rintro ⟨p, q, p', q', ⟨a1, a2⟩, ⟨b1, b2⟩, ⟨c1, c2⟩, ⟨d1, d2⟩, h⟩
  simp only [Spec.kin] at *
  nlinarith

/-! ### C58 -/

/-- C58: the overlap table never hides a non-zero element: what is stored equals what the full computation gives. -/
theorem C58_overlap_safe (ket bra : Cell) (hb : bra.Proper) (G : Nat → Nat → ℝ) (xs : List (ℝ × ℝ)) (phis : List (ℝ × ℝ × ℝ)) :
    p123Stored ket bra G xs phis = p123Element ket bra G xs phis := by
  unfold p123Stored
  split
  · rfl
  · rename_i hno
    symm
    apply element_zero
    intro x hxm f hfm g
    have hnp : ¬ overlapPoint ket bra f.1 f.2.1 x.1 := fun hp => hno ⟨phi_range bra hb, f, hfm, x, hxm, hp⟩
    unfold p123Term
    simp only
    split
    · rfl
    · rename_i hk
      have hle := not_lt.1 hk
      rcases hle.eq_or_lt with he | hlt
      · rw [he]; ring
      · exfalso
        apply hnp
        unfold overlapPoint
        simp only
        unfold kMin kMax at hlt
        refine ⟨?_, ?_, ?_⟩
        · exact lt_of_le_of_lt ((le_max_left _ _).trans (le_max_left _ _)) (lt_of_lt_of_le hlt ((min_le_left _ _).trans (min_le_left _ _)))
        · have h3 : max (ket.pl / pi1Tilde f.1 f.2.1 x.1) (ket.ql / pi2Tilde f.1 f.2.1 x.1) ≤
              max (max (max (bra.pl / f.1) (bra.ql / f.2.1)) (ket.pl / pi1Tilde f.1 f.2.1 x.1)) (ket.ql / pi2Tilde f.1 f.2.1 x.1) :=
            max_le_max_right _ (le_max_right _ _)
          have h4 : min (min (min (bra.pu / f.1) (bra.qu / f.2.1)) (ket.pu / pi1Tilde f.1 f.2.1 x.1)) (ket.qu / pi2Tilde f.1 f.2.1 x.1) ≤
              min (ket.pu / pi1Tilde f.1 f.2.1 x.1) (ket.qu / pi2Tilde f.1 f.2.1 x.1) :=
            min_le_min_right _ (min_le_right _ _)
          exact h3.trans_lt (hlt.trans_le h4)
        · rw [← max_assoc, ← min_assoc]
          exact hlt

/-- Conversely, a pair of cells marked as overlapping really has a common momentum configuration at some mesh point. -/
theorem C58_overlap_sound (ket bra : Cell) (hb : bra.Proper) (xs : List (ℝ × ℝ)) (phis : List (ℝ × ℝ × ℝ))
    (hx : Spec.XMesh xs) (hphi : Spec.PhiMesh bra phis) (h : wpOverlap ket bra xs phis) : Spec.Compatible ket bra := by
  obtain ⟨-, f, hf, x, hxm, hp⟩ := h
  obtain ⟨hs, hc⟩ := phi_pos bra hb phis hphi f hf
  obtain ⟨hx1, hx2⟩ := hx x hxm
  obtain ⟨hz1, hz2⟩ := pi_pos f.1 f.2.1 x.1 hs hc hx1 hx2
  obtain ⟨-, -, h3⟩ := hp
  have hk : kMin ket bra f.1 f.2.1 (pi1Tilde f.1 f.2.1 x.1) (pi2Tilde f.1 f.2.1 x.1) ≤ kMax ket bra f.1 f.2.1 (pi1Tilde f.1 f.2.1 x.1) (pi2Tilde f.1 f.2.1 x.1) := by
    unfold kMin kMax
    rw [max_assoc (max _ _), min_assoc (min _ _)]
    exact h3.le
  obtain ⟨a1, a2, a3, a4⟩ := (k_interval ket bra f.1 f.2.1 _ _ hs hc hz1 hz2 _).1 ⟨le_rfl, hk⟩
  refine ⟨_, _, _, _, a3, a4, a1, a2, ?_⟩
  have hx' : x.1 ^ 2 ≤ 1 := by nlinarith
  unfold Spec.kin
  rw [mul_pow, mul_pow, mul_pow, mul_pow, pi1_sq _ _ _ hx', pi2_sq _ _ _ hx']
  ring

/-! ### C71 -/

open MeasureTheory in
/-- C71: every quadrature-point contribution carries the exact radial integral `∫ k dk` over the scale factors that put
the bra momenta `(k s, k c)` and the permuted momenta `(k z₁, k z₂)` into their bins. -/
theorem C71_radial_integral (ket bra : Cell) (hb : bra.Proper) (phis : List (ℝ × ℝ × ℝ)) (hphi : Spec.PhiMesh bra phis)
    (f : ℝ × ℝ × ℝ) (hf : f ∈ phis) (x wx G : ℝ) (h1 : -1 < x) (h2 : x < 1) :
    let z1 := pi1Tilde f.1 f.2.1 x
    let z2 := pi2Tilde f.1 f.2.1 x
    p123Term ket bra G x wx f.1 f.2.1 f.2.2 = wx * f.2.2 * f.2.1 * f.1 * G / (z1 * z2) *
      ∫ k in {k : ℝ | (bra.pl ≤ k * f.1 ∧ k * f.1 ≤ bra.pu) ∧ (bra.ql ≤ k * f.2.1 ∧ k * f.2.1 ≤ bra.qu) ∧
        (ket.pl ≤ k * z1 ∧ k * z1 ≤ ket.pu) ∧ (ket.ql ≤ k * z2 ∧ k * z2 ≤ ket.qu)}, k := by
  intro z1 z2
  obtain ⟨hs, hc⟩ := phi_pos bra hb phis hphi f hf
  obtain ⟨hz1, hz2⟩ := pi_pos f.1 f.2.1 x hs hc h1 h2
  have hset : {k : ℝ | (bra.pl ≤ k * f.1 ∧ k * f.1 ≤ bra.pu) ∧ (bra.ql ≤ k * f.2.1 ∧ k * f.2.1 ≤ bra.qu) ∧
        (ket.pl ≤ k * z1 ∧ k * z1 ≤ ket.pu) ∧ (ket.ql ≤ k * z2 ∧ k * z2 ≤ ket.qu)} =
      Set.Icc (kMin ket bra f.1 f.2.1 z1 z2) (kMax ket bra f.1 f.2.1 z1 z2) := by
    ext k
    exact (k_interval ket bra f.1 f.2.1 z1 z2 hs hc hz1 hz2 k).symm
  rw [hset]
  unfold p123Term
  simp only
  split
  · rename_i hk
    rw [Set.Icc_eq_empty (not_le.2 hk)]
    simp
  · rename_i hk
    rw [integral_Icc_eq_integral_Ioc, ← intervalIntegral.integral_of_le (not_lt.1 hk), integral_id]
    change _ = _ / (z1 * z2) * _
    have e1 : z1 ≠ 0 := hz1.ne'
    have e2 : z2 ≠ 0 := hz2.ne'
    rw [show pi1Tilde f.1 f.2.1 x = z1 from rfl, show pi2Tilde f.1 f.2.1 x = z2 from rfl]
    field_simp

/-- Non-vacuity: a proper cell and a one-point phi mesh. -/
example : Cell.Proper ⟨1, 2, 1, 2⟩ ∧ Spec.PhiMesh ⟨1, 2, 1, 2⟩ [(Real.sin (Real.pi / 4), Real.cos (Real.pi / 4), 1)] ∧
    Spec.XMesh [(0, 2)] := by
  refine ⟨by norm_num [Cell.Proper], ?_, by simp [Spec.XMesh]⟩
  intro f hf
  rw [List.mem_singleton] at hf
  subst hf
  refine ⟨Real.pi / 4, ?_, ?_, rfl, rfl⟩
  · rw [← Real.arctan_one]
    unfold phiLower atanDiv
    rw [if_neg (by norm_num)]
    exact Real.arctan_strictMono (by norm_num)
  · rw [← Real.arctan_one]
    unfold phiUpper atanDiv
    rw [if_neg (by norm_num)]
    exact Real.arctan_strictMono (by norm_num)

end TicTac
end
