import Verif.Spec.DoubleShell
import Verif.Lemmas.DoubleShell
/-! C130: on-shell energies and bins in double precision. -/
noncomputable section
namespace TicTac
open Spec

theorem dgrid_pos {N : Nat} {q : Nat → ℝ} (h : DoubleGrid N q) : ∀ i, 1 ≤ i → i ≤ N → 1 / 40 ≤ q i := by
  intro i h1
  induction i, h1 using Nat.le_induction with
  | base => intro h2; exact h.first (by omega)
  | succ i h1 ih =>
    intro h2
    have a := ih (by omega)
    have b := h.wide i (by omega)
    norm_num at a b ⊢
    linarith

theorem dgrid_grid {N : Nat} {q : Nat → ℝ} (h : DoubleGrid N q) : IsGrid N q := by
  refine ⟨h.zero.ge, fun i hi => ?_⟩
  rcases Nat.eq_zero_or_pos i with rfl | hp
  · rw [h.zero]; exact lt_of_lt_of_le (by norm_num) (h.first (by omega))
  · have a := dgrid_pos h i hp (by omega)
    have b := h.wide i hi
    norm_num at a b ⊢
    linarith

theorem dgrid_le {N : Nat} {q : Nat → ℝ} (h : DoubleGrid N q) : ∀ i ≤ N, q i ≤ 10 ^ 9 := by
  have hg := dgrid_grid h
  intro i hi
  have : ∀ k, i + k ≤ N → q i ≤ q (i + k) := by
    intro k
    induction k with
    | zero => intro _; exact le_refl _
    | succ k ih => intro hk; exact (ih (by omega)).trans (hg.2 (i + k) (by omega)).le
  have := this (N - i) (by omega)
  rw [show i + (N - i) = N by omega] at this
  exact this.trans h.last

/-- Exact midpoint momenta. -/
theorem mid_exact {N : Nat} {q : Nat → ℝ} (h : DoubleGrid N q) {Eb : ℝ} (h1 : -3 ≤ Eb) (h2 : Eb ≤ 0) {i : Nat} (hi : i < N) :
    0.0176 ≤ comEnergyToComQ (midE q Eb i) ∧ comEnergyToComQ (midE q Eb i) ≤ 10 ^ 10 ∧ q i * 1.0001 ≤ comEnergyToComQ (midE q Eb i) ∧
    comEnergyToComQ (midE q Eb i) * 1.0001 ≤ q (i + 1) := by
  have hEb : -(Mn + Mp) < Eb := by norm_num [Mn, Mp]; linarith
  have hs := qm_sq hEb q i
  obtain ⟨r1, r2⟩ := mass_ratio Eb h1 h2
  have hg := dgrid_grid h
  have a0 := grid_nonneg hg i (by omega)
  have b0 := dgrid_pos h (i + 1) (by omega) (by omega)
  have b1 := dgrid_le h (i + 1) (by omega)
  have w := h.wide i hi
  have hX : 0 ≤ comEnergyToComQ (midE q Eb i) := Real.sqrt_nonneg _
  generalize MN / (3 * mu1 Eb) = r at *
  generalize comEnergyToComQ (midE q Eb i) = X at *
  generalize q (i + 1) = b at *
  generalize q i = a at *
  have hb2 : 0.000625 ≤ b ^ 2 := by nlinarith
  have hb3 : b ^ 2 ≤ 10 ^ 18 := by norm_num at b1 ⊢; nlinarith
  have ha2 : 0 ≤ a ^ 2 := sq_nonneg a
  have hab : 1.0022 * a ^ 2 ≤ b ^ 2 := by
    have : (1.0011 * a) ^ 2 ≤ b ^ 2 := pow_le_pow_left₀ (by positivity) w 2
    norm_num at this ⊢
    nlinarith
  have l1 : 0.4997 * (a ^ 2 + b ^ 2) ≤ X ^ 2 := by rw [hs]; exact mul_le_mul_of_nonneg_right r1 (by positivity)
  have l2 : X ^ 2 ≤ 0.5001 * (a ^ 2 + b ^ 2) := by rw [hs]; exact mul_le_mul_of_nonneg_right r2 (by positivity)
  refine ⟨?_, ?_, ?_, ?_⟩
  · refine le_of_sq_le_sq ?_ hX
    norm_num at *; linarith
  · refine le_of_sq_le_sq ?_ (by norm_num)
    norm_num at *; linarith
  · refine le_of_sq_le_sq ?_ hX
    rw [mul_pow]
    norm_num at *; linarith
  · refine le_of_sq_le_sq ?_ (by linarith)
    rw [mul_pow]
    norm_num at *; linarith

section
variable {F : Fpu}

/-- Computed midpoint energies. -/
theorem mid_double (hF : IEEE F) {N : Nat} {q : Nat → ℝ} (h : DoubleGrid N q) {Eb : ℝ} (hE : IsDouble Eb) (h1 : -3 ≤ Eb) (h2 : Eb ≤ 0) {i : Nat} (hi : i < N) :
    |F.midT q Eb i - midT q Eb i| ≤ 1 / 10 ^ 11 + 2 / 10 ^ 14 * midT q Eb i ∧ 3.2 / 10 ^ 7 ≤ midT q Eb i ∧ IsDouble (F.midT q Eb i) := by
  have hEb : -(Mn + Mp) < Eb := by norm_num [Mn, Mp]; linarith
  obtain ⟨x1, x2, -, -⟩ := mid_exact h h1 h2 hi
  have b0 := dgrid_pos h (i + 1) (by omega) (by omega)
  have b1 := dgrid_le h (i + 1) (by omega)
  have hr1 : Rng 10 (q (i + 1)) := by constructor <;> norm_num at * <;> linarith
  have hr0 : q i = 0 ∨ Rng 10 (q i) := by
    rcases Nat.eq_zero_or_pos i with rfl | hp
    · exact Or.inl h.zero
    · have c0 := dgrid_pos h i hp (by omega)
      have c1 := dgrid_le h i (by omega)
      exact Or.inr (by constructor <;> norm_num at * <;> linarith)
  have dq := dv_midQ hF hE h1 h2 (h.dbl i (by omega)) (h.dbl (i + 1) (by omega)) hr0 hr1
  obtain ⟨t0, tL, -, -⟩ := midT_spec hEb q i
  have hsq := lab_lower h1 h2 t0
  rw [tL] at hsq
  have hcl := com_close h1 h2 dq.2.1
  have hrel := dq.2.1.rel (by norm_num)
  have hqd := dq.1
  unfold Fpu.midT
  have hTe : midT q Eb i = comMomentumToLabEnergy (comEnergyToComQ (midE q Eb i)) Eb := rfl
  rw [hTe] at tL t0 hsq ⊢
  generalize comEnergyToComQ (midE q Eb i) = X at *
  generalize F.comEnergyToComQ (F.midE q Eb i) = x at *
  have hxX : |x - X| ≤ 1 / 10 * X := by
    refine hrel.trans ?_
    have : (1.001 : ℝ) * (27 : ℕ) * ulpHalf * X ≤ 1.001 * (27 : ℕ) * (1 / 10 ^ 15) * X := by
      have := u_small
      gcongr
    refine this.trans ?_
    norm_num
    linarith
  have hx := abs_le.1 hxX
  have hxlow : 0.015 ≤ x := by
    have h3 := dq.2.1.2.1
    have h4 := pow_u_ge 27
    have hus := u_small
    have : (1 - 1 / 10 : ℝ) ≤ (1 - ulpHalf) ^ 27 := le_trans (by push_cast; norm_num at hus ⊢; linarith) h4
    have : 0.0176 * (1 - 1 / 10 : ℝ) ≤ X * (1 - ulpHalf) ^ 27 := mul_le_mul x1 this (by norm_num) (by linarith)
    norm_num at *; linarith
  have c := com_to_lab_double x Eb hqd hE (le_trans (by norm_num) hxlow) (by norm_num at *; linarith) h1 h2 hF
  have hT5 : 3.2 / 10 ^ 7 ≤ comMomentumToLabEnergy X Eb := by
    have : 0.0176 ^ 2 ≤ X ^ 2 := pow_le_pow_left₀ (by norm_num) x1 2
    norm_num at *; linarith
  refine ⟨?_, hT5, c.1⟩
  have e2 := hcl.rel (by norm_num)
  have e3 : 1.001 * ((2 * 27 : ℕ) : ℝ) * ulpHalf * comMomentumToLabEnergy X Eb ≤ 1 / 10 ^ 14 * comMomentumToLabEnergy X Eb :=
    mul_le_mul_of_nonneg_right (by unfold ulpHalf; norm_num) (by linarith)
  have e5 := abs_sub_le (F.comMomentumToLabEnergy x Eb) (comMomentumToLabEnergy x Eb) (comMomentumToLabEnergy X Eb)
  have hm := md_range h1 h2
  have e6 : x * x / deuteronMass Eb ≤ 1.21 * X ^ 2 / 1874 := by
    have : x * x ≤ (1.1 * X) * (1.1 * X) := mul_le_mul (by norm_num at *; linarith) (by norm_num at *; linarith) (by linarith) (by linarith)
    have : x * x ≤ 1.21 * X ^ 2 := by norm_num at *; linarith
    gcongr
    exact hm.1
  have hp : (938.272 : ℝ) = Mp := rfl
  have e7 : Mp + x * x / deuteronMass Eb ≤ 939 + comMomentumToLabEnergy X Eb := by
    rw [← hp]
    norm_num at *
    linarith
  have e8 := mul_le_mul_of_nonneg_left e7 (show (0 : ℝ) ≤ 1 / 10 ^ 14 by norm_num)
  have c2 := c.2
  norm_num at *
  linarith

/-- The computed on-shell momentum of a bin lies in the bin. -/
theorem own_bin (hF : IEEE F) {N : Nat} {q : Nat → ℝ} (h : DoubleGrid N q) {Eb : ℝ} (hE : IsDouble Eb) (h1 : -3 ≤ Eb) (h2 : Eb ≤ 0) {i : Nat} (hi : i < N) :
    q i < F.labEnergyToComMomentum (F.midT q Eb i) Eb ∧ F.labEnergyToComMomentum (F.midT q Eb i) Eb < q (i + 1) ∧
    |F.labEnergyToComMomentum (F.midT q Eb i) Eb - labEnergyToComMomentum (midT q Eb i) Eb| ≤ 7 / 10 ^ 5 * labEnergyToComMomentum (midT q Eb i) Eb := by
  have hEb : -(Mn + Mp) < Eb := by norm_num [Mn, Mp]; linarith
  obtain ⟨e, tlow, td⟩ := mid_double hF h hE h1 h2 hi
  obtain ⟨x1, x2, x3, x4⟩ := mid_exact h h1 h2 hi
  obtain ⟨-, tL, -, -⟩ := midT_spec hEb q i
  have tup : midT q Eb i ≤ 10 ^ 20 := by
    have hu := lab_upper h1 h2 (T := midT q Eb i) (by linarith)
    rw [tL] at hu
    have : comEnergyToComQ (midE q Eb i) ^ 2 ≤ (10 ^ 10) ^ 2 := pow_le_pow_left₀ (Real.sqrt_nonneg _) x2 2
    norm_num at *
    linarith
  have hb := abs_le.1 e
  have n := lab_near h1 h2 (S := F.midT q Eb i) (T := midT q Eb i) (e := 3.2 / 10 ^ 5) (by linarith) (by norm_num) (by norm_num) (e.trans (by
    have := mul_le_mul_of_nonneg_left tlow (show (0 : ℝ) ≤ 3.2 / 10 ^ 5 by norm_num)
    norm_num at this tlow ⊢; linarith))
  have c := C128_lab_to_com (F.midT q Eb i) Eb td hE (by norm_num at hb tlow ⊢; linarith) (by norm_num at hb tup ⊢; linarith) h1 h2 hF
  rw [tL] at n ⊢
  generalize comEnergyToComQ (midE q Eb i) = X at *
  generalize labEnergyToComMomentum (F.midT q Eb i) Eb = Y at *
  generalize F.labEnergyToComMomentum (F.midT q Eb i) Eb = Z at *
  have n' := abs_le.1 n
  have c' := abs_le.1 c
  have hq0 := grid_nonneg (dgrid_grid h) i (by omega)
  refine ⟨?_, ?_, ?_⟩
  · norm_num at *; linarith
  · norm_num at *; linarith
  · rw [abs_le]; constructor <;> norm_num at * <;> linarith

/-- Computed midpoint energies increase. -/
theorem mid_increasing (hF : IEEE F) {N : Nat} {q : Nat → ℝ} (h : DoubleGrid N q) {Eb : ℝ} (hE : IsDouble Eb) (h1 : -3 ≤ Eb) (h2 : Eb ≤ 0) {i : Nat} (hi : i + 1 < N) :
    F.midT q Eb i < F.midT q Eb (i + 1) := by
  have hEb : -(Mn + Mp) < Eb := by norm_num [Mn, Mp]; linarith
  obtain ⟨e0, l0, -⟩ := mid_double hF h hE h1 h2 (i := i) (by omega)
  obtain ⟨e1, l1, -⟩ := mid_double hF h hE h1 h2 hi
  obtain ⟨-, t0, -, -⟩ := midT_spec hEb q i
  obtain ⟨-, t1, -, -⟩ := midT_spec hEb q (i + 1)
  have s0 := qm_sq hEb q i
  have s1 := qm_sq hEb q (i + 1)
  have x0 := (mid_exact h h1 h2 (i := i) (by omega)).1
  have hr : 0 < MN / (3 * mu1 Eb) := lt_of_lt_of_le (by norm_num) (mass_ratio Eb h1 h2).1
  have w0 := h.wide i (by omega)
  have w1 := h.wide (i + 1) hi
  have a0 := grid_nonneg (dgrid_grid h) i (by omega)
  have a1 := grid_nonneg (dgrid_grid h) (i + 1) (by omega)
  have hgap : 1.001 * midT q Eb i ≤ midT q Eb (i + 1) := by
    by_contra hlt
    push Not at hlt
    have m := (lab_mono h1 h2 (by linarith) hlt.le).trans (lab_scale h1 h2 (T := midT q Eb i) (l := 1.001) (by linarith) (by norm_num)).2
    rw [t0, t1] at m
    have m2 : comEnergyToComQ (midE q Eb (i + 1)) ^ 2 ≤ (1.001 * comEnergyToComQ (midE q Eb i)) ^ 2 := pow_le_pow_left₀ (Real.sqrt_nonneg _) m 2
    rw [mul_pow, s0, s1] at m2
    generalize MN / (3 * mu1 Eb) = r at *
    have u0 : (1.0011 * q i) ^ 2 ≤ q (i + 1) ^ 2 := pow_le_pow_left₀ (by positivity) w0 2
    have u1 : (1.0011 * q (i + 1)) ^ 2 ≤ q (i + 1 + 1) ^ 2 := pow_le_pow_left₀ (by positivity) w1 2
    have b0 := dgrid_pos h (i + 1) (by omega) (by omega)
    have pb : 0 < q (i + 1) ^ 2 := by positivity
    have pa : 0 ≤ q i ^ 2 := by positivity
    have : r * (q (i + 1) ^ 2 + q (i + 1 + 1) ^ 2) ≤ r * (1.001 ^ 2 * (q i ^ 2 + q (i + 1) ^ 2)) := by linarith
    have := le_of_mul_le_mul_left this hr
    rw [mul_pow] at u0 u1
    norm_num at *
    linarith
  have g0 := abs_le.1 e0
  have g1 := abs_le.1 e1
  norm_num at *
  linarith

theorem mem_dOnShellBins (Nq : Nat) (q : Nat → ℝ) (Eb : ℝ) (inputs : List ℝ) (i : Nat) :
    i ∈ F.onShellBins Nq q Eb inputs ↔ i < Nq ∧ ∃ T ∈ inputs, (i + 1 < Nq ∧ F.midT q Eb i ≤ T ∧ T ≤ F.midT q Eb (i + 1)) ∨
      (1 ≤ i ∧ F.midT q Eb (i - 1) ≤ T ∧ T ≤ F.midT q Eb i) := by
  classical
  unfold Fpu.onShellBins
  rw [List.mem_filter, List.mem_range, binMark_eq]
  unfold Fpu.midMark
  simp only [Bool.and_eq_true, decide_eq_true_eq, List.any_eq_true]
  constructor
  · rintro ⟨h, (⟨a, -, T, hT, b⟩ | ⟨a, b, -, T, hT, c⟩)⟩
    · exact ⟨h, T, hT, Or.inl ⟨by omega, b⟩⟩
    · rw [Nat.sub_add_cancel a] at c
      exact ⟨h, T, hT, Or.inr ⟨a, c⟩⟩
  · rintro ⟨h, T, hT, (⟨a, b⟩ | ⟨a, b⟩)⟩
    · exact ⟨h, Or.inl ⟨by omega, by omega, T, hT, b⟩⟩
    · exact ⟨h, Or.inr ⟨a, by omega, by omega, T, hT, by rw [Nat.sub_add_cancel a]; exact b⟩⟩

theorem dOnShellBins_sorted (Nq : Nat) (q : Nat → ℝ) (Eb : ℝ) (inputs : List ℝ) : (F.onShellBins Nq q Eb inputs).Pairwise (· < ·) :=
  List.Pairwise.sublist List.filter_sublist List.pairwise_lt_range

/-- What the search returns. -/
theorem dFindOnShell_eq (hF : IEEE F) {N : Nat} {q : Nat → ℝ} (h : DoubleGrid N q) {Eb : ℝ} (hE : IsDouble Eb) (h1 : -3 ≤ Eb) (h2 : Eb ≤ 0) (inputs : List ℝ) :
    F.findOnShell N q Eb inputs = .ok ⟨(F.onShellBins N q Eb inputs).map (F.midT q Eb), (F.onShellBins N q Eb inputs).map fun i => F.labEnergyToComMomentum (F.midT q Eb i) Eb,
      (F.onShellBins N q Eb inputs).map fun i => F.comQToComEnergy (F.labEnergyToComMomentum (F.midT q Eb i) Eb), F.onShellBins N q Eb inputs⟩ := by
  have hg := dgrid_grid h
  have hown : ∀ i < N, findQBin N q (F.labEnergyToComMomentum (F.midT q Eb i) Eb) = .ok i := fun i hi =>
    findQBin_of hg hi (own_bin hF h hE h1 h2 hi).1 (own_bin hF h hE h1 h2 hi).2.1
  have hm : ((F.onShellBins N q Eb inputs).map fun i => F.labEnergyToComMomentum (F.midT q Eb i) Eb).mapM (findQBin N q) = .ok (F.onShellBins N q Eb inputs) := by
    have hb : ∀ i ∈ F.onShellBins N q Eb inputs, i < N := fun i hi => ((mem_dOnShellBins _ _ _ _ _).1 hi).1
    generalize F.onShellBins N q Eb inputs = l at hb
    induction l with
    | nil => rfl
    | cons a l ih =>
      rw [List.map_cons, List.mapM_cons, hown a (hb a (by simp)), ih (fun i hi => hb i (by simp [hi]))]
      rfl
  unfold Fpu.findOnShell
  simp only [List.map_map]
  have e : List.map ((fun T => F.labEnergyToComMomentum T Eb) ∘ F.midT q Eb) (F.onShellBins N q Eb inputs) =
    (F.onShellBins N q Eb inputs).map fun i => F.labEnergyToComMomentum (F.midT q Eb i) Eb := rfl
  rw [e, hm]
  rfl

/-- C130. In double precision the search for on-shell bins does not stop the program, whatever energies are requested: the lab energies it returns increase strictly, each is the
midpoint energy of its bin up to 10⁻¹¹ MeV + 2·10⁻¹⁴ T although it went through a formula that cancels, the index is that of this bin, and the on-shell momentum lies inside the bin, within 7·10⁻⁵ of
the exact one. -/
theorem C130_on_shell (N : Nat) (q : Nat → ℝ) (h : DoubleGrid N q) (Eb : ℝ) (hE : IsDouble Eb) (h1 : -3 ≤ Eb) (h2 : Eb ≤ 0) (inputs : List ℝ) (hF : IEEE F) :
    ∃ o, F.findOnShell N q Eb inputs = .ok o ∧ o.Tlab.Pairwise (· < ·) ∧ o.qIdx.Pairwise (· < ·) ∧ o.qIdx.length = o.Tlab.length ∧ o.qcom.length = o.Tlab.length ∧
      ∀ k (hk : k < o.qIdx.length) (hk' : k < o.Tlab.length) (hk'' : k < o.qcom.length), o.qIdx[k] < N ∧
        ∃ T, IsMidpointEnergy q Eb o.qIdx[k] T ∧ |o.Tlab[k] - T| ≤ 1 / 10 ^ 11 + 2 / 10 ^ 14 * T ∧ |o.qcom[k] - labEnergyToComMomentum T Eb| ≤ 7 / 10 ^ 5 * labEnergyToComMomentum T Eb ∧
          q o.qIdx[k] < o.qcom[k] ∧ o.qcom[k] < q (o.qIdx[k] + 1) := by
  have hEb : -(Mn + Mp) < Eb := by norm_num [Mn, Mp]; linarith
  refine ⟨_, dFindOnShell_eq hF h hE h1 h2 inputs, ?_, dOnShellBins_sorted _ _ _ _, by simp, by simp, ?_⟩
  · have inc : ∀ i j, i < j → j < N → F.midT q Eb i < F.midT q Eb j := by
      intro i j hij
      induction j, hij using Nat.le_induction with
      | base => intro hj; exact mid_increasing hF h hE h1 h2 hj
      | succ j hij ih => intro hj; exact (ih (by omega)).trans (mid_increasing hF h hE h1 h2 hj)
    dsimp only
    rw [List.pairwise_map]
    refine (dOnShellBins_sorted N q Eb inputs).imp_of_mem ?_
    intro a b ha hb hab
    exact inc a b hab ((mem_dOnShellBins _ _ _ _ _).1 hb).1
  · intro k hk hk' hk''
    dsimp only at hk ⊢
    have hi : (F.onShellBins N q Eb inputs)[k] < N := ((mem_dOnShellBins _ _ _ _ _).1 (List.getElem_mem hk)).1
    refine ⟨hi, midT q Eb (F.onShellBins N q Eb inputs)[k], (midT_spec hEb q _).2.2.2, ?_, ?_, ?_, ?_⟩
    · rw [List.getElem_map]; exact (mid_double hF h hE h1 h2 hi).1
    · rw [List.getElem_map]; exact (own_bin hF h hE h1 h2 hi).2.2
    · rw [List.getElem_map]; exact (own_bin hF h hE h1 h2 hi).1
    · rw [List.getElem_map]; exact (own_bin hF h hE h1 h2 hi).2.1

/-- C130. Every requested energy between the first and the last midpoint energy (10⁻¹¹ MeV + 2·10⁻¹⁴ T inside) is bracketed by two computed lab energies of neighbouring bins. -/
theorem C130_bracketed (N : Nat) (q : Nat → ℝ) (h : DoubleGrid N q) (Eb : ℝ) (hE : IsDouble Eb) (h1 : -3 ≤ Eb) (h2 : Eb ≤ 0) (inputs : List ℝ) (hF : IEEE F) (hN : 2 ≤ N)
    (o : OnShell) (ho : F.findOnShell N q Eb inputs = .ok o) (T : ℝ) (hT : T ∈ inputs) (t0 t1 : ℝ) (m0 : IsMidpointEnergy q Eb 0 t0) (m1 : IsMidpointEnergy q Eb (N - 1) t1)
    (hlo : t0 + (1 / 10 ^ 11 + 2 / 10 ^ 14 * t0) ≤ T) (hhi : T ≤ t1 - (1 / 10 ^ 11 + 2 / 10 ^ 14 * t1)) :
    ∃ k k', ∃ hk : k < o.qIdx.length, ∃ hk' : k' < o.qIdx.length, ∃ g : k < o.Tlab.length, ∃ g' : k' < o.Tlab.length, o.qIdx[k'] = o.qIdx[k] + 1 ∧ o.Tlab[k] ≤ T ∧ T ≤ o.Tlab[k'] := by
  have hEb : -(Mn + Mp) < Eb := by norm_num [Mn, Mp]; linarith
  have huniq : ∀ i t, IsMidpointEnergy q Eb i t → t = midT q Eb i := by
    intro i t ht
    obtain ⟨s0, s1, s2, -⟩ := midT_spec hEb q i
    have hm := (mu1_pos hEb).1
    have he : comQToComEnergy (labEnergyToComMomentum t Eb) = comQToComEnergy (labEnergyToComMomentum (midT q Eb i) Eb) := by
      rw [ht.2, s2, midE_eq]
    by_contra hne
    have key : ∀ x y, 0 ≤ x → x < y → comQToComEnergy (labEnergyToComMomentum x Eb) < comQToComEnergy (labEnergyToComMomentum y Eb) := by
      intro x y hx hxy
      exact (C22_q_energy 0 _ le_rfl (Real.sqrt_nonneg _)).2.2.2 _ (C22_lab_to_com_strict x y Eb hm hx hxy)
    rcases lt_or_gt_of_ne hne with hlt | hlt
    · exact absurd he (key _ _ ht.1 hlt).ne
    · exact absurd he (key _ _ s0 hlt).ne'
  rw [huniq 0 t0 m0] at hlo
  rw [huniq _ t1 m1] at hhi
  have d0 := abs_le.1 (mid_double hF h hE h1 h2 (i := 0) (by omega)).1
  have d1 := abs_le.1 (mid_double hF h hE h1 h2 (i := N - 1) (by omega)).1
  have hlo' : F.midT q Eb 0 ≤ T := by linarith [d0.2]
  have hhi' : T ≤ F.midT q Eb (N - 1) := by linarith [d1.1]
  have hex : ∀ m, m < N → T ≤ F.midT q Eb m → 1 ≤ m → ∃ i, i + 1 < N ∧ F.midT q Eb i ≤ T ∧ T ≤ F.midT q Eb (i + 1) := by
    intro m
    induction m with
    | zero => intro _ _ h; omega
    | succ m ih =>
      intro hm hT' _
      by_cases hc : F.midT q Eb m ≤ T
      · exact ⟨m, hm, hc, hT'⟩
      · rcases Nat.eq_zero_or_pos m with rfl | hp
        · exact absurd hlo' hc
        · exact ih (by omega) (not_le.1 hc).le hp
  obtain ⟨i, hi, a, b⟩ := hex (N - 1) (by omega) hhi' (by omega)
  rw [dFindOnShell_eq hF h hE h1 h2 inputs] at ho
  simp only [Except.ok.injEq] at ho
  subst ho
  obtain ⟨k, hk, ek⟩ := List.getElem_of_mem ((mem_dOnShellBins (F := F) N q Eb inputs i).2 ⟨by omega, T, hT, Or.inl ⟨hi, a, b⟩⟩)
  obtain ⟨k', hk', ek'⟩ := List.getElem_of_mem ((mem_dOnShellBins (F := F) N q Eb inputs (i + 1)).2 ⟨hi, T, hT, Or.inr ⟨by omega, by simpa using ⟨a, b⟩⟩⟩)
  refine ⟨k, k', hk, hk', by simpa using hk, by simpa using hk', ?_, ?_, ?_⟩
  · dsimp only; rw [ek, ek']
  · dsimp only; rw [List.getElem_map, ek]; exact a
  · dsimp only; rw [List.getElem_map, ek']; exact b

/-- Neighbouring boundaries of a Chebyshev grid. -/
theorem cheb_wide {N i : Nat} (h1 : 1 ≤ i) (h2 : i + 1 ≤ N) (hN : N ≤ 400) {scale t : ℝ} (hs : 0 < scale) (ht : 1 ≤ t) :
    1.0012 * chebValue N scale t i ≤ chebValue N scale t (i + 1) := by
  have hi : (1 : ℝ) ≤ i := by exact_mod_cast h1
  have hiN : (i : ℝ) + 1 ≤ N := by exact_mod_cast h2
  have hN' : (N : ℝ) ≤ 400 := by exact_mod_cast hN
  have hpi := Real.pi_pos
  have hx : 0 < (2 * (i : ℝ) - 1) * Real.pi / (4 * N) := by
    have : 0 < 2 * (i : ℝ) - 1 := by linarith
    have : (0 : ℝ) < N := by linarith
    positivity
  have hNp : (0 : ℝ) < 4 * N := by linarith
  have hxy : (2 * (i : ℝ) - 1) * Real.pi / (4 * N) ≤ (2 * ((i + 1 : Nat) : ℝ) - 1) * Real.pi / (4 * N) := by
    push_cast
    gcongr
    linarith
  have hy : (2 * ((i + 1 : Nat) : ℝ) - 1) * Real.pi / (4 * N) < Real.pi / 2 := by
    push_cast
    rw [div_lt_div_iff₀ hNp (by norm_num)]
    nlinarith
  have hr := tan_ratio hx hxy hy
  have he : ((2 * ((i + 1 : Nat) : ℝ) - 1) * Real.pi / (4 * N) - (2 * (i : ℝ) - 1) * Real.pi / (4 * N)) / ((2 * (i : ℝ) - 1) * Real.pi / (4 * N)) = 2 / (2 * i - 1) := by
    have : (2 * (i : ℝ) - 1) ≠ 0 := by linarith
    have : (N : ℝ) ≠ 0 := by linarith
    push_cast
    field_simp
    ring
  rw [he] at hr
  have htp : 0 < Real.tan ((2 * (i : ℝ) - 1) * Real.pi / (4 * N)) := Real.tan_pos_of_pos_of_lt_pi_div_two hx (lt_of_le_of_lt hxy hy)
  have hf : (1.0012 : ℝ) ≤ 1 + 1 / 2 * (2 / (2 * i - 1)) := by
    have : (1 : ℝ) / 797 ≤ 1 / (2 * i - 1) := one_div_le_one_div_of_le (by linarith) (by linarith)
    have e : (1 : ℝ) / 2 * (2 / (2 * i - 1)) = 1 / (2 * i - 1) := by
      have : (2 * (i : ℝ) - 1) ≠ 0 := by linarith
      field_simp
    rw [e]
    norm_num at *
    linarith
  have hr2 : 1.0012 * Real.tan ((2 * (i : ℝ) - 1) * Real.pi / (4 * N)) ≤ Real.tan ((2 * ((i + 1 : Nat) : ℝ) - 1) * Real.pi / (4 * N)) := by
    refine le_trans ?_ hr
    rw [mul_comm]
    exact mul_le_mul_of_nonneg_left hf htp.le
  unfold chebValue
  generalize Real.tan ((2 * (i : ℝ) - 1) * Real.pi / (4 * N)) = A at *
  generalize Real.tan ((2 * ((i + 1 : Nat) : ℝ) - 1) * Real.pi / (4 * N)) = B at *
  have hB : (1.0012 * A) ^ t ≤ B ^ t := Real.rpow_le_rpow (by positivity) hr2 (by linarith)
  rw [Real.mul_rpow (by norm_num) htp.le] at hB
  have h12 : (1.0012 : ℝ) ≤ 1.0012 ^ t := by
    have := Real.rpow_le_rpow_of_exponent_le (show (1 : ℝ) ≤ 1.0012 by norm_num) ht
    rwa [Real.rpow_one] at this
  have hA : 0 < A ^ t := Real.rpow_pos_of_pos htp t
  have : 1.0012 * A ^ t ≤ B ^ t := le_trans (mul_le_mul_of_nonneg_right h12 hA.le) hB
  calc 1.0012 * (scale * A ^ t) = scale * (1.0012 * A ^ t) := by ring
    _ ≤ scale * B ^ t := mul_le_mul_of_nonneg_left this hs.le

/-- The grids the program computes for itself meet the hypotheses: up to 400 bins, sparseness from 1 to 20, first boundary at 0.026 MeV or more, last one at most 9·10⁸ MeV. -/
theorem C130_own_grid (N : Nat) (scale t : ℝ) (init init' : Nat → ℝ) (hN : N ≤ 400) (hs : IsDouble scale) (hs1 : 1 / 10 ^ 100 ≤ scale) (hs2 : scale ≤ 10 ^ 100) (htd : IsDouble t)
    (ht0 : 1 ≤ t) (ht : t ≤ 20) (hF : IEEE F) (hL : Libm F) (hfirst : 26 / 1000 ≤ chebArray N scale t init' 1) (hlast : chebArray N scale t init' N ≤ 9 * 10 ^ 8) :
    DoubleGrid N (F.chebArray N scale t init) := by
  have hN6 : N ≤ 10 ^ 6 := hN.trans (by norm_num)
  have htp : 0 < t := by linarith
  have hsp : 0 < scale := lt_of_lt_of_le (by positivity) hs1
  have near : ∀ i ≤ N, |F.chebArray N scale t init i - chebArray N scale t init' i| ≤ 3 / 10 ^ 11 * chebArray N scale t init' i := by
    intro i hi
    have c := C129_near N scale t init init' hN6 hs hs1 hs2 htd htp ht hF hL i hi
    refine c.trans (mul_le_mul_of_nonneg_right ?_ ?_)
    · have hN' : (N : ℝ) ≤ 400 := by exact_mod_cast hN
      have : (N : ℝ) * (t + 1) ≤ 400 * 21 := mul_le_mul hN' (by linarith) (by linarith) (by norm_num)
      norm_num at *
      linarith
    · by_contra hneg
      push Not at hneg
      have := le_trans (abs_nonneg _) c
      have hk : 0 ≤ (3 : ℝ) / 10 ^ 15 * N * (t + 1) := by positivity
      rcases hk.eq_or_lt with hk | hk
      · have hN0 : N = 0 := by
          by_contra hne
          have : 0 < (N : ℝ) := by exact_mod_cast Nat.pos_of_ne_zero hne
          have : 0 < (3 : ℝ) / 10 ^ 15 * N * (t + 1) := by positivity
          linarith
        subst hN0
        obtain rfl : i = 0 := by omega
        have : chebArray 0 scale t init' 0 = 0 := by unfold chebArray; rw [Function.update_self]
        linarith
      · have := mul_neg_of_pos_of_neg hk hneg
        linarith
  have inc := C129_increasing N scale t init hN6 hs hs1 hs2 htd (le_trans (by norm_num) ht0) ht hF hL
  refine ⟨fun j hj => ?_, inc.1, fun h0 => ?_, ?_, fun i hi => ?_⟩
  · rcases Nat.eq_zero_or_pos j with rfl | h
    · rw [inc.1]; exact double_zero
    · rw [dchebArray_get _ _ _ _ _ h hj]
      exact (cheb_val hF hL h hj hN6 hs ⟨hs1, hs2⟩ htd htp.le ht).1
  · have a := abs_le.1 (near 1 h0)
    norm_num at *
    linarith
  · have a := abs_le.1 (near N le_rfl)
    norm_num at *
    linarith
  · rcases Nat.eq_zero_or_pos i with rfl | h
    · have b := inc.2 0 1 (by norm_num) hi
      rw [inc.1, mul_zero]
      rw [inc.1] at b
      exact b.le
    · have a := abs_le.1 (near i hi.le)
      have b := abs_le.1 (near (i + 1) hi)
      have w := cheb_wide h hi hN hsp ht0
      rw [← show chebArray N scale t init' i = chebValue N scale t i from updLoop_get (chebValue N scale t) N init' i h hi.le,
        ← show chebArray N scale t init' (i + 1) = chebValue N scale t (i + 1) from updLoop_get (chebValue N scale t) N init' (i + 1) (by omega) hi] at w
      have p : 0 ≤ chebArray N scale t init' i := by
        have := le_trans (abs_nonneg _) (near i hi.le)
        linarith
      generalize chebArray N scale t init' i = A at *
      generalize chebArray N scale t init' (i + 1) = B at *
      norm_num at *
      linarith

/-- The grid of the example input (30 bins, scale 200 MeV, sparseness 2) meets the hypotheses. -/
theorem example_own_grid (init : Nat → ℝ) : DoubleGrid 30 (roundFpu.chebArray 30 200 2 init) := by
  have hpi := Real.pi_gt_three
  have hpi2 := Real.pi_le_four
  have x0 : 0 < (2 * ((1 : Nat) : ℝ) - 1) * Real.pi / (4 * (30 : Nat)) := by push_cast; norm_num; positivity
  have x1 : (2 * ((1 : Nat) : ℝ) - 1) * Real.pi / (4 * (30 : Nat)) < Real.pi / 2 := by push_cast; norm_num; linarith
  have l := Real.le_tan x0.le x1
  have l2 : 25 / 1000 ≤ (2 * ((1 : Nat) : ℝ) - 1) * Real.pi / (4 * (30 : Nat)) := by push_cast; norm_num; linarith
  have g1 : chebArray 30 200 2 init 1 = 200 * Real.tan ((2 * ((1 : Nat) : ℝ) - 1) * Real.pi / (4 * (30 : Nat))) ^ (2 : ℝ) := updLoop_get (chebValue 30 200 2) 30 init 1 (by norm_num) (by norm_num)
  have g2 : chebArray 30 200 2 init 30 = 200 * Real.tan ((2 * ((30 : Nat) : ℝ) - 1) * Real.pi / (4 * (30 : Nat))) ^ (2 : ℝ) := updLoop_get (chebValue 30 200 2) 30 init 30 (by norm_num) (by norm_num)
  have e : (2 * ((30 : Nat) : ℝ) - 1) * Real.pi / (4 * (30 : Nat)) = Real.pi / 2 - (2 * ((1 : Nat) : ℝ) - 1) * Real.pi / (4 * (30 : Nat)) := by push_cast; ring
  rw [e, Real.tan_pi_div_two_sub] at g2
  have two : IsDouble 2 := by simpa using double_nat 2 (by norm_num)
  refine C130_own_grid 30 200 2 init init (by norm_num) (by simpa using double_nat 200 (by norm_num)) (by norm_num) (by norm_num) two (by norm_num) (by norm_num) roundFpu_ieee roundFpu_libm ?_ ?_
  · rw [g1]
    generalize Real.tan ((2 * ((1 : Nat) : ℝ) - 1) * Real.pi / (4 * (30 : Nat))) = A at *
    have hA : 25 / 1000 ≤ A := l2.trans l
    rw [Real.rpow_two]
    nlinarith
  · rw [g2]
    generalize Real.tan ((2 * ((1 : Nat) : ℝ) - 1) * Real.pi / (4 * (30 : Nat))) = A at *
    have hA : 25 / 1000 ≤ A := l2.trans l
    have : A⁻¹ ≤ (25 / 1000 : ℝ)⁻¹ := inv_anti₀ (by norm_num) hA
    have hi : 0 < A⁻¹ := inv_pos.2 (by linarith)
    rw [Real.rpow_two]
    generalize A⁻¹ = C at *
    norm_num at this ⊢
    nlinarith

example (inputs : List ℝ) (init : Nat → ℝ) : ∃ o, roundFpu.findOnShell 30 (roundFpu.chebArray 30 200 2 init) (-2) inputs = .ok o := by
  obtain ⟨o, ho, -⟩ := C130_on_shell 30 _ (example_own_grid init) (-2) (isDouble_neg (by simpa using double_nat 2 (by norm_num))) (by norm_num) (by norm_num) inputs roundFpu_ieee
  exact ⟨o, ho⟩

/-- Grids with 100 MeV bins meet the hypotheses. -/
theorem doubleGrid_example : DoubleGrid 8 (fun i => 100 * (i : ℝ)) := by
  refine ⟨fun j hj => ?_, by norm_num, fun _ => by norm_num, by norm_num, fun i hi => ?_⟩
  · have := double_nat (100 * j) (by omega)
    push_cast at this
    exact this
  · rcases Nat.eq_zero_or_pos i with rfl | hp
    · norm_num
    · have a : (1 : ℝ) ≤ i := by exact_mod_cast hp
      have b : (i : ℝ) ≤ 7 := by exact_mod_cast (show i ≤ 7 by omega)
      push_cast
      norm_num
      linarith

example (inputs : List ℝ) : ∃ o, roundFpu.findOnShell 8 (fun i => 100 * (i : ℝ)) (-2) inputs = .ok o := by
  obtain ⟨o, ho, -⟩ := C130_on_shell 8 _ doubleGrid_example (-2) (isDouble_neg (by simpa using double_nat 2 (by norm_num))) (by norm_num) (by norm_num) inputs roundFpu_ieee
  exact ⟨o, ho⟩

end
end TicTac
end
