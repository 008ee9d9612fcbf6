import Verif.Model.DoubleShell
import Verif.Props.Double
import Verif.Props.DoubleGrid
import Verif.Props.OnShell
/-! Rounding in the search for on-shell bins. -/
noncomputable section
namespace TicTac
open Spec

section
variable {F : Fpu} (hF : IEEE F)
include hF

theorem dv_mu1 {Eb : ℝ} (hE : IsDouble Eb) (h1 : -3 ≤ Eb) (h2 : Eb ≤ 0) : Dv 12 12 (F.mu1 Eb) (mu1 Eb) := by
  have md := dv_Md hF hE h1 h2
  exact Dv.div hF (Dv.mul hF (dv_Mn hF) md (by norm_num) (by norm_num)) (Dv.add hF 4 4 (dv_Mn hF) md (by norm_num) (by norm_num) (by norm_num) (by norm_num) (by norm_num) (by norm_num))
    (by norm_num) (by norm_num)

theorem dv_half : Dv 1 1 (F.lit 0.5) (0.5 : ℝ) := Dv.lit hF (by constructor <;> norm_num) (by norm_num)

theorem dv_edge {Eb x : ℝ} (hE : IsDouble Eb) (h1 : -3 ≤ Eb) (h2 : Eb ≤ 0) (hx : IsDouble x) (hr : Rng 10 x) : Dv 16 33 (F.edgeE Eb x) (0.5 * (x * x) / mu1 Eb) := by
  have dx := Dv.exact hx hr
  exact Dv.div hF (Dv.mul hF (dv_half hF) (Dv.mul hF dx dx (by norm_num) (by norm_num)) (by norm_num) (by norm_num)) (dv_mu1 hF hE h1 h2) (by norm_num) (by norm_num)

theorem edge_zero {Eb : ℝ} (hE : IsDouble Eb) (h1 : -3 ≤ Eb) (h2 : Eb ≤ 0) : F.edgeE Eb 0 = 0 := by
  have z : |(0 : ℝ)| ≤ 2 ^ 1023 := by rw [abs_zero]; positivity
  have a : F.mul 0 0 = 0 := by
    have := hF.mul 0 0 double_zero double_zero (by rw [mul_zero]; exact z)
    rw [mul_zero] at this
    exact nearest_eq this double_zero
  have b : F.mul (F.lit 0.5) 0 = 0 := by
    have := hF.mul (F.lit 0.5) 0 (dv_half hF).1 double_zero (by rw [mul_zero]; exact z)
    rw [mul_zero] at this
    exact nearest_eq this double_zero
  have m := dv_mu1 hF hE h1 h2
  have c := hF.div 0 (F.mu1 Eb) double_zero m.1 m.2.1.pos.ne' (by rw [zero_div]; exact z)
  rw [zero_div] at c
  unfold Fpu.edgeE
  rw [a, b]
  exact nearest_eq c double_zero

/-- Adding an exact zero. -/
theorem Dv.add_zero' {k n : Nat} {x X : ℝ} (h : Dv k n x X) (hk : k ≤ 1000) (hn : n ≤ 280) : Dv (k + 1) n (F.add x 0) X := by
  have ha := abs_range h.2.1 hk (h.2.2.safe hn)
  have hne := hF.add x 0 h.1 double_zero (by rw [add_zero]; exact ha)
  rw [add_zero] at hne
  have := round_val h.2.1 hk (h.2.2.safe hn) hne
  exact ⟨this.1, this.2, h.2.2⟩

/-- Midpoint energies and momenta. -/
theorem dv_midQ {Eb : ℝ} (hE : IsDouble Eb) (h1 : -3 ≤ Eb) (h2 : Eb ≤ 0) {q : Nat → ℝ} {i : Nat} (hd0 : IsDouble (q i)) (hd1 : IsDouble (q (i + 1))) (h0 : q i = 0 ∨ Rng 10 (q i)) (hr : Rng 10 (q (i + 1))) :
    Dv 27 44 (F.comEnergyToComQ (F.midE q Eb i)) (comEnergyToComQ (midE q Eb i)) := by
  have e1 := dv_edge hF hE h1 h2 hd1 hr
  have sum : Dv 17 34 (F.add (F.edgeE Eb (q (i + 1))) (F.edgeE Eb (q i))) (0.5 * (q (i + 1) * q (i + 1)) / mu1 Eb + 0.5 * (q i * q i) / mu1 Eb) := by
    rcases h0 with h0 | h0
    · rw [h0, edge_zero hF hE h1 h2]
      have := Dv.add_zero' hF e1 (by norm_num) (by norm_num)
      rw [mul_zero, mul_zero, zero_div, add_zero]
      exact ⟨this.1, this.2.1, this.2.2.mono (by norm_num)⟩
    · exact Dv.add hF 16 33 e1 (dv_edge hF hE h1 h2 hd0 h0) (by norm_num) (by norm_num) (by norm_num) (by norm_num) (by norm_num) (by norm_num)
  have e : Dv 19 35 (F.midE q Eb i) (midE q Eb i) := by
    have := Dv.mul hF (dv_half hF) sum (by norm_num) (by norm_num)
    exact ⟨this.1, this.2.1, this.2.2.mono (by norm_num)⟩
  have three : Dv 0 1 (3 : ℝ) 3 := by exact_mod_cast dv_int 3 1 (by norm_num) (by norm_num) (by norm_num)
  have four : Dv 0 1 (4 : ℝ) 4 := by exact_mod_cast dv_int 4 1 (by norm_num) (by norm_num) (by norm_num)
  have := Dv.sqrt hF (Dv.div hF (Dv.mul hF (Dv.mul hF four e (by norm_num) (by norm_num)) (dv_MN hF) (by norm_num) (by norm_num)) three (by norm_num) (by norm_num)) (by norm_num) (by norm_num)
  exact ⟨this.1, this.2.1.mono (by norm_num), this.2.2.mono (by norm_num)⟩

end

/-- Growth of the c.m. momentum with the lab energy. -/
theorem lab_scale {Eb : ℝ} (h1 : -3 ≤ Eb) (h2 : Eb ≤ 0) {T l : ℝ} (hT : 0 ≤ T) (hl : 1 ≤ l) :
    l * labEnergyToComMomentum T Eb ^ 2 ≤ labEnergyToComMomentum (l * T) Eb ^ 2 ∧ labEnergyToComMomentum (l * T) Eb ≤ l * labEnergyToComMomentum T Eb := by
  have hm := md_range h1 h2
  unfold labEnergyToComMomentum
  dsimp only
  generalize deuteronMass Eb = M at *
  have hM : 0 < M := by linarith
  have hp : (0 : ℝ) < Mp := by unfold Mp; norm_num
  have hl0 : 0 ≤ l := by linarith
  have hlT : T ≤ l * T := le_mul_of_one_le_left hT hl
  have hA : 0 < (Mp + M) * (Mp + M) := by positivity
  have d1 : 0 < (Mp + M) * (Mp + M) + 2 * T * M := by positivity
  have d2 : 0 < (Mp + M) * (Mp + M) + 2 * (l * T) * M := by positivity
  have key1 : (T + 2 * Mp) / ((Mp + M) * (Mp + M) + 2 * T * M) ≤ (l * T + 2 * Mp) / ((Mp + M) * (Mp + M) + 2 * (l * T) * M) := by
    rw [div_le_div_iff₀ d1 d2]
    have : 0 ≤ (l * T - T) * (M - Mp) ^ 2 := mul_nonneg (by linarith) (sq_nonneg _)
    nlinarith [this]
  constructor
  · rw [Real.sq_sqrt (by positivity), Real.sq_sqrt (by positivity)]
    have := mul_le_mul_of_nonneg_left key1 (show 0 ≤ M * M * (l * T) by positivity)
    calc l * (M * M * T * (T + 2 * Mp) / ((Mp + M) * (Mp + M) + 2 * T * M)) = M * M * (l * T) * ((T + 2 * Mp) / ((Mp + M) * (Mp + M) + 2 * T * M)) := by ring
      _ ≤ _ := this
      _ = _ := by ring
  · rw [show l * Real.sqrt (M * M * T * (T + 2 * Mp) / ((Mp + M) * (Mp + M) + 2 * T * M)) = Real.sqrt (l ^ 2 * (M * M * T * (T + 2 * Mp) / ((Mp + M) * (Mp + M) + 2 * T * M))) by
      rw [Real.sqrt_mul (sq_nonneg l), Real.sqrt_sq hl0]]
    apply Real.sqrt_le_sqrt
    have n1 : l * T + 2 * Mp ≤ l * (T + 2 * Mp) := by nlinarith
    calc M * M * (l * T) * (l * T + 2 * Mp) / ((Mp + M) * (Mp + M) + 2 * (l * T) * M) ≤ M * M * (l * T) * (l * (T + 2 * Mp)) / ((Mp + M) * (Mp + M) + 2 * T * M) := by
          gcongr
      _ = _ := by ring

theorem lab_mono {Eb : ℝ} (h1 : -3 ≤ Eb) (h2 : Eb ≤ 0) {S T : ℝ} (hS : 0 ≤ S) (h : S ≤ T) : labEnergyToComMomentum S Eb ≤ labEnergyToComMomentum T Eb := by
  rcases eq_or_lt_of_le h with rfl | h
  · exact le_refl _
  · exact (C22_lab_to_com_strict S T Eb (by linarith [(md_range h1 h2).1]) hS h).le

/-- Momenta at lab energies that agree up to a factor. -/
theorem lab_near {Eb : ℝ} (h1 : -3 ≤ Eb) (h2 : Eb ≤ 0) {S T e : ℝ} (hT : 0 < T) (he0 : 0 ≤ e) (he : e ≤ 1 / 4) (h : |S - T| ≤ e * T) :
    |labEnergyToComMomentum S Eb - labEnergyToComMomentum T Eb| ≤ 2 * e * labEnergyToComMomentum T Eb := by
  have hb := abs_le.1 h
  have hS : 0 < S := by nlinarith
  have hL : 0 ≤ labEnergyToComMomentum T Eb := Real.sqrt_nonneg _
  have hLS : 0 ≤ labEnergyToComMomentum S Eb := Real.sqrt_nonneg _
  have up : labEnergyToComMomentum S Eb ≤ (1 + e) * labEnergyToComMomentum T Eb :=
    (lab_mono h1 h2 hS.le (by linarith)).trans (lab_scale h1 h2 hT.le (by linarith)).2
  have lo : labEnergyToComMomentum T Eb ≤ (1 + 2 * e) * labEnergyToComMomentum S Eb := by
    refine (lab_mono h1 h2 hT.le ?_).trans (lab_scale h1 h2 hS.le (by linarith)).2
    nlinarith
  rw [abs_le]
  have he2 : 0 ≤ e * labEnergyToComMomentum T Eb := mul_nonneg he0 hL
  constructor
  · nlinarith [mul_nonneg he0 hLS, mul_nonneg he0 he2]
  · linarith

/-- Lab energies of momenta that agree up to roundings. -/
theorem com_close {Eb : ℝ} (h1 : -3 ≤ Eb) (h2 : Eb ≤ 0) {k : Nat} {x X : ℝ} (h : Close k x X) :
    Close (2 * k) (comMomentumToLabEnergy x Eb) (comMomentumToLabEnergy X Eb) := by
  have hMd : 0 < deuteronMass Eb := by linarith [(md_range h1 h2).1]
  have hx := h.pos
  have hX := h.1
  obtain ⟨a1, a2⟩ := C22_com_roundtrip x Eb hMd hx.le
  obtain ⟨b1, b2⟩ := C22_com_roundtrip X Eb hMd hX.le
  have z : labEnergyToComMomentum 0 Eb = 0 := by unfold labEnergyToComMomentum; simp
  have one : ∀ y Y : ℝ, 0 < y → 0 < Y → y * (1 - ulpHalf) ^ k ≤ Y → comMomentumToLabEnergy y Eb * (1 - ulpHalf) ^ (2 * k) ≤ comMomentumToLabEnergy Y Eb := by
    intro y Y hy hY hle
    obtain ⟨a1, a2⟩ := C22_com_roundtrip y Eb hMd hy.le
    obtain ⟨b1, b2⟩ := C22_com_roundtrip Y Eb hMd hY.le
    by_contra hlt
    push Not at hlt
    have hP := pow_u_pos (2 * k)
    have hT : 0 < comMomentumToLabEnergy Y Eb := by
      rcases b1.lt_or_eq with h | h
      · exact h
      · rw [← h, z] at b2; linarith
    -- scale
    have hl1 : 1 ≤ ((1 - ulpHalf) ^ (2 * k))⁻¹ := (one_le_inv₀ hP).2 (pow_u_le_one _)
    have s := (lab_scale h1 h2 hT.le hl1).1
    rw [b2] at s
    have hlt' : ((1 - ulpHalf) ^ (2 * k))⁻¹ * comMomentumToLabEnergy Y Eb < comMomentumToLabEnergy y Eb := by
      rw [inv_mul_lt_iff₀ hP, mul_comm]; exact hlt
    have m := C22_lab_to_com_strict _ _ Eb hMd (by positivity) hlt'
    rw [a2] at m
    have m2 : labEnergyToComMomentum (((1 - ulpHalf) ^ (2 * k))⁻¹ * comMomentumToLabEnergy Y Eb) Eb ^ 2 < y ^ 2 := pow_lt_pow_left₀ m (Real.sqrt_nonneg _) (by norm_num)
    have m3 := lt_of_le_of_lt s m2
    rw [inv_mul_lt_iff₀ hP] at m3
    have m4 : (y * (1 - ulpHalf) ^ k) ^ 2 ≤ Y ^ 2 := pow_le_pow_left₀ (by have := pow_u_pos k; positivity) hle 2
    have : (y * (1 - ulpHalf) ^ k) ^ 2 = (1 - ulpHalf) ^ (2 * k) * y ^ 2 := by rw [mul_pow, ← pow_mul, mul_comm k 2]; ring
    linarith
  refine ⟨?_, one X x hX hx h.2.1, one x X hx hX h.2.2⟩
  rcases b1.lt_or_eq with h | h
  · exact h
  · rw [← h, z] at b2; linarith

/-- A lower bound of the lab energy. -/
theorem lab_lower {Eb : ℝ} (h1 : -3 ≤ Eb) (h2 : Eb ≤ 0) {T : ℝ} (hT : 0 ≤ T) : labEnergyToComMomentum T Eb ^ 2 ≤ 939 * T := by
  have hm := md_range h1 h2
  unfold labEnergyToComMomentum
  dsimp only
  generalize deuteronMass Eb = M at *
  have hM : 0 < M := by linarith
  have hp : (0 : ℝ) < Mp := by unfold Mp; norm_num
  rw [Real.sq_sqrt (by positivity), div_le_iff₀ (by positivity)]
  have e1 : M * (T + 2 * Mp) * 2 ≤ (Mp + M) * (Mp + M) + 2 * T * M + 0 := by nlinarith [sq_nonneg (M - Mp)]
  have : M * M * T * (T + 2 * Mp) = (M / 2) * T * (M * (T + 2 * Mp) * 2) := by ring
  rw [this]
  have e2 : M / 2 * T ≤ 939 * T := mul_le_mul_of_nonneg_right (by linarith) hT
  exact mul_le_mul e2 (by linarith) (by positivity) (by linarith)

/-- An upper bound of the lab energy. -/
theorem lab_upper {Eb : ℝ} (h1 : -3 ≤ Eb) (h2 : Eb ≤ 0) {T : ℝ} (hT : 0 ≤ T) : 800 * T ≤ labEnergyToComMomentum T Eb ^ 2 := by
  have hm := md_range h1 h2
  have hp : (938.272 : ℝ) = Mp := rfl
  unfold labEnergyToComMomentum
  dsimp only
  rw [← hp]
  generalize deuteronMass Eb = M at *
  have hM : 0 < M := by linarith
  rw [Real.sq_sqrt (by positivity), le_div_iff₀ (by positivity)]
  have : 800 * ((938.272 + M) * (938.272 + M) + 2 * T * M) ≤ M * M * (T + 2 * 938.272) := by
    have a : 1600 * (T * M) ≤ M * (T * M) := mul_le_mul_of_nonneg_right (by linarith) (by positivity)
    have b : 1874 * M ≤ M * M := mul_le_mul_of_nonneg_right hm.1 hM.le
    norm_num at *
    linarith
  have := mul_le_mul_of_nonneg_left this hT
  norm_num at *
  linarith

end TicTac
end
