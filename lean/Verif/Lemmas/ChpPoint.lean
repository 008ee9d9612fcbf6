import Verif.Lemmas.ChpProj
/-! The weights of the projection routines are the matrix elements of the force between the angular-momentum states. -/
noncomputable section
namespace TicTac
open Matrix Polynomial Spec

/-- What the projection routines add up for a force, at one cosine. -/
def kern (F : Force) (J : Nat) (coup : Bool) (S : Int) (pp p z : ℝ) (k : Fin 6) : ℝ :=
  F.c z * coefC J coup S z k + F.s z * coefS J coup S z k + F.ls z * coefLS J coup S pp p z k + F.t z * coefT J coup S pp p z k
    + F.sl z * coefSL J coup S pp p z k

theorem leg_next (J : Nat) (z : ℝ) : legI z (J + 1) = z * (legendre J).eval z - (1 - z ^ 2) * (derivative (legendre J)).eval z / (J + 1) := by
  have h := congrArg (eval z) (legendre_up J)
  simp at h
  unfold legI
  rw [if_neg (by omega), show ((J : Int) + 1).toNat = J + 1 by omega]
  have : (J : ℝ) + 1 ≠ 0 := by positivity
  field_simp
  linear_combination h

theorem leg_prev (J : Nat) (hJ : 1 ≤ J) (z : ℝ) : legI z (J - 1) = z * (legendre J).eval z + (1 - z ^ 2) * (derivative (legendre J)).eval z / J := by
  obtain ⟨n, rfl⟩ : ∃ n, J = n + 1 := ⟨J - 1, by omega⟩
  have h := congrArg (eval z) (legendre_deriv n)
  simp at h
  unfold legI
  rw [if_neg (by omega), show (((n + 1 : Nat) : Int) - 1).toNat = n by omega]
  have : ((n + 1 : Nat) : ℝ) ≠ 0 := by positivity
  field_simp
  push_cast
  linear_combination h

theorem leg_self (J : Nat) (z : ℝ) : legI z J = (legendre J).eval z := by unfold legI; simp

theorem leg_next2 (J : Nat) (z : ℝ) : ((J : ℝ) + 2) * legI z (J + 2) = (2 * J + 3) * z * legI z (J + 1) - (J + 1) * legI z J := by
  have h := congrArg (eval z) (legendre_bonnet J)
  simp at h
  unfold legI
  rw [if_neg (by omega), if_neg (by omega), if_neg (by omega), show ((J : Int) + 1).toNat = J + 1 by omega, show ((J : Int) + 2).toNat = J + 2 by omega, Int.toNat_natCast]
  linear_combination h

theorem leg_prev2 (J : Nat) (hJ : 1 ≤ J) (z : ℝ) : ((J : ℝ) - 1) * legI z (J - 2) = (2 * J - 1) * z * legI z (J - 1) - J * legI z J := by
  by_cases h1 : J = 1
  · subst h1; simp [legI, legendre_zero, legendre_one]; norm_num
  · obtain ⟨n, rfl⟩ : ∃ n, J = n + 2 := ⟨J - 2, by omega⟩
    have h := congrArg (eval z) (legendre_bonnet n)
    simp at h
    unfold legI
    rw [if_neg (by omega), if_neg (by omega), if_neg (by omega), show (((n + 2 : Nat) : Int) - 1).toNat = n + 1 by omega, show (((n + 2 : Nat) : Int) - 2).toNat = n by omega, Int.toNat_natCast]
    push_cast
    linear_combination h

theorem dirs_abs_le {z : ℝ} {u v : Vec} (h : Dirs z u v) : |z| ≤ 1 := by
  have h1 : 0 ≤ crossProduct u v ⬝ᵥ crossProduct u v := by
    rw [dot3]; nlinarith [mul_self_nonneg (crossProduct u v 0), mul_self_nonneg (crossProduct u v 1), mul_self_nonneg (crossProduct u v 2)]
  rw [cross_norm, h.uu, h.vv, h.uv] at h1
  exact (abs_le_of_sq_le_sq (by linarith : z ^ 2 ≤ 1 ^ 2) (by norm_num))

theorem mix_norm (n : ℝ) (hn : 1 ≤ n) : Real.sqrt (n * (2 * n + 1)) * Real.sqrt ((n + 1) * (2 * n + 1)) = (2 * n + 1) * Real.sqrt (n * (n + 1)) := by
  rw [← Real.sqrt_mul (by positivity), show n * (2 * n + 1) * ((n + 1) * (2 * n + 1)) = (2 * n + 1) ^ 2 * (n * (n + 1)) by ring,
    Real.sqrt_mul (by positivity), Real.sqrt_sq (by positivity)]

section
variable (F : Force) (J : Nat) (po pi z : ℝ) (u v : Vec) (h : Dirs z u v)
include h

/-- Singlet. -/
theorem kern_singlet : kern F J false 0 pi po z 0 = (legendre J).eval z * singletOp F po pi u v := by
  obtain ⟨h1, h2, h3⟩ := h
  have h3' : v ⬝ᵥ u = z := by rw [dotProduct_comm]; exact h3
  unfold singletOp
  dsimp only
  rw [normal_eq]
  simp only [add_dotProduct, dotProduct_add, sub_dotProduct, dotProduct_sub, smul_dotProduct, dotProduct_smul, smul_eq_mul, cross_norm, h1, h2, h3, h3']
  simp [kern, coefC, coefS, coefLS, coefT, coefSL, leg_self]
  ring

/-- `L = J`. -/
theorem kern_uncoupled (hJ : 1 ≤ J) : kern F J false 1 pi po z 1 = contract (tripletStates J J J u v) (tripletOp F po pi u v) := by
  have hn : (0 : ℝ) < J := by exact_mod_cast hJ
  have hE := legendre_second J z
  have e := plane_op F po pi u v z h 0 1 1 0
  have x1 : (0 : ℝ) • u + (1 : ℝ) • v = v := by simp
  have x2 : (1 : ℝ) • u + (0 : ℝ) • v = u := by simp
  rw [x1, x2] at e
  unfold tripletStates stateNorm
  rw [if_neg (by omega), if_pos rfl, if_pos rfl, Real.mul_self_sqrt (by positivity), rot_gradBoth, contract_smul_left, contract_add_left, contract_smul_left,
    contract_smul_left, contract_sub_left, contract_smul_left, normal_op F po pi u v z h, unit_op F po pi u v z h, e, h.uv]
  simp only [kern, coefC, coefS, coefLS, coefT, coefSL]
  simp
  rw [leg_next, leg_prev J hJ, leg_self]
  generalize eval z (derivative (derivative (legendre J))) = E at hE ⊢
  generalize eval z (derivative (legendre J)) = D at hE ⊢
  generalize eval z (legendre J) = P at hE ⊢
  generalize (J : ℝ) = n at hn hE ⊢
  have a1 : n + 1 ≠ 0 := by positivity
  have a2 : 2 * n + 1 ≠ 0 := by positivity
  have key : ∀ X : ℝ, E * ((1 - z ^ 2) * X) = (2 * z * D - n * (n + 1) * P) * X := fun X => by rw [← hE]; ring
  rw [key]
  field_simp
  ring

/-- `L = J + 1` on both sides. -/
theorem kern_upper : kern F J true 1 pi po z 2 = contract (tripletStates J (J + 1) (J + 1) u v) (tripletOp F po pi u v) := by
  have hn : (0 : ℝ) ≤ J := by positivity
  have q2 := leg_next2 J z
  unfold tripletStates stateNorm radialFactor
  have i1 : ¬ ((J : Int) + 1 < J) := by omega
  have i2 : ¬ ((J : Int) + 1 = J) := by omega
  have i3 : (J : Int) - 1 < J := by omega
  have i4 : ¬ ((J : Int) - 1 = J) := by omega
  simp only [i1, i2, i3, i4, if_true, if_false]
  rw [Real.mul_self_sqrt (by positivity), contract_smul_left, states_op F po pi u v z h]
  simp only [kern, coefC, coefS, coefLS, coefT, coefSL]
  simp
  rw [show pi * po * ((J : ℝ) + 2) * (legI z (J + 2) - legI z J) / (2 * J + 3) = pi * po * (((J : ℝ) + 2) * legI z (J + 2) - (J + 2) * legI z J) / (2 * J + 3) by ring,
    q2, leg_next, leg_self]
  generalize eval z (derivative (legendre J)) = D
  generalize eval z (legendre J) = P
  generalize (J : ℝ) = n at hn ⊢
  have a1 : n + 1 ≠ 0 := by positivity
  have a2 : 2 * n + 1 ≠ 0 := by positivity
  have a3 : 2 * n + 3 ≠ 0 := by positivity
  field_simp
  ring

/-- `L = J - 1` on both sides. -/
theorem kern_lower (hJ : 1 ≤ J) : kern F J true 1 pi po z 3 = contract (tripletStates J (J - 1) (J - 1) u v) (tripletOp F po pi u v) := by
  have hn : (1 : ℝ) ≤ J := by exact_mod_cast hJ
  have q2 := leg_prev2 J hJ z
  unfold tripletStates stateNorm radialFactor
  have i1 : ¬ ((J : Int) + 1 < J) := by omega
  have i2 : ¬ ((J : Int) + 1 = J) := by omega
  have i3 : (J : Int) - 1 < J := by omega
  have i4 : ¬ ((J : Int) - 1 = J) := by omega
  simp only [i1, i2, i3, i4, if_true, if_false]
  rw [Real.mul_self_sqrt (by positivity), contract_smul_left, states_op F po pi u v z h]
  simp only [kern, coefC, coefS, coefLS, coefT, coefSL]
  simp [show J ≠ 0 by omega]
  rw [show pi * po * ((J : ℝ) - 1) * (legI z (J - 2) - legI z J) / (2 * J - 1) = pi * po * (((J : ℝ) - 1) * legI z (J - 2) - (J - 1) * legI z J) / (2 * J - 1) by ring,
    q2, leg_prev J hJ, leg_self]
  generalize eval z (derivative (legendre J)) = D
  generalize eval z (legendre J) = P
  generalize (J : ℝ) = n at hn ⊢
  obtain ⟨d, rfl⟩ : ∃ d, n = (d + 1) / 2 := ⟨2 * n - 1, by ring⟩
  rw [show 2 * ((d + 1) / 2) - 1 = d by ring]
  have a3 : 1 ≤ d := by linarith
  have a1 : d + 1 ≠ 0 := by positivity
  have a2 : 2 * ((d + 1) / 2) + 1 ≠ 0 := by positivity
  have a4 : d + 1 + 1 ≠ 0 := by positivity
  field_simp
  ring

/-- `L = J - 1` outgoing, `L = J + 1` ingoing: the element is stored with the opposite sign. -/
theorem kern_mixLU (hJ : 1 ≤ J) : -kern F J true 1 pi po z 4 = contract (tripletStates J (J - 1) (J + 1) u v) (tripletOp F po pi u v) := by
  have hn : (1 : ℝ) ≤ J := by exact_mod_cast hJ
  unfold tripletStates stateNorm radialFactor
  have i1 : ¬ ((J : Int) + 1 < J) := by omega
  have i2 : ¬ ((J : Int) + 1 = J) := by omega
  have i3 : (J : Int) - 1 < J := by omega
  have i4 : ¬ ((J : Int) - 1 = J) := by omega
  simp only [i1, i2, i3, i4, if_true, if_false]
  rw [mix_norm _ hn, contract_smul_left, states_op F po pi u v z h]
  simp only [kern, coefC, coefS, coefLS, coefT, coefSL]
  simp only [show J ≠ 0 by omega, if_false, if_true]
  simp only [Bool.true_eq_false, false_and, if_false, Matrix.cons_val, Pi.smul_apply, smul_eq_mul]
  rw [leg_prev J hJ, leg_next, leg_self]
  generalize eval z (derivative (legendre J)) = D
  generalize eval z (legendre J) = P
  generalize (J : ℝ) = n at hn ⊢
  have hq : Real.sqrt (n * (n + 1)) ^ 2 = n * (n + 1) := Real.sq_sqrt (by positivity)
  have hq0 : Real.sqrt (n * (n + 1)) ≠ 0 := (Real.sqrt_pos.2 (by positivity)).ne'
  generalize Real.sqrt (n * (n + 1)) = q at hq hq0 ⊢
  have a0 : n ≠ 0 := by positivity
  have a1 : n + 1 ≠ 0 := by positivity
  have a2 : 2 * n + 1 ≠ 0 := by positivity
  field_simp
  linear_combination ((2 * n + 1) * F.t z * 2 * (po ^ 2 * n * (z * P * (n + 1) - (1 - z ^ 2) * D) + (n + 1) * pi ^ 2 * (z * P * n + (1 - z ^ 2) * D) -
    2 * po * P * n * (n + 1) * pi) + 2 * po ^ 2 * pi ^ 2 * F.sl z * (n * (z * P * (n + 1) - (1 - z ^ 2) * D) - (n + 1) * (z * P * n + (1 - z ^ 2) * D))) * hq

/-- `L = J + 1` outgoing, `L = J - 1` ingoing. -/
theorem kern_mixUL (hJ : 1 ≤ J) : -kern F J true 1 pi po z 5 = contract (tripletStates J (J + 1) (J - 1) u v) (tripletOp F po pi u v) := by
  have hn : (1 : ℝ) ≤ J := by exact_mod_cast hJ
  unfold tripletStates stateNorm radialFactor
  have i1 : ¬ ((J : Int) + 1 < J) := by omega
  have i2 : ¬ ((J : Int) + 1 = J) := by omega
  have i3 : (J : Int) - 1 < J := by omega
  have i4 : ¬ ((J : Int) - 1 = J) := by omega
  simp only [i1, i2, i3, i4, if_true, if_false]
  rw [mul_comm (Real.sqrt _) (Real.sqrt _), mix_norm _ hn, contract_smul_left, states_op F po pi u v z h]
  simp only [kern, coefC, coefS, coefLS, coefT, coefSL]
  simp only [show J ≠ 0 by omega, if_false, if_true]
  simp only [Bool.true_eq_false, false_and, if_false, Matrix.cons_val, Pi.smul_apply, smul_eq_mul]
  rw [leg_prev J hJ, leg_next, leg_self]
  generalize eval z (derivative (legendre J)) = D
  generalize eval z (legendre J) = P
  generalize (J : ℝ) = n at hn ⊢
  have hq : Real.sqrt (n * (n + 1)) ^ 2 = n * (n + 1) := Real.sq_sqrt (by positivity)
  have hq0 : Real.sqrt (n * (n + 1)) ≠ 0 := (Real.sqrt_pos.2 (by positivity)).ne'
  generalize Real.sqrt (n * (n + 1)) = q at hq hq0 ⊢
  have a0 : n ≠ 0 := by positivity
  have a1 : n + 1 ≠ 0 := by positivity
  have a2 : 2 * n + 1 ≠ 0 := by positivity
  field_simp
  linear_combination ((2 * n + 1) * F.t z * 2 * (po ^ 2 * (z * P * n + (1 - z ^ 2) * D) * (n + 1) + n * pi ^ 2 * (z * P * (n + 1) - (1 - z ^ 2) * D) -
    2 * po * P * n * pi * (n + 1)) + 2 * po ^ 2 * pi ^ 2 * F.sl z * (n * (z * P * (n + 1) - (1 - z ^ 2) * D) - (z * P * n + (1 - z ^ 2) * D) * (n + 1))) * hq
end

end TicTac
end
