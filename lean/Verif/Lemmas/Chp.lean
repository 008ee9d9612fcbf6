import Verif.Spec.Chp
/-! Evaluation of the partial-wave projections of `Spec/Chp`. -/
noncomputable section
namespace TicTac
open Matrix Polynomial Spec

theorem contract_dyad (B : Op3) (x y : Vec) : contract (vecMulVec x y) B = ∑ i, ∑ j, x i * y j * B i j := by
  simp [contract, vecMulVec_apply]

theorem contract_add_left (A A' B : Op3) : contract (A + A') B = contract A B + contract A' B := by
  simp only [contract, Fin.sum_univ_three, Matrix.add_apply]; ring
theorem contract_sub_left (A A' B : Op3) : contract (A - A') B = contract A B - contract A' B := by
  simp only [contract, Fin.sum_univ_three, Matrix.sub_apply]; ring
theorem contract_smul_left (a : ℝ) (A B : Op3) : contract (a • A) B = a * contract A B := by
  simp only [contract, Fin.sum_univ_three, Matrix.smul_apply, smul_eq_mul]; ring
theorem contract_add_right (A B B' : Op3) : contract A (B + B') = contract A B + contract A B' := by
  simp only [contract, Fin.sum_univ_three, Matrix.add_apply]; ring
theorem contract_smul_right (a : ℝ) (A B : Op3) : contract A (a • B) = a * contract A B := by
  simp only [contract, Fin.sum_univ_three, Matrix.smul_apply, smul_eq_mul]; ring

theorem dot3 (x y : Vec) : x ⬝ᵥ y = x 0 * y 0 + x 1 * y 1 + x 2 * y 2 := by simp [dotProduct, Fin.sum_univ_three]

theorem spinRot_eq (a : Vec) : spinRot a = !![0, -(a 2), a 1; a 2, 0, -(a 0); -(a 1), a 0, 0] := by
  ext i j
  fin_cases i <;> fin_cases j <;> simp [spinRot, cross_apply, Pi.single_apply]

theorem sigmaSigma_eq (a : Vec) : sigmaSigma a = (a ⬝ᵥ a) • (1 : Op3) - (2 : ℝ) • vecMulVec a a := by
  unfold sigmaSigma
  rw [spinRot_eq, dot3]
  ext i j
  fin_cases i <;> fin_cases j <;> simp [Matrix.mul_apply, Fin.sum_univ_three, vecMulVec_apply, Matrix.one_apply] <;> ring

theorem dyad_one (x y : Vec) : contract (vecMulVec x y) 1 = x ⬝ᵥ y := by
  rw [contract_dyad, dot3]; simp [Fin.sum_univ_three, Matrix.one_apply]
theorem dyad_rot (x y n : Vec) : contract (vecMulVec x y) (spinRot n) = x ⬝ᵥ crossProduct n y := by
  rw [contract_dyad, dot3, spinRot_eq, cross_apply]; simp [Fin.sum_univ_three]; ring
theorem dyad_sigma (x y a : Vec) : contract (vecMulVec x y) (sigmaSigma a) = (a ⬝ᵥ a) * (x ⬝ᵥ y) - 2 * ((x ⬝ᵥ a) * (y ⬝ᵥ a)) := by
  rw [contract_dyad, sigmaSigma_eq]; simp [dot3, Fin.sum_univ_three, Matrix.one_apply, vecMulVec_apply]; ring
theorem one_one : contract 1 1 = 3 := by simp [contract, Matrix.one_apply]
theorem one_rot (n : Vec) : contract 1 (spinRot n) = 0 := by
  rw [spinRot_eq]; simp [contract, Fin.sum_univ_three, Matrix.one_apply]
theorem one_sigma (a : Vec) : contract 1 (sigmaSigma a) = a ⬝ᵥ a := by
  rw [sigmaSigma_eq]; simp [contract, dot3, Fin.sum_univ_three, Matrix.one_apply, vecMulVec_apply]; ring

/-- The normal of the scattering plane. -/
theorem normal_eq (po pi : ℝ) (u v : Vec) :
    crossProduct (po • u - pi • v) ((1 / 2 : ℝ) • (po • u + pi • v)) = (po * pi) • crossProduct u v := by
  ext i
  fin_cases i <;> simp [cross_apply] <;> ring

section
variable (F : Force) (po pi : ℝ) (u v : Vec)

/-- The triplet operator seen by a dyad. -/
theorem dyad_op (x y : Vec) : contract (vecMulVec x y) (tripletOp F po pi u v) =
    (F.c (u ⬝ᵥ v) + F.s (u ⬝ᵥ v)) * (x ⬝ᵥ y) + F.ls (u ⬝ᵥ v) * (po * pi * (x ⬝ᵥ crossProduct (crossProduct u v) y))
    + F.t (u ⬝ᵥ v) * (((po • u - pi • v) ⬝ᵥ (po • u - pi • v)) * (x ⬝ᵥ y) - 2 * ((x ⬝ᵥ (po • u - pi • v)) * (y ⬝ᵥ (po • u - pi • v))))
    + F.sl (u ⬝ᵥ v) * ((po * pi) ^ 2 * ((crossProduct u v ⬝ᵥ crossProduct u v) * (x ⬝ᵥ y) - 2 * ((x ⬝ᵥ crossProduct u v) * (y ⬝ᵥ crossProduct u v)))) := by
  unfold tripletOp
  dsimp only
  rw [normal_eq, contract_add_right, contract_add_right, contract_add_right, contract_smul_right, contract_smul_right, contract_smul_right,
    contract_smul_right, dyad_one, dyad_rot, dyad_sigma, dyad_sigma]
  simp only [map_smul, LinearMap.smul_apply, dotProduct_smul, smul_dotProduct, smul_eq_mul]
  ring

theorem one_op : contract 1 (tripletOp F po pi u v) = 3 * (F.c (u ⬝ᵥ v) + F.s (u ⬝ᵥ v))
    + F.t (u ⬝ᵥ v) * ((po • u - pi • v) ⬝ᵥ (po • u - pi • v)) + F.sl (u ⬝ᵥ v) * ((po * pi) ^ 2 * (crossProduct u v ⬝ᵥ crossProduct u v)) := by
  unfold tripletOp
  dsimp only
  rw [normal_eq, contract_add_right, contract_add_right, contract_add_right, contract_smul_right, contract_smul_right, contract_smul_right,
    contract_smul_right, one_one, one_rot, one_sigma, one_sigma]
  simp only [dotProduct_smul, smul_dotProduct, smul_eq_mul]
  ring
end

theorem cross_cross_dot (x y u v : Vec) : x ⬝ᵥ crossProduct (crossProduct u v) y = (x ⬝ᵥ v) * (u ⬝ᵥ y) - (x ⬝ᵥ u) * (v ⬝ᵥ y) := by
  simp only [dot3, cross_apply]; simp; ring
theorem cross_norm (u v : Vec) : crossProduct u v ⬝ᵥ crossProduct u v = (u ⬝ᵥ u) * (v ⬝ᵥ v) - (u ⬝ᵥ v) ^ 2 := by
  simp only [dot3, cross_apply]; simp; ring
theorem dot_cross_u (u v : Vec) : u ⬝ᵥ crossProduct u v = 0 := by simp only [dot3, cross_apply]; simp; ring
theorem dot_cross_v (u v : Vec) : v ⬝ᵥ crossProduct u v = 0 := by simp only [dot3, cross_apply]; simp; ring

/-- Scalars of a dyad: what the operator gives for vectors in the plane of `u` and `v`. -/
theorem plane_op (F : Force) (po pi : ℝ) (u v : Vec) (z : ℝ) (h : Dirs z u v) (a b c d : ℝ) :
    contract (vecMulVec (a • u + b • v) (c • u + d • v)) (tripletOp F po pi u v) =
    (F.c z + F.s z) * (a * c + b * d + (a * d + b * c) * z)
    + F.ls z * (po * pi * ((a * z + b) * (c + d * z) - (a + b * z) * (c * z + d)))
    + F.t z * ((po ^ 2 + pi ^ 2 - 2 * po * pi * z) * (a * c + b * d + (a * d + b * c) * z)
        - 2 * (((a + b * z) * po - (a * z + b) * pi) * ((c + d * z) * po - (c * z + d) * pi)))
    + F.sl z * ((po * pi) ^ 2 * (1 - z ^ 2) * (a * c + b * d + (a * d + b * c) * z)) := by
  obtain ⟨h1, h2, h3⟩ := h
  have h3' : v ⬝ᵥ u = z := by rw [dotProduct_comm]; exact h3
  rw [dyad_op, cross_cross_dot, cross_norm]
  simp only [add_dotProduct, dotProduct_add, sub_dotProduct, dotProduct_sub, smul_dotProduct, dotProduct_smul, smul_eq_mul, h1, h2, h3, h3', dot_cross_u, dot_cross_v]
  ring

theorem normal_op (F : Force) (po pi : ℝ) (u v : Vec) (z : ℝ) (h : Dirs z u v) :
    contract (vecMulVec (crossProduct u v) (crossProduct u v)) (tripletOp F po pi u v) =
    (1 - z ^ 2) * (F.c z + F.s z + F.t z * (po ^ 2 + pi ^ 2 - 2 * po * pi * z) - F.sl z * ((po * pi) ^ 2 * (1 - z ^ 2))) := by
  obtain ⟨h1, h2, h3⟩ := h
  have h3' : v ⬝ᵥ u = z := by rw [dotProduct_comm]; exact h3
  have e1 : crossProduct u v ⬝ᵥ u = 0 := by rw [dotProduct_comm, dot_cross_u]
  have e2 : crossProduct u v ⬝ᵥ v = 0 := by rw [dotProduct_comm, dot_cross_v]
  rw [dyad_op, cross_cross_dot, cross_norm]
  simp only [add_dotProduct, dotProduct_add, sub_dotProduct, dotProduct_sub, smul_dotProduct, dotProduct_smul, smul_eq_mul, h1, h2, h3, h3', e1, e2, dot_cross_u, dot_cross_v]
  ring

theorem unit_op (F : Force) (po pi : ℝ) (u v : Vec) (z : ℝ) (h : Dirs z u v) :
    contract 1 (tripletOp F po pi u v) = 3 * (F.c z + F.s z) + F.t z * (po ^ 2 + pi ^ 2 - 2 * po * pi * z) + F.sl z * ((po * pi) ^ 2 * (1 - z ^ 2)) := by
  obtain ⟨h1, h2, h3⟩ := h
  have h3' : v ⬝ᵥ u = z := by rw [dotProduct_comm]; exact h3
  rw [one_op, cross_norm]
  simp only [add_dotProduct, dotProduct_add, sub_dotProduct, dotProduct_sub, smul_dotProduct, dotProduct_smul, smul_eq_mul, h1, h2, h3, h3']
  ring

/-- The dyad of `L = J` states. -/
theorem rot_gradBoth (J : Nat) (u v : Vec) : spinRot u * gradBoth J u v * (spinRot v)ᵀ =
    -(derivative (derivative (legendre J))).eval (u ⬝ᵥ v) • vecMulVec (crossProduct u v) (crossProduct u v)
      + (derivative (legendre J)).eval (u ⬝ᵥ v) • ((u ⬝ᵥ v) • (1 : Op3) - vecMulVec v u) := by
  unfold gradBoth
  generalize eval (u ⬝ᵥ v) (derivative (derivative (legendre J))) = A
  generalize eval (u ⬝ᵥ v) (derivative (legendre J)) = B
  rw [spinRot_eq, spinRot_eq, cross_apply, dot3]
  ext i j
  simp only [Matrix.mul_apply, Fin.sum_univ_three, vecMulVec_apply, Matrix.one_apply, Matrix.add_apply, Matrix.sub_apply, Matrix.smul_apply, smul_eq_mul,
    Pi.sub_apply, Pi.smul_apply, Matrix.transpose_apply]
  fin_cases i <;> fin_cases j <;> simp <;> ring

/-- Legendre's equation solved for the second derivative. -/
theorem legendre_second (J : Nat) (z : ℝ) : (derivative (derivative (legendre J))).eval z * (1 - z ^ 2) =
    2 * z * (derivative (legendre J)).eval z - J * (J + 1) * (legendre J).eval z := by
  have h := congrArg (eval z) (legendre_ode J)
  rw [derivative_mul] at h
  simp at h
  linear_combination -h

/-- What the force does between `L ≠ J` states, in terms of `P_J` and its derivatives at the cosine. -/
theorem states_op (F : Force) (po pi : ℝ) (u v : Vec) (z : ℝ) (h : Dirs z u v) (J : Nat) (r r' : ℝ) :
    contract ((r * r' * (legendre J).eval (u ⬝ᵥ v)) • vecMulVec u v + r • vecMulVec u (gradIn J u v) + r' • vecMulVec (gradOut J u v) v + gradBoth J u v)
      (tripletOp F po pi u v) =
    (F.c z + F.s z) * ((r * r' + J * (J + 1)) * z * (legendre J).eval z + (r + r' + 1) * (1 - z ^ 2) * (derivative (legendre J)).eval z)
    + F.ls z * (po * pi * (1 - z ^ 2) * (-(r * r' + J * (J + 1)) * (legendre J).eval z + (r + r' + 1) * z * (derivative (legendre J)).eval z))
    + F.t z * ((r * r' - J * (J + 1)) * (2 * po * pi - z * (po ^ 2 + pi ^ 2)) * (legendre J).eval z
        + ((r - r') * (pi ^ 2 - po ^ 2) + po ^ 2 + pi ^ 2) * (1 - z ^ 2) * (derivative (legendre J)).eval z)
    + F.sl z * ((po * pi) ^ 2 * (1 - z ^ 2) * ((r * r' + J * (J + 1)) * z * (legendre J).eval z
        + ((r + r' - 1) * (1 - z ^ 2) - 2 * z ^ 2) * (derivative (legendre J)).eval z)) := by
  have hE := legendre_second J z
  have hz := h.uv
  unfold gradIn gradOut gradBoth
  rw [hz]
  generalize eval z (derivative (derivative (legendre J))) = E at hE ⊢
  generalize eval z (derivative (legendre J)) = D at hE ⊢
  generalize eval z (legendre J) = P at hE ⊢
  simp only [vecMulVec_smul, smul_vecMulVec, contract_add_left, contract_smul_left, contract_sub_left, unit_op F po pi u v z h]
  have e1 := plane_op F po pi u v z h 1 0 0 1
  have e2 := plane_op F po pi u v z h 1 0 1 (-z)
  have e3 := plane_op F po pi u v z h (-z) 1 0 1
  have e4 := plane_op F po pi u v z h (-z) 1 1 (-z)
  have e5 := plane_op F po pi u v z h 1 0 1 0
  have x1 : (1 : ℝ) • u + (0 : ℝ) • v = u := by simp
  have x2 : (0 : ℝ) • u + (1 : ℝ) • v = v := by simp
  have x3 : (1 : ℝ) • u + (-z) • v = u - z • v := by simp [sub_eq_add_neg]
  have x4 : (-z) • u + (1 : ℝ) • v = v - z • u := by simp [sub_eq_add_neg, add_comm]
  rw [x1, x2] at e1
  rw [x1, x3] at e2
  rw [x4, x2] at e3
  rw [x4, x3] at e4
  rw [x1] at e5
  rw [e1, e2, e3, e4, e5]
  linear_combination (-(F.c z + F.s z) * z + F.ls z * (po * pi) * (1 - z ^ 2) + F.t z * (2 * po * pi - z * (po ^ 2 + pi ^ 2))
    - F.sl z * (po * pi) ^ 2 * (1 - z ^ 2) * z) * hE

end TicTac
end
