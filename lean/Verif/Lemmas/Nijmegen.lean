import Verif.Lemmas.ChpPoint
import Verif.Spec.Nijmegen
import Verif.Model.Nijmegen
/-! The combinations of partial-wave amplitudes in `PNIJMLSJ` are the matrix elements of the force between the angular-momentum states. -/
noncomputable section
namespace TicTac
open Matrix Polynomial Spec

/-- The force without its last part as a `Force`. -/
def plainPart (F : NijForce) (po pi : ℝ) : Force := ⟨fun z => F.c z - F.t z * ((po ^ 2 + pi ^ 2 - 2 * po * pi * z) / 3), F.s, F.ls, F.t, F.q⟩

section
variable (F : NijForce) (J : Nat) (po pi z : ℝ) (u v : Vec) (h : Dirs z u v)
include h

theorem nijTriplet_eq : nijTriplet F po pi u v = tripletOp (plainPart F po pi) po pi u v + (-(F.qp z * (po * pi))) • (vecMulVec u v + vecMulVec v u) := by
  obtain ⟨h1, h2, h3⟩ := h
  have h3' : v ⬝ᵥ u = z := by rw [dotProduct_comm]; exact h3
  unfold nijTriplet tripletOp plainPart
  dsimp only
  rw [h3]
  have ek : (po • u - pi • v) ⬝ᵥ (po • u - pi • v) = po ^ 2 + pi ^ 2 - 2 * po * pi * z := by
    simp only [sub_dotProduct, dotProduct_sub, smul_dotProduct, dotProduct_smul, smul_eq_mul, h1, h2, h3, h3']; ring
  rw [sigmaSigma_eq ((1 / 2 : ℝ) • (po • u + pi • v))]
  have e4 : (1 / 4 : ℝ) • sigmaSigma (po • u - pi • v) = ((po • u - pi • v) ⬝ᵥ (po • u - pi • v) / 4) • (1 : Op3) - (1 / 2 : ℝ) • vecMulVec (po • u - pi • v) (po • u - pi • v) := by
    rw [sigmaSigma_eq, smul_sub, smul_smul, smul_smul]; congr 1
    · congr 1; ring
    · congr 1; norm_num
  rw [e4, ek]
  generalize sigmaSigma (po • u - pi • v) = A
  generalize sigmaSigma _ = B
  generalize spinRot _ = C
  ext i j
  simp only [Matrix.add_apply, Matrix.sub_apply, Matrix.smul_apply, smul_eq_mul, vecMulVec_apply, Pi.add_apply, Pi.sub_apply, Pi.smul_apply]
  ring

theorem swap_plane (a b c d : ℝ) : contract (vecMulVec (a • u + b • v) (c • u + d • v)) (vecMulVec u v + vecMulVec v u) =
    (a + b * z) * (c * z + d) + (a * z + b) * (c + d * z) := by
  obtain ⟨h1, h2, h3⟩ := h
  have e : ∀ x y : Vec, contract (vecMulVec x y) (vecMulVec u v + vecMulVec v u) = (x ⬝ᵥ u) * (y ⬝ᵥ v) + (x ⬝ᵥ v) * (y ⬝ᵥ u) := by
    intro x y
    simp only [contract_dyad, dot3, Fin.sum_univ_three, Matrix.add_apply, vecMulVec_apply]; ring
  have h3' : v ⬝ᵥ u = z := by rw [dotProduct_comm]; exact h3
  rw [e]
  simp only [add_dotProduct, dotProduct_add, smul_dotProduct, dotProduct_smul, smul_eq_mul, h1, h2, h3, h3']
  ring

theorem swap_one : contract 1 (vecMulVec u v + vecMulVec v u) = 2 * z := by
  have h3 := h.uv
  simp only [contract, Fin.sum_univ_three, Matrix.one_apply, Matrix.add_apply, vecMulVec_apply]
  rw [dot3] at h3
  simp
  linear_combination 2 * h3

theorem states_swap (r r' : ℝ) :
    contract ((r * r' * (legendre J).eval (u ⬝ᵥ v)) • vecMulVec u v + r • vecMulVec u (gradIn J u v) + r' • vecMulVec (gradOut J u v) v + gradBoth J u v)
      (vecMulVec u v + vecMulVec v u) =
    (r * r' * (1 + z ^ 2) - J * (J + 1) * (1 - z ^ 2)) * (legendre J).eval z + (r + r' + 1) * (1 - z ^ 2) * z * (derivative (legendre J)).eval z := by
  have hE := legendre_second J z
  have hz := h.uv
  unfold gradIn gradOut gradBoth
  rw [hz]
  generalize eval z (derivative (derivative (legendre J))) = E at hE ⊢
  generalize eval z (derivative (legendre J)) = D at hE ⊢
  generalize eval z (legendre J) = P at hE ⊢
  simp only [vecMulVec_smul, smul_vecMulVec, contract_add_left, contract_smul_left, contract_sub_left, swap_one z u v h]
  have e1 := swap_plane z u v h 1 0 0 1
  have e2 := swap_plane z u v h 1 0 1 (-z)
  have e3 := swap_plane z u v h (-z) 1 0 1
  have e4 := swap_plane z u v h (-z) 1 1 (-z)
  have e5 := swap_plane z u v h 1 0 1 0
  have x1 : (1 : ℝ) • u + (0 : ℝ) • v = u := by simp
  have x2 : (0 : ℝ) • u + (1 : ℝ) • v = v := by simp
  have x3 : (1 : ℝ) • u + (-z) • v = u - z • v := by simp [sub_eq_add_neg]
  have x4 : (-z) • u + (1 : ℝ) • v = v - z • u := by simp [sub_eq_add_neg, add_comm]
  rw [x1, x2] at e1
  rw [x1, x3] at e2
  rw [x4, x2] at e3
  rw [x4, x3] at e4
  rw [x1] at e5
  rw [e1, e2, e3, e4, e5]
  linear_combination (1 - z ^ 2) * hE
end

/-- The amplitudes at one cosine. -/
def wavesAt (F : NijForce) (J : Nat) (z : ℝ) : PotMom where
  vc k := legI z (J + k) * F.c z
  vs k := legI z (J + k) * F.s z
  vt k := legI z (J + k) * F.t z
  vls k := legI z (J + k) * F.ls z
  vq k := legI z (J + k) * F.q z
  vqp k := -(legI z (J + k) * F.qp z)

theorem leg_next3 (J : Nat) (z : ℝ) : ((J : ℝ) + 3) * legI z (J + 3) = (2 * J + 5) * z * legI z (J + 2) - (J + 2) * legI z (J + 1) := by
  have := leg_next2 (J + 1) z
  push_cast at this
  rw [show (J : Int) + 1 + 2 = J + 3 by ring, show (J : Int) + 1 + 1 = J + 2 by ring] at this
  linear_combination this

theorem leg_prev3 (J : Nat) (hJ : 2 ≤ J) (z : ℝ) : ((J : ℝ) - 2) * legI z (J - 3) = (2 * J - 3) * z * legI z (J - 2) - (J - 1) * legI z (J - 1) := by
  obtain ⟨n, rfl⟩ : ∃ n, J = n + 1 := ⟨J - 1, by omega⟩
  have := leg_prev2 n (by omega) z
  push_cast at this ⊢
  rw [show (n : Int) + 1 - 3 = n - 2 by ring, show (n : Int) + 1 - 2 = n - 1 by ring, show (n : Int) + 1 - 1 = n by ring]
  linear_combination this

/-- The amplitudes at one cosine, as numbers. -/
def waveNums (L : Int → ℝ) (c s t ls q qp : ℝ) : PotMom := ⟨fun k => L k * c, fun k => L k * s, fun k => L k * t, fun k => L k * ls, fun k => L k * q, fun k => -(L k * qp)⟩

section
variable (j z P D c s t ls q qp po pi : ℝ) (L : Int → ℝ) (hd : po ^ 2 + pi ^ 2 ≠ 0)

/-- `states_op` and `states_swap` for the force `plainPart` and its last part, in terms of numbers. -/
def between (r r' : ℝ) : ℝ :=
  (c - t * ((po ^ 2 + pi ^ 2 - 2 * po * pi * z) / 3) + s) * ((r * r' + j * (j + 1)) * z * P + (r + r' + 1) * (1 - z ^ 2) * D)
    + ls * (po * pi * (1 - z ^ 2) * (-(r * r' + j * (j + 1)) * P + (r + r' + 1) * z * D))
    + t * ((r * r' - j * (j + 1)) * (2 * po * pi - z * (po ^ 2 + pi ^ 2)) * P + ((r - r') * (pi ^ 2 - po ^ 2) + po ^ 2 + pi ^ 2) * (1 - z ^ 2) * D)
    + q * ((po * pi) ^ 2 * (1 - z ^ 2) * ((r * r' + j * (j + 1)) * z * P + ((r + r' - 1) * (1 - z ^ 2) - 2 * z ^ 2) * D))
    + -(qp * (po * pi)) * ((r * r' * (1 + z ^ 2) - j * (j + 1) * (1 - z ^ 2)) * P + (r + r' + 1) * (1 - z ^ 2) * z * D)
include hd

omit hd in
theorem alg_singlet (hj : 0 ≤ j) (hm : 2 * j - 1 ≠ 0) (h0 : L 0 = P) (hb : j * L (-1) + (j + 1) * L 1 = (2 * j + 1) * z * P)
    (h2 : (j + 2) * L 2 = (2 * j + 3) * z * L 1 - (j + 1) * P) (hm2 : j * ((j - 1) * L (-2)) = j * ((2 * j - 1) * z * L (-1) - j * P)) :
    vpotSinglet j po pi (waveNums L c s t ls q qp) = P * (c - 3 * s - po ^ 2 * pi ^ 2 * (1 - z ^ 2) * q + qp * (2 * po * pi * z)) := by
  have a1 : 2 * j + 1 ≠ 0 := by positivity
  have a2 : 2 * j + 3 ≠ 0 := by positivity
  unfold vpotSinglet waveNums
  dsimp only
  rw [h0]
  obtain ⟨d, rfl⟩ : ∃ d, j = (d + 1) / 2 := ⟨2 * j - 1, by ring⟩
  rw [show 2 * ((d + 1) / 2) - 1 = d by ring] at *
  rw [show 2 * ((d + 1) / 2) + 1 = d + 2 by ring] at *
  rw [show 2 * ((d + 1) / 2) + 3 = d + 4 by ring] at *
  linear_combination (norm := (field_simp; ring)) (2 * (po * pi) / (d + 2) * qp + po ^ 2 * pi ^ 2 * q * z / (d + 2)) * hb
    + po ^ 2 * pi ^ 2 * q * ((d + 1) / 2 + 1) / (d + 2) / (d + 4) * h2 + po ^ 2 * pi ^ 2 * q / d / (d + 2) * hm2

theorem alg_triplet (hj : 1 ≤ j) (h0 : L 0 = P) (h1 : L 1 = z * P - (1 - z ^ 2) * D / (j + 1)) (hm1 : L (-1) = z * P + (1 - z ^ 2) * D / j)
    (h2 : (j + 2) * L 2 = (2 * j + 3) * z * L 1 - (j + 1) * P) (hm2 : (j - 1) * L (-2) = (2 * j - 1) * z * L (-1) - j * P) :
    j * (j + 1) * vpotTriplet j po pi (waveNums L c s t ls q qp) =
      -(2 * z * D - j * (j + 1) * P) * (c - t * ((po ^ 2 + pi ^ 2 - 2 * po * pi * z) / 3) + s + t * (po ^ 2 + pi ^ 2 - 2 * po * pi * z) - q * ((po * pi) ^ 2 * (1 - z ^ 2)))
        + D * (z * (3 * (c - t * ((po ^ 2 + pi ^ 2 - 2 * po * pi * z) / 3) + s) + t * (po ^ 2 + pi ^ 2 - 2 * po * pi * z) + q * ((po * pi) ^ 2 * (1 - z ^ 2)))
          - ((c - t * ((po ^ 2 + pi ^ 2 - 2 * po * pi * z) / 3) + s) * z + ls * (po * pi * (1 - z ^ 2)) + t * ((po ^ 2 + pi ^ 2 - 2 * po * pi * z) * z - 2 * ((z * po - pi) * (po - z * pi)))
            + q * ((po * pi) ^ 2 * (1 - z ^ 2) * z)))
        - qp * (po * pi) * (D * (z ^ 2 - 1)) := by
  have a1 : 2 * j + 1 ≠ 0 := by positivity
  have a2 : 2 * j + 3 ≠ 0 := by positivity
  have a3 : 2 * j - 1 ≠ 0 := by intro e; linarith
  have a4 : j ≠ 0 := by positivity
  have a5 : j + 1 ≠ 0 := by positivity
  unfold vpotTriplet waveNums
  dsimp only
  rw [h0]
  rw [h1] at h2 ⊢
  rw [hm1] at hm2 ⊢
  rw [show po * po + pi * pi = po ^ 2 + pi ^ 2 by ring]
  clear h1 hm1 hj
  obtain ⟨d, rfl⟩ : ∃ d, j = (d + 1) / 2 := ⟨2 * j - 1, by ring⟩
  rw [show 2 * ((d + 1) / 2) - 1 = d by ring] at *
  rw [show 2 * ((d + 1) / 2) + 1 = d + 2 by ring] at *
  rw [show 2 * ((d + 1) / 2) + 3 = d + 4 by ring] at *
  have a6 : d + 1 ≠ 0 := by intro e; apply a4; rw [e]; simp
  have a7 : d + 1 + 2 ≠ 0 := by intro e; apply a5; linarith
  have a8 : d + 3 ≠ 0 := by intro e; apply a5; linarith
  rw [show (d + 1) / 2 + 1 = (d + 3) / 2 by ring] at *
  linear_combination (norm := (field_simp; ring)) (d + 1) / 2 * ((d + 3) / 2) * po ^ 2 * pi ^ 2 * q * ((d + 1) / 2 - 1) / (d + 2) / (d + 4) * h2
    + (d + 1) / 2 * ((d + 3) / 2) * po ^ 2 * pi ^ 2 * q * ((d + 1) / 2 + 2) / d / (d + 2) * hm2

set_option maxRecDepth 8000 in
theorem alg_upper (hj : 0 ≤ j) (h0 : L 0 = P) (h1 : L 1 = z * P - (1 - z ^ 2) * D / (j + 1)) (hm1 : j * L (-1) = j * (z * P) + (1 - z ^ 2) * D)
    (h2 : (j + 2) * L 2 = (2 * j + 3) * z * L 1 - (j + 1) * P) (h3 : (j + 3) * L 3 = (2 * j + 5) * z * L 2 - (j + 2) * L 1) :
    (j + 1) * (2 * j + 1) * vpotUpper j po pi (waveNums L c s t ls q qp) = between j z P D c s t ls q qp po pi (-(j + 1)) (-(j + 1)) := by
  have a1 : 2 * j + 1 ≠ 0 := by positivity
  have a2 : 2 * j + 3 ≠ 0 := by positivity
  have a3 : 2 * j + 5 ≠ 0 := by positivity
  have a5 : j + 1 ≠ 0 := by positivity
  unfold vpotUpper waveNums between
  dsimp only
  rw [h0]
  rw [h1] at h2 h3 ⊢
  rw [show po * po + pi * pi = po ^ 2 + pi ^ 2 by ring]
  clear h1 hj
  obtain ⟨d, rfl⟩ : ∃ d, j = (d - 1) / 2 := ⟨2 * j + 1, by ring⟩
  rw [show 2 * ((d - 1) / 2) + 1 = d by ring] at *
  rw [show 2 * ((d - 1) / 2) + 3 = d + 2 by ring] at *
  rw [show 2 * ((d - 1) / 2) + 5 = d + 4 by ring] at *
  rw [show (d - 1) / 2 + 1 = (d + 1) / 2 by ring] at *
  have a6 : d + 1 ≠ 0 := by intro e; apply a5; rw [e]; simp
  linear_combination (norm := (field_simp; ring)) (d + 1) / 2 * d * (-(po ^ 2 * pi ^ 2 * q * (2 * ((d - 1) / 2) * ((d - 1) / 2) + 7 * ((d + 1) / 2)) / d / d / (d + 2)) * hm1
    + (po * pi / (d + 2) * (ls + 2 / 3 * t - qp) - po ^ 2 * pi ^ 2 * q * z / (d + 2)) * h2
    - po ^ 2 * pi ^ 2 * q * ((d - 1) / 2 + 2) / (d + 2) / (d + 4) * h3)

theorem alg_lower (hj : 1 ≤ j) (hjj : 2 * j - 3 ≠ 0) (h0 : L 0 = P) (h1 : L 1 = z * P - (1 - z ^ 2) * D / (j + 1)) (hm1 : L (-1) = z * P + (1 - z ^ 2) * D / j)
    (hm2 : (j - 1) * L (-2) = (2 * j - 1) * z * L (-1) - j * P)
    (hm3 : (j - 1) * ((j - 2) * L (-3)) = (2 * j - 3) * z * ((2 * j - 1) * z * L (-1) - j * P) - (j - 1) ^ 2 * L (-1)) :
    j * (2 * j + 1) * vpotLower j po pi (waveNums L c s t ls q qp) = between j z P D c s t ls q qp po pi j j := by
  have a1 : 2 * j + 1 ≠ 0 := by positivity
  have a3 : 2 * j - 1 ≠ 0 := by intro e; linarith
  have a4 : j ≠ 0 := by positivity
  have a5 : j + 1 ≠ 0 := by positivity
  unfold vpotLower waveNums between
  dsimp only
  rw [h0]
  rw [h1]
  rw [hm1] at hm2 hm3 ⊢
  rw [show po * po + pi * pi = po ^ 2 + pi ^ 2 by ring]
  clear h1 hm1 hj
  obtain ⟨d, rfl⟩ : ∃ d, j = (d + 3) / 2 := ⟨2 * j - 3, by ring⟩
  rw [show 2 * ((d + 3) / 2) - 1 = d + 2 by ring] at *
  rw [show 2 * ((d + 3) / 2) + 1 = d + 4 by ring] at *
  rw [show 2 * ((d + 3) / 2) - 3 = d by ring] at *
  have a6 : d + 3 ≠ 0 := by intro e; apply a4; rw [e]; simp
  have a7 : d + 5 ≠ 0 := by intro e; apply a5; linarith
  rw [show (d + 3) / 2 + 1 = (d + 5) / 2 by ring] at *
  linear_combination (norm := (field_simp; ring)) (d + 3) / 2 * (d + 4) * (po * pi / (d + 2) * (ls + 2 / 3 * t - qp) * hm2 - po ^ 2 * pi ^ 2 * q / (d + 2) / d * hm3)

theorem alg_mix (w : ℝ) (hw : w ^ 2 = j * (j + 1)) (hj : 1 ≤ j) (h0 : L 0 = P) (h1 : L 1 = z * P - (1 - z ^ 2) * D / (j + 1)) (hm1 : L (-1) = z * P + (1 - z ^ 2) * D / j) (hsq : Real.sqrt (j * (j + 1)) = w) :
    (2 * j + 1) * w * -vpotMix12 j po pi (waveNums L c s t ls q qp) = between j z P D c s t ls q qp po pi (-(j + 1)) j ∧
    (2 * j + 1) * w * -vpotMix21 j po pi (waveNums L c s t ls q qp) = between j z P D c s t ls q qp po pi j (-(j + 1)) := by
  have a1 : 2 * j + 1 ≠ 0 := by positivity
  have a4 : j ≠ 0 := by positivity
  have a5 : j + 1 ≠ 0 := by positivity
  unfold vpotMix12 vpotMix21 waveNums between
  dsimp only
  rw [h0, h1, hm1, hsq]
  rw [show po * po + pi * pi = po ^ 2 + pi ^ 2 by ring]
  clear h1 hm1 hj hsq
  constructor
  · linear_combination (norm := (field_simp; ring)) (2 * t * (-(2 * po * pi) * P + po ^ 2 * (z * P + (1 - z ^ 2) * D / j) + pi ^ 2 * (z * P - (1 - z ^ 2) * D / (j + 1)))
      + 2 * po ^ 2 * pi ^ 2 * q * ((z * P - (1 - z ^ 2) * D / (j + 1)) - (z * P + (1 - z ^ 2) * D / j)) / (2 * j + 1) + 2 * po * pi * qp * P) * hw
  · linear_combination (norm := (field_simp; ring)) (2 * t * (-(2 * po * pi) * P + pi ^ 2 * (z * P + (1 - z ^ 2) * D / j) + po ^ 2 * (z * P - (1 - z ^ 2) * D / (j + 1)))
      + 2 * po ^ 2 * pi ^ 2 * q * ((z * P - (1 - z ^ 2) * D / (j + 1)) - (z * P + (1 - z ^ 2) * D / j)) / (2 * j + 1) + 2 * po * pi * qp * P) * hw
end

theorem legI_neg (z : ℝ) (n : Int) (hn : n < 0) : legI z n = 0 := by unfold legI; rw [if_pos hn]

theorem odd_ne (J : Nat) (n : Int) : 2 * (J : ℝ) + (2 * n + 1 : Int) ≠ 0 := by
  intro e
  have : 2 * (J : ℤ) + (2 * n + 1) = 0 := by exact_mod_cast e
  omega

section
variable (F : NijForce) (J : Nat) (po pi z : ℝ) (u v : Vec) (h : Dirs z u v)

theorem wavesAt_eq : wavesAt F J z = waveNums (fun k => legI z (J + k)) (F.c z) (F.s z) (F.t z) (F.ls z) (F.q z) (F.qp z) := rfl
include h

theorem nij_singlet : vpotSinglet J po pi (wavesAt F J z) = (legendre J).eval z * nijSinglet F po pi u v := by
  obtain ⟨h1, h2, h3⟩ := h
  have h3' : v ⬝ᵥ u = z := by rw [dotProduct_comm]; exact h3
  rw [wavesAt_eq, alg_singlet (J : ℝ) z ((legendre J).eval z) _ _ _ _ _ _ po pi _ (by positivity) (by have := odd_ne J (-1); push_cast at this; intro e; apply this; linarith)]
  · unfold nijSinglet
    dsimp only
    rw [normal_eq, h3]
    simp only [smul_dotProduct, dotProduct_smul, cross_norm, add_dotProduct, dotProduct_add, sub_dotProduct, dotProduct_sub, smul_eq_mul, h1, h2, h3, h3']
    ring
  · simpa using leg_self J z
  · rw [leg_next]
    rcases Nat.eq_zero_or_pos J with rfl | hJ
    · simp [legendre_zero]
    · rw [show (J : Int) + -1 = J - 1 by ring, leg_prev J hJ]
      have : (J : ℝ) ≠ 0 := by positivity
      have : (J : ℝ) + 1 ≠ 0 := by positivity
      field_simp
      ring
  · have := leg_next2 J z
    rw [leg_self] at this
    exact this
  · rcases Nat.eq_zero_or_pos J with rfl | hJ
    · simp
    · have := leg_prev2 J hJ z
      rw [leg_self] at this
      rw [show (J : Int) + -1 = J - 1 by ring, show (J : Int) + -2 = J - 2 by ring, this]

theorem swap_uncoupled : contract (-(derivative (derivative (legendre J))).eval z • vecMulVec (crossProduct u v) (crossProduct u v)
      + (derivative (legendre J)).eval z • (z • (1 : Op3) - vecMulVec v u)) (vecMulVec u v + vecMulVec v u) = (derivative (legendre J)).eval z * (z ^ 2 - 1) := by
  have e1 := swap_plane z u v h 0 1 1 0
  have x1 : (0 : ℝ) • u + (1 : ℝ) • v = v := by simp
  have x2 : (1 : ℝ) • u + (0 : ℝ) • v = u := by simp
  rw [x1, x2] at e1
  have e2 : contract (vecMulVec (crossProduct u v) (crossProduct u v)) (vecMulVec u v + vecMulVec v u) = 0 := by
    rw [contract_dyad]
    simp only [Fin.sum_univ_three, Matrix.add_apply, vecMulVec_apply, cross_apply]
    simp
    ring
  rw [contract_add_left, contract_smul_left, contract_smul_left, contract_sub_left, contract_smul_left, swap_one z u v h, e1, e2]
  ring

theorem nij_uncoupled (hJ : 1 ≤ J) (hd : po ^ 2 + pi ^ 2 ≠ 0) :
    vpotTriplet J po pi (wavesAt F J z) = contract (tripletStates J J J u v) (nijTriplet F po pi u v) := by
  have hn : (0 : ℝ) < J := by exact_mod_cast hJ
  have hE := legendre_second J z
  have e := plane_op (plainPart F po pi) po pi u v z h 0 1 1 0
  have x1 : (0 : ℝ) • u + (1 : ℝ) • v = v := by simp
  have x2 : (1 : ℝ) • u + (0 : ℝ) • v = u := by simp
  rw [x1, x2] at e
  have hs := swap_uncoupled J z u v h
  rw [nijTriplet_eq F po pi z u v h]
  unfold tripletStates stateNorm
  rw [if_neg (by omega), if_pos rfl, if_pos rfl, Real.mul_self_sqrt (by positivity), rot_gradBoth, contract_smul_left, contract_add_right, contract_smul_right, h.uv, hs,
    contract_add_left, contract_smul_left, contract_smul_left, contract_sub_left, contract_smul_left, normal_op _ po pi u v z h, unit_op _ po pi u v z h, e]
  have a0 : (J : ℝ) * (J + 1) ≠ 0 := by positivity
  have alg := alg_triplet (J : ℝ) z ((legendre J).eval z) ((derivative (legendre J)).eval z) (F.c z) (F.s z) (F.t z) (F.ls z) (F.q z) (F.qp z) po pi
    (fun k => legI z (J + k)) hd (by exact_mod_cast hJ) (by simpa using leg_self J z) (leg_next J z) (by rw [show (J : Int) + -1 = J - 1 by ring]; exact leg_prev J hJ z)
    (by have := leg_next2 J z; rw [leg_self] at this; exact this)
    (by have := leg_prev2 J hJ z; rw [leg_self] at this; rw [show (J : Int) + -1 = J - 1 by ring, show (J : Int) + -2 = J - 2 by ring, this])
  rw [← wavesAt_eq] at alg
  rw [eq_inv_mul_iff_mul_eq₀ a0, alg]
  unfold plainPart
  dsimp only
  generalize eval z (derivative (derivative (legendre J))) = E at hE ⊢
  generalize eval z (derivative (legendre J)) = D at hE ⊢
  generalize eval z (legendre J) = P at hE ⊢
  linear_combination (F.c z - F.t z * ((po ^ 2 + pi ^ 2 - 2 * po * pi * z) / 3) + F.s z + F.t z * (po ^ 2 + pi ^ 2 - 2 * po * pi * z) - F.q z * ((po * pi) ^ 2 * (1 - z ^ 2))) * hE

theorem nij_states (r r' : ℝ) :
    contract ((r * r' * (legendre J).eval (u ⬝ᵥ v)) • vecMulVec u v + r • vecMulVec u (gradIn J u v) + r' • vecMulVec (gradOut J u v) v + gradBoth J u v) (nijTriplet F po pi u v) =
    between J z ((legendre J).eval z) ((derivative (legendre J)).eval z) (F.c z) (F.s z) (F.t z) (F.ls z) (F.q z) (F.qp z) po pi r r' := by
  rw [nijTriplet_eq F po pi z u v h, contract_add_right, contract_smul_right, states_op (plainPart F po pi) po pi u v z h, states_swap J z u v h]
  rfl

theorem nij_upper (hd : po ^ 2 + pi ^ 2 ≠ 0) : vpotUpper J po pi (wavesAt F J z) = contract (tripletStates J (J + 1) (J + 1) u v) (nijTriplet F po pi u v) := by
  unfold tripletStates stateNorm radialFactor
  have i1 : ¬ ((J : Int) + 1 < J) := by omega
  have i2 : ¬ ((J : Int) + 1 = J) := by omega
  simp only [i1, i2, if_false]
  have a0 : ((J : ℝ) + 1) * (2 * J + 1) ≠ 0 := by positivity
  rw [Real.mul_self_sqrt (by positivity), contract_smul_left, nij_states F J po pi z u v h, eq_inv_mul_iff_mul_eq₀ a0, wavesAt_eq]
  apply alg_upper (hd := hd) (hj := by positivity)
  · simpa using leg_self J z
  · exact leg_next J z
  · rcases Nat.eq_zero_or_pos J with rfl | hJ
    · simp [legendre_zero]
    · rw [show (J : Int) + -1 = J - 1 by ring, leg_prev J hJ]
      have : (J : ℝ) ≠ 0 := by positivity
      field_simp
  · have := leg_next2 J z
    rw [leg_self] at this
    exact this
  · exact leg_next3 J z

theorem nij_lower (hJ : 1 ≤ J) (hd : po ^ 2 + pi ^ 2 ≠ 0) : vpotLower J po pi (wavesAt F J z) = contract (tripletStates J (J - 1) (J - 1) u v) (nijTriplet F po pi u v) := by
  unfold tripletStates stateNorm radialFactor
  have i3 : (J : Int) - 1 < J := by omega
  have i4 : ¬ ((J : Int) - 1 = J) := by omega
  simp only [i3, i4, if_true, if_false]
  have hn : (1 : ℝ) ≤ J := by exact_mod_cast hJ
  have a0 : (J : ℝ) * (2 * J + 1) ≠ 0 := by positivity
  have hp2 : ((J : ℝ) - 1) * legI z (J - 2) = (2 * J - 1) * z * legI z (J - 1) - J * (legendre J).eval z := by
    have := leg_prev2 J hJ z
    rwa [leg_self] at this
  rw [Real.mul_self_sqrt (by positivity), contract_smul_left, nij_states F J po pi z u v h, eq_inv_mul_iff_mul_eq₀ a0, wavesAt_eq]
  apply alg_lower (hd := hd) (hj := hn)
  · have := odd_ne J (-2); push_cast at this; intro e; apply this; linarith
  · simpa using leg_self J z
  · exact leg_next J z
  · rw [show (J : Int) + -1 = J - 1 by ring]; exact leg_prev J hJ z
  · rw [show (J : Int) + -1 = J - 1 by ring, show (J : Int) + -2 = J - 2 by ring, hp2]
  · rw [show (J : Int) + -1 = J - 1 by ring, show (J : Int) + -3 = J - 3 by ring]
    by_cases h1 : J = 1
    · subst h1
      simp [legI, legendre_zero, legendre_one]
      right; ring
    · rw [leg_prev3 J (by omega), ← hp2]
      ring

theorem nij_mix (hJ : 1 ≤ J) (hd : po ^ 2 + pi ^ 2 ≠ 0) :
    -vpotMix12 J po pi (wavesAt F J z) = contract (tripletStates J (J + 1) (J - 1) u v) (nijTriplet F po pi u v) ∧
    -vpotMix21 J po pi (wavesAt F J z) = contract (tripletStates J (J - 1) (J + 1) u v) (nijTriplet F po pi u v) := by
  unfold tripletStates stateNorm radialFactor
  have i1 : ¬ ((J : Int) + 1 < J) := by omega
  have i2 : ¬ ((J : Int) + 1 = J) := by omega
  have i3 : (J : Int) - 1 < J := by omega
  have i4 : ¬ ((J : Int) - 1 = J) := by omega
  simp only [i1, i2, i3, i4, if_true, if_false]
  have hn : (1 : ℝ) ≤ J := by exact_mod_cast hJ
  have hq : Real.sqrt ((J : ℝ) * (J + 1)) ^ 2 = J * (J + 1) := Real.sq_sqrt (by positivity)
  have hq0 : Real.sqrt ((J : ℝ) * (J + 1)) ≠ 0 := (Real.sqrt_pos.2 (by positivity)).ne'
  have a0 : (2 * (J : ℝ) + 1) * Real.sqrt ((J : ℝ) * (J + 1)) ≠ 0 := mul_ne_zero (by positivity) hq0
  have alg := alg_mix (J : ℝ) z ((legendre J).eval z) ((derivative (legendre J)).eval z) (F.c z) (F.s z) (F.t z) (F.ls z) (F.q z) (F.qp z) po pi
    (fun k => legI z (J + k)) hd _ hq hn (by simpa using leg_self J z) (leg_next J z) (by rw [show (J : Int) + -1 = J - 1 by ring]; exact leg_prev J hJ z) rfl
  rw [mul_comm (Real.sqrt (((J : ℝ) + 1) * (2 * J + 1))) (Real.sqrt (J * (2 * J + 1))), mix_norm _ hn, contract_smul_left, contract_smul_left, nij_states F J po pi z u v h,
    nij_states F J po pi z u v h, eq_inv_mul_iff_mul_eq₀ a0, eq_inv_mul_iff_mul_eq₀ a0]
  exact alg
end

end TicTac
end
