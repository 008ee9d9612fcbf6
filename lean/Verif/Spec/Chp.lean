import Verif.Lemmas.Legendre
import Mathlib.LinearAlgebra.CrossProduct
import Mathlib.LinearAlgebra.Matrix.Notation
import Mathlib.Analysis.SpecialFunctions.Pow.Real
/-! What a partial-wave element of a nucleon-nucleon force is: the force as an operator in spin space, the angular-momentum states, and the
projection of one on the other.  Nothing here refers to the program. -/
noncomputable section
namespace TicTac.Spec
open Matrix Polynomial

/-- Vectors and spin operators of a spin-1 pair in the Cartesian basis. -/
abbrev Vec := Fin 3 → ℝ
abbrev Op3 := Matrix (Fin 3) (Fin 3) ℝ

/-- `-i S·a` for the spin-1 matrices `(S_k)_{ij} = -i ε_{kij}`: it is the vector product with `a`. -/
def spinRot (a : Vec) : Op3 := fun i j => (crossProduct a (Pi.single j 1)) i

/-- `σ₁·a σ₂·a = 2 (S·a)² - a²` in the triplet; `(S·a)² = -(−i S·a)²`. -/
def sigmaSigma (a : Vec) : Op3 := -(2 : ℝ) • (spinRot a * spinRot a) - (a ⬝ᵥ a) • (1 : Op3)

/-- A force with central, spin-spin, spin-orbit, tensor and sigma-L parts; each strength is a function of the cosine between the momenta. -/
structure Force where
  c : ℝ → ℝ
  s : ℝ → ℝ
  ls : ℝ → ℝ
  t : ℝ → ℝ
  sl : ℝ → ℝ

/-- The force between pair momenta `p u` (ingoing `v`): `c + s σ₁·σ₂ + ls (-i S·(q×k)) + t σ₁·q σ₂·q + sl σ₁·(q×k) σ₂·(q×k)` in the triplet
(`σ₁·σ₂ = 1`), with `q` the difference and `k` the mean of the momenta `po u` and `pi v`. -/
def tripletOp (F : Force) (po pi : ℝ) (u v : Vec) : Op3 :=
  let q := po • u - pi • v
  let k := (1 / 2 : ℝ) • (po • u + pi • v)
  let n := crossProduct q k
  (F.c (u ⬝ᵥ v) + F.s (u ⬝ᵥ v)) • (1 : Op3) + F.ls (u ⬝ᵥ v) • spinRot n + F.t (u ⬝ᵥ v) • sigmaSigma q + F.sl (u ⬝ᵥ v) • sigmaSigma n

/-- The same operator in the singlet, where `σ₁·σ₂ = -3`, `S = 0` and `σ₁·a σ₂·a = -a²`. -/
def singletOp (F : Force) (po pi : ℝ) (u v : Vec) : ℝ :=
  let q := po • u - pi • v
  let k := (1 / 2 : ℝ) • (po • u + pi • v)
  let n := crossProduct q k
  F.c (u ⬝ᵥ v) - 3 * F.s (u ⬝ᵥ v) - (q ⬝ᵥ q) * F.t (u ⬝ᵥ v) - (n ⬝ᵥ n) * F.sl (u ⬝ᵥ v)

/-- Surface gradients of the zonal function `P_J(u·v)`: with respect to `u`, to `v`, and to both. -/
def gradOut (J : Nat) (u v : Vec) : Vec := (derivative (legendre J)).eval (u ⬝ᵥ v) • (v - (u ⬝ᵥ v) • u)
def gradIn (J : Nat) (u v : Vec) : Vec := (derivative (legendre J)).eval (u ⬝ᵥ v) • (u - (u ⬝ᵥ v) • v)
def gradBoth (J : Nat) (u v : Vec) : Op3 :=
  (derivative (derivative (legendre J))).eval (u ⬝ᵥ v) • vecMulVec (v - (u ⬝ᵥ v) • u) (u - (u ⬝ᵥ v) • v)
    + (derivative (legendre J)).eval (u ⬝ᵥ v) • ((1 : Op3) - vecMulVec u u - vecMulVec (v - (u ⬝ᵥ v) • u) v)

/-- The spin-1 states of total angular momentum `J` and orbital `L` are, in terms of the spherical harmonics (vector spherical harmonics; Edmonds
(5.9.16)–(5.9.18), Clebsch–Gordan coefficients `⟨L m 1 m'|J M⟩`, no factors `i^L`):
`L = J-1`: `(J x̂ Y + ∇Y)/√(J(2J+1))`; `L = J+1`: `(-(J+1) x̂ Y + ∇Y)/√((J+1)(2J+1))`; `L = J`: `-i x̂×∇Y/√(J(J+1))`. -/
def radialFactor (J : Nat) (L : Int) : ℝ := if L < J then J else -((J : ℝ) + 1)
def stateNorm (J : Nat) (L : Int) : ℝ :=
  if L < J then Real.sqrt (J * (2 * J + 1)) else if L = J then Real.sqrt (J * (J + 1)) else Real.sqrt ((J + 1) * (2 * J + 1))

/-- `4π/(2J+1) Σ_M |J Lo M⟩(u) ⟨J Li M|(v)` for spin 1, from the addition theorem `Σ_M Y_{JM}(u) Y*_{JM}(v) = (2J+1)/(4π) P_J(u·v)`. -/
def tripletStates (J : Nat) (Lo Li : Int) (u v : Vec) : Op3 :=
  (stateNorm J Lo * stateNorm J Li)⁻¹ •
    (if Lo = J then spinRot u * gradBoth J u v * (spinRot v)ᵀ
     else (radialFactor J Lo * radialFactor J Li * (legendre J).eval (u ⬝ᵥ v)) • vecMulVec u v
      + radialFactor J Lo • vecMulVec u (gradIn J u v) + radialFactor J Li • vecMulVec (gradOut J u v) v + gradBoth J u v)

/-- Full contraction of two spin operators. -/
def contract (A B : Op3) : ℝ := ∑ i, ∑ j, A i j * B i j

/-- Two directions at a given cosine. -/
structure Dirs (z : ℝ) (u v : Vec) : Prop where
  uu : u ⬝ᵥ u = 1
  vv : v ⬝ᵥ v = 1
  uv : u ⬝ᵥ v = z

/-- The projected element `⟨Lo S J, po| F |Li S J, pi⟩` by the quadrature `rule` for `2π ∫ dz`; `dirs z` are two directions with cosine `z`. -/
def projected (rule : List (ℝ × ℝ)) (dirs : ℝ → Vec × Vec) (F : Force) (po pi : ℝ) (S : Int) (J : Nat) (Lo Li : Int) : ℝ :=
  2 * Real.pi * (rule.map fun xw =>
    xw.2 * (if S = 0 then (legendre J).eval xw.1 * singletOp F po pi (dirs xw.1).1 (dirs xw.1).2
      else contract (tripletStates J Lo Li (dirs xw.1).1 (dirs xw.1).2) (tripletOp F po pi (dirs xw.1).1 (dirs xw.1).2))).sum

end TicTac.Spec
end
