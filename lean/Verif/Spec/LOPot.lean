import Verif.Model.LOPot
import Verif.Lemmas.Legendre
import Mathlib.MeasureTheory.Integral.IntervalIntegral.Basic
/-! Independent statements about one-pion exchange and the Malfliet-Tjon force. -/
noncomputable section
namespace TicTac.Spec

/-- `τ₁·τ₂` in a pair of isospin `T`. -/
def tauTau (T : Int) : Int := 2 * T * (T + 1) - 3

/-- The isospin of an antisymmetric pair state. -/
def PauliT (L S T : Int) : Prop := (T = 0 ∨ T = 1) ∧ (L + S + T) % 2 = 1

/-- One-pion exchange for momentum transfer `q² = qi² + qo² - 2 qi qo z`, without the spin and isospin operators. -/
def pionPropagator (qi qo z : ℝ) : ℝ := -(1.289 ^ 2 / (4 * 92.2 ^ 2)) / (qi ^ 2 + qo ^ 2 - 2 * qi * qo * z + 138.039 ^ 2)

/-- The quadrature of the angular integral `π ∫ V(z) z^l P_n(z) dz`, with nodes and weights `rule`. -/
def angular (rule : List (ℝ × ℝ)) (qi qo : ℝ) (n l : Nat) : ℝ :=
  Real.pi * (rule.map fun xw => xw.2 * (pionPropagator qi qo xw.1 * xw.1 ^ l * (legendre n).eval xw.1)).sum

/-- The six partial-wave elements of one-pion exchange for `J ≥ 1` in terms of the angular integrals (Machleidt, Adv. Nucl. Phys. 19, 189,
in the program's sign convention for the mixing elements): spin singlet, spin triplet `L = J`, then the coupled block `L = J ∓ 1`. The
isospin factors are left out. -/
def opepJ (rule : List (ℝ × ℝ)) (qi qo : ℝ) (J : Nat) : Six :=
  let A := angular rule qi qo
  ![2 * (2 * qi * qo * A J 1 - (qi ^ 2 + qo ^ 2) * A J 0),
    2 * ((qi ^ 2 + qo ^ 2) * A J 0 - 2 * qi * qo * (J * A (J + 1) 0 + (J + 1) * A (J - 1) 0) / (2 * J + 1)),
    2 / (2 * J + 1) * ((qi ^ 2 + qo ^ 2) * A (J - 1) 0 - 2 * qi * qo * A J 0),
    4 * Real.sqrt (J * (J + 1)) / (2 * J + 1) * (qi ^ 2 * A (J + 1) 0 + qo ^ 2 * A (J - 1) 0 - 2 * qi * qo * A J 0),
    4 * Real.sqrt (J * (J + 1)) / (2 * J + 1) * (qo ^ 2 * A (J + 1) 0 + qi ^ 2 * A (J - 1) 0 - 2 * qi * qo * A J 0),
    2 / (2 * J + 1) * (2 * qi * qo * A J 0 - (qi ^ 2 + qo ^ 2) * A (J + 1) 0)]

/-- For `J = 0` there is no `L = J` triplet and no `L = J - 1`. -/
def present (J : Nat) (k : Fin 6) : Prop := J ≠ 0 ∨ k = 0 ∨ k = 5

/-- Orbital momentum and spin of the component (of the ingoing state for the mixing elements; both have the same parity). -/
def orbital (J : Nat) (k : Fin 6) : Int × Int := ![((J : Int), 0), ((J : Int), 1), ((J : Int) - 1, 1), ((J : Int) - 1, 1), ((J : Int) + 1, 1), ((J : Int) + 1, 1)] k

/-- S-wave projection `∫_{-1}^{1}` of a Yukawa force of strength `V` and inverse range `mu`. -/
def yukawaS (V mu qi qo : ℝ) : ℝ := ∫ z in (-1 : ℝ)..1, V / (Real.pi * (qi ^ 2 + qo ^ 2 - 2 * qi * qo * z + mu ^ 2))

end TicTac.Spec
end
