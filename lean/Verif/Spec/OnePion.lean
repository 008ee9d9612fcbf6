import Verif.Spec.LOPot
/-! One-pion exchange with the exact angular integral. -/
noncomputable section
namespace TicTac.Spec

/-- The angular integral `π ∫ V(z) z^l P_n(z) dz` over [-1, 1]. -/
def angularExact (qi qo : ℝ) (n l : Nat) : ℝ := Real.pi * ∫ z in (-1 : ℝ)..1, pionPropagator qi qo z * z ^ l * (legendre n).eval z

/-- The six partial-wave elements of one-pion exchange (as in `opepJ`), with the exact angular integrals. -/
def opepExact (qi qo : ℝ) (J : Nat) : Six :=
  let A := angularExact qi qo
  ![2 * (2 * qi * qo * A J 1 - (qi ^ 2 + qo ^ 2) * A J 0),
    2 * ((qi ^ 2 + qo ^ 2) * A J 0 - 2 * qi * qo * (J * A (J + 1) 0 + (J + 1) * A (J - 1) 0) / (2 * J + 1)),
    2 / (2 * J + 1) * ((qi ^ 2 + qo ^ 2) * A (J - 1) 0 - 2 * qi * qo * A J 0),
    4 * Real.sqrt (J * (J + 1)) / (2 * J + 1) * (qi ^ 2 * A (J + 1) 0 + qo ^ 2 * A (J - 1) 0 - 2 * qi * qo * A J 0),
    4 * Real.sqrt (J * (J + 1)) / (2 * J + 1) * (qo ^ 2 * A (J + 1) 0 + qi ^ 2 * A (J - 1) 0 - 2 * qi * qo * A J 0),
    2 / (2 * J + 1) * (2 * qi * qo * A J 0 - (qi ^ 2 + qo ^ 2) * A (J + 1) 0)]

end TicTac.Spec
end
