import Verif.Model.Numeric
/-! What an on-shell energy is. -/
noncomputable section
namespace TicTac.Spec

/-- Increasing, non-negative momentum grid with `N` bins. -/
def IsGrid (N : Nat) (q : Nat → ℝ) : Prop := 0 ≤ q 0 ∧ ∀ i < N, q i < q (i + 1)

/-- Reduced mass of a neutron and a pair of mass `m_n + m_p + Eb` (MeV). -/
def ndReducedMass (Eb : ℝ) : ℝ := 939.565 * (939.565 + 938.272 + Eb) / (939.565 + (939.565 + 938.272 + Eb))

/-- Kinetic energy of the relative motion of the nucleon and the pair at momentum `q`; `Eb = 0` for an unbound pair. -/
def ndEnergy (Eb q : ℝ) : ℝ := q ^ 2 / (2 * ndReducedMass Eb)

/-- `T` is the lab energy whose c.m. energy is half-way between the energies of the edges of bin `i`. -/
def IsMidpointEnergy (q : Nat → ℝ) (Eb : ℝ) (i : Nat) (T : ℝ) : Prop :=
  0 ≤ T ∧ comQToComEnergy (labEnergyToComMomentum T Eb) = (ndEnergy Eb (q i) + ndEnergy Eb (q (i + 1))) / 2

end TicTac.Spec
end
