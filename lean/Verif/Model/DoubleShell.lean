import Verif.Model.Double
import Verif.Model.OnShell
/-! `find_on_shell_bins`, elastic part, in double precision (run_organizer.cpp:36-132; `mu1`: kinetic_conversion.cpp:10-13). -/
noncomputable section
namespace TicTac
namespace Fpu
variable (F : Fpu)

/-- `mu1`, kinetic_conversion.cpp:10-13. -/
def mu1 (Eb : ℝ) : ℝ := F.div (F.mul F.Mn (F.deuteronMass Eb)) (F.add F.Mn (F.deuteronMass Eb))

/-- Energy of a bin edge, run_organizer.cpp:45-46, 91-92. -/
def edgeE (Eb x : ℝ) : ℝ := F.div (F.mul (F.lit 0.5) (F.mul x x)) (F.mu1 Eb)

/-- Midpoint energy of a q bin, run_organizer.cpp:47, 93. -/
def midE (q : Nat → ℝ) (Eb : ℝ) (i : Nat) : ℝ := F.mul (F.lit 0.5) (F.add (F.edgeE Eb (q (i + 1))) (F.edgeE Eb (q i)))

/-- Midpoint lab energy, run_organizer.cpp:48-49, 94-96. -/
def midT (q : Nat → ℝ) (Eb : ℝ) (i : Nat) : ℝ := F.comMomentumToLabEnergy (F.comEnergyToComQ (F.midE q Eb i)) Eb

open Classical in
/-- `midpoint_idx_vector`, run_organizer.cpp:57-69. -/
def midMark (Nq : Nat) (q : Nat → ℝ) (Eb : ℝ) (inputs : List ℝ) (i : Nat) : Bool :=
  decide (i < Nq - 1) && inputs.any fun T => decide (F.midT q Eb i ≤ T) && decide (T ≤ F.midT q Eb (i + 1))

/-- `q_WP_idx_vec`, run_organizer.cpp:71-84. -/
def onShellBins (Nq : Nat) (q : Nat → ℝ) (Eb : ℝ) (inputs : List ℝ) : List Nat :=
  (List.range Nq).filter (binMark Nq (F.midMark Nq q Eb inputs))

/-- `find_on_shell_bins`, elastic part, run_organizer.cpp:4-132; comparisons of doubles are exact. -/
def findOnShell (Nq : Nat) (q : Nat → ℝ) (Eb : ℝ) (inputs : List ℝ) : Except Stop OnShell := do
  let bins := F.onShellBins Nq q Eb inputs
  let Tlab := bins.map (F.midT q Eb)
  let qcom := Tlab.map fun T => F.labEnergyToComMomentum T Eb
  let Ecom := qcom.map F.comQToComEnergy
  let qIdx ← qcom.mapM (findQBin Nq q)
  pure ⟨Tlab, qcom, Ecom, qIdx⟩

end Fpu
end TicTac
end
