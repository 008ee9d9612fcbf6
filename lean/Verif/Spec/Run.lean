import Verif.Spec.Kernel
import Verif.Spec.Potential
import Verif.Spec.OnShell
import Verif.Spec.Swp
import Verif.Spec.Pade
import Verif.Spec.PadeSolve
/-! What the reported amplitudes of one three-nucleon channel are: the discretised Faddeev problem, stated with matrices in the space of the
channel and with integrals, without the program's storage. -/
noncomputable section
namespace TicTac.Spec
open Classical

/-- The two-nucleon interaction between wave packets of the channel: diagonal in the q bin and in the spectator quantum numbers. -/
def interactionMatrix (isoBreak : Bool) (g : PotGrid) (V : PotModel) (states : List PWState) (Nq : Nat) :
    Matrix (Idx states.length Nq g.Np) (Idx states.length Nq g.Np) ℝ := fun x y =>
  if x.2.1 = y.2.1 ∧ PairConnected (states.get x.1) (states.get y.1) then
    wpElement g (element V isoBreak (states.get x.1) (states.get y.1)) x.2.2 y.2.2
  else 0

/-- Kinetic energy of the pair averaged over p bin `i`. -/
def pairKinetic (g : PotGrid) (i : Nat) : ℝ := (∫ p in (g.pWP i)..(g.pWP (i + 1)), p ^ 2 / (2 * mu23)) / (g.pWP (i + 1) - g.pWP i)

/-- The deuteron S state. -/
def IsDeuteronS (s : PWState) : Prop := s.L = 0 ∧ s.S = 1 ∧ s.J = 1

/-- The columns of `C` are the scattering wave packets of the pair Hamiltonian, with energies `lam`, and the deuteron the only bound one. -/
structure ScatteringBasis (isoBreak : Bool) (g : PotGrid) (V : PotModel) (states : List PWState) (Nq : Nat) (Eb : ℝ)
    (C : Matrix (Idx states.length Nq g.Np) (Idx states.length Nq g.Np) ℝ) (lam : Fin states.length → Nat → ℝ) : Prop where
  orthonormal : C.transpose * C = 1
  schroedinger : (interactionMatrix isoBreak g V states Nq + Matrix.diagonal fun x => pairKinetic g x.2.2) * C =
    C * Matrix.diagonal fun x => lam x.1 x.2.2
  pairOnly : ∀ x y, C x y ≠ 0 → x.2.1 = y.2.1 ∧ PairConnected (states.get x.1) (states.get y.1)
  bound : ∀ a, IsDeuteronS (states.get a) → 0 < g.Np → lam a 0 = Eb ∧ Eb < 0
  unbound : ∀ a, ∀ i < g.Np, ¬ (IsDeuteronS (states.get a) ∧ i = 0) → 0 ≤ lam a i

/-- No two wave packets of one two-nucleon channel have the same energy, and none has energy zero. -/
def Nondegenerate (states : List PWState) (Np : Nat) (lam : Fin states.length → Nat → ℝ) : Prop :=
  (∀ a b : Fin states.length, ∀ i < Np, ∀ j < Np, PairConnected (states.get a) (states.get b) → lam a i = lam b j → a = b ∧ i = j) ∧
  ∀ a, ∀ i < Np, lam a i ≠ 0

/-- Energy bins of the wave packets: increasing, each containing its energy, starting at 0 or, for the deuteron, at the bound state
followed by 0. -/
def EnergyBins (states : List PWState) (Np : Nat) (Eb : ℝ) (lam edges : Fin states.length → Nat → ℝ) : Prop :=
  ∀ a, Encloses Np (edges a) (lam a) ∧
    (IsDeuteronS (states.get a) → edges a 0 = Eb ∧ edges a 1 = 0) ∧ (¬ IsDeuteronS (states.get a) → edges a 0 = 0)

/-- `G` is the resolvent `1/(E + i0 - H₀)` averaged over the cells, at nucleon–deuteron energy `Ecom`, i.e. total energy `Ecom + Eb`: one
bin of the spectator for the deuteron, a cell of pair and spectator energies otherwise (unless `E` hits a corner of the cell). -/
def IsResolvent (states : List PWState) (Nq Np : Nat) (q : Nat → ℝ) (Eb Ecom : ℝ) (edges : Fin states.length → Nat → ℝ)
    (G : Idx states.length Nq Np → ℂ) : Prop :=
  ∀ x : Idx states.length Nq Np,
    (IsDeuteronS (states.get x.1) ∧ (x.2.2 : Nat) = 0 →
      IsBinAverage Ecom (ndEnergy Eb (q x.2.1)) (ndEnergy Eb (q (x.2.1 + 1))) (G x)) ∧
    (¬ (IsDeuteronS (states.get x.1) ∧ (x.2.2 : Nat) = 0) →
      (∀ i ∈ [(x.2.2 : Nat), x.2.2 + 1], ∀ j ∈ [(x.2.1 : Nat), x.2.1 + 1], Ecom + Eb ≠ edges x.1 i + ndEnergy 0 (q j)) →
      IsCellAverage (Ecom + Eb) (edges x.1 x.2.2) (edges x.1 (x.2.2 + 1)) (ndEnergy 0 (q x.2.1)) (ndEnergy 0 (q (x.2.1 + 1))) (G x))

/-- The effective potential `A = Cᵀ P V C`, `P = P123 + P132 = 2 P123` on states antisymmetric in the pair. -/
def effective {n Nq Np : Nat} (P123 : Matrix (Idx n Nq Np) (Idx n Nq Np) ℝ) (V C : Matrix (Idx n Nq Np) (Idx n Nq Np) ℝ) :
    Matrix (Idx n Nq Np) (Idx n Nq Np) ℂ := toC ((2 : ℝ) • (C.transpose * P123 * (V * C)))

/-- The discretised Faddeev problem of one channel at one energy: kernel `A` in the basis of scattering wave packets, resolvent `G`. -/
def FaddeevProblem (isoBreak : Bool) (g : PotGrid) (V : PotModel) (states : List PWState) (Nq : Nat) (q : Nat → ℝ) (Eb Ecom : ℝ)
    (P123 : Matrix (Idx states.length Nq g.Np) (Idx states.length Nq g.Np) ℝ) (A : Matrix (Idx states.length Nq g.Np) (Idx states.length Nq g.Np) ℂ)
    (G : Idx states.length Nq g.Np → ℂ) : Prop :=
  ∃ C lam edges, ScatteringBasis isoBreak g V states Nq Eb C lam ∧ EnergyBins states g.Np Eb lam edges ∧
    IsResolvent states Nq g.Np q Eb Ecom edges G ∧ A = effective P123 (interactionMatrix isoBreak g V states Nq) C

/-- `T` (lab energy) and `Ecom` are one of the energies of the discretised problem, `qb` is the bin of the on-shell momentum. -/
def IsOnShellPoint (Nq : Nat) (q : Nat → ℝ) (Eb T Ecom : ℝ) (qb : Fin Nq) : Prop :=
  (∃ bin < Nq, IsMidpointEnergy q Eb bin T ∧ Ecom = (ndEnergy Eb (q bin) + ndEnergy Eb (q (bin + 1))) / 2) ∧
    q qb < labEnergyToComMomentum T Eb ∧ labEnergyToComMomentum T Eb < q (qb + 1)

/-- The scattering equation `X = A + A G X`. -/
def IsAmplitude {ι : Type} [Fintype ι] [DecidableEq ι] (A : Matrix ι ι ℂ) (G : ι → ℂ) (X : Matrix ι ι ℂ) : Prop :=
  X = A + A * Matrix.diagonal G * X

/-- The list of the deuteron states of the channel, in order. -/
def IsDeuteronList (states : List PWState) (deut : List (Fin states.length)) : Prop :=
  deut.Pairwise (· < ·) ∧ ∀ a, a ∈ deut ↔ IsDeuteronS (states.get a)

end TicTac.Spec
end
