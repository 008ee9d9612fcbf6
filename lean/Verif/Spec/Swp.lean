import Verif.Model.Swp
import Mathlib.MeasureTheory.Integral.IntervalIntegral.Basic
/-! What the scattering wave packets of a channel should be. -/
noncomputable section
namespace TicTac.Spec

/-- Full matrix described by a packed upper triangle. -/
def symOf (dim : Nat) (ap : Int → ℝ) (r c : Nat) : ℝ := ap (idxPacked dim (min r c) (max r c))

/-- Eigen-decomposition of the matrix `A`: ascending `w`, orthonormal columns of the row-major matrix `z`. -/
def EigenDecomp (dim : Nat) (A : Nat → Nat → ℝ) (w z : Nat → ℝ) : Prop :=
  (∀ i j, i ≤ j → j < dim → w i ≤ w j) ∧
  (∀ k < dim, ∀ r < dim, (∑ c ∈ Finset.range dim, A r c * z (c * dim + k)) = w k * z (r * dim + k)) ∧
  (∀ k < dim, ∀ l < dim, (∑ i ∈ Finset.range dim, z (i * dim + k) * z (i * dim + l)) = if k = l then 1 else 0)

/-- Documented behaviour of LAPACKE_dspevd(ROW_MAJOR,'V','U') (part of the trusted base). -/
def LapackContract (diag : Diag) : Prop :=
  ∀ dim ap, EigenDecomp dim (symOf dim ap) (diag dim ap).1 (diag dim ap).2

/-- Position of eigenpair `k` (ascending) in a channel's storage: unchanged for an uncoupled channel; for a coupled one
even `k` go to the first block, odd `k` to the second. -/
def swpPos (N : Nat) (coupled : Bool) (k : Nat) : Nat :=
  if coupled then (if k % 2 = 0 then k / 2 else N + k / 2) else k

/-- Two-nucleon Hamiltonian between wave packets: potential plus bin-averaged kinetic energy on the diagonal; for a
coupled channel positions `N … 2N-1` are the second partial wave. -/
def hamiltonian (N : Nat) (bounds : Nat → ℝ) (V : Nat → Nat → ℝ) (r c : Nat) : ℝ :=
  V r c + if r = c then
    (∫ p in (bounds (r % N))..(bounds (r % N + 1)), p ^ 2 / (2 * mu23)) / (bounds (r % N + 1) - bounds (r % N)) else 0

/-- The stored wave packets of one channel solve its Schrödinger equation: energies `lam` ascending, `vec r k` = component
`r` of the `k`-th eigenvector, orthonormal. -/
def ChannelSolved (dim : Nat) (H : Nat → Nat → ℝ) (lam : Nat → ℝ) (vec : Nat → Nat → ℝ) : Prop :=
  (∀ i j, i ≤ j → j < dim → lam i ≤ lam j) ∧
  (∀ k < dim, ∀ r < dim, (∑ c ∈ Finset.range dim, H r c * vec c k) = lam k * vec r k) ∧
  (∀ k < dim, ∀ l < dim, (∑ i ∈ Finset.range dim, vec i k * vec i l) = if k = l then 1 else 0)

/-- A basis state of the deuteron channel 3S1–3D1. -/
def IsDeuteronChannel (s : PWState) : Prop := s.S = 1 ∧ s.J = 1 ∧ (s.L = 0 ∨ s.L = 2)

/-- Boundaries `b 0 … b N` are strictly increasing and bin `i` contains energy `f i`. -/
def Encloses (N : Nat) (b f : Nat → ℝ) : Prop :=
  (∀ i < N, b i < b (i + 1)) ∧ ∀ i < N, b i ≤ f i ∧ f i < b (i + 1)

end TicTac.Spec
end
