import Verif.Spec.Kernel
import Mathlib.Data.Complex.Basic
/-! The Neumann series of `U = A + A G U`. -/
noncomputable section
namespace TicTac.Spec

/-- Order-`n` term `A (G A)ⁿ` for a diagonal resolvent `g`. -/
def neumannTerm {ι : Type} [Fintype ι] [DecidableEq ι] (A : Matrix ι ι ℂ) (g : ι → ℂ) (n : Nat) : Matrix ι ι ℂ := A * (Matrix.diagonal g * A) ^ n

/-- A real matrix as a complex one. -/
def toC {ι : Type} (A : Matrix ι ι ℝ) : Matrix ι ι ℂ := A.map Complex.ofReal

end TicTac.Spec
end
