import Verif.Spec.Program
import Verif.Spec.ChiralExact
import Verif.Model.PermQuad
import Verif.Model.ChpMesh
import Verif.Props.PhiMesh
/-! A run that makes its own grids and meshes. -/
noncomputable section
namespace TicTac.Spec

/-- Bin boundaries as the program makes them from a positive scale and a positive sparseness; `init` is what the array held. -/
def OwnGrid (N : Nat) (b : Nat → ℝ) : Prop := ∃ scale t init, 0 < scale ∧ 0 < t ∧ ∀ i ≤ N, b i = chebArray N scale t init i

/-- The quadrature of the permutation matrix as the program makes it, for sizes up to ten million and three thousand. -/
structure OwnQuad (quad : Quad) : Prop where
  sizes : 1 ≤ quad.Nx ∧ quad.Nx ≤ 10 ^ 7 ∧ 1 ≤ quad.Nphi ∧ quad.Nphi ≤ 3000
  legendre : IsLegendrePl quad.P
  made : QuadOf quad.Nx quad.Nphi quad

/-- The angular mesh of the chiral potentials as the program makes it; `pp0`, `x0`, `w0` are what memory held. -/
def OwnAngles (rule : List (ℝ × ℝ)) : Prop := ∃ fuel pp0 x0 w0, 7 ≤ fuel ∧ meshFill 96 3e-14 fuel (-1) 1 pp0 x0 w0 = some rule

/-- Input of a run that is not rejected: at least three momentum bins, and either quadrature in the bins or no isospin breaking. -/
structure LegalInput (x : RunInput) : Prop where
  valid : ValidTruncation x.p
  tensor : x.p.tensor = true
  mid : x.g.mid = false ∨ x.p.isoBreak = false
  bins : 3 ≤ x.g.Np
  pgrid : OwnGrid x.g.Np x.g.pWP
  qgrid : OwnGrid x.Nq x.q

end TicTac.Spec
end
