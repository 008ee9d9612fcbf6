import Verif.Model.GaussRun
import Verif.Model.PhiMesh
import Verif.Model.FillP123
/-! Where the quadrature of the permutation matrix comes from. -/
noncomputable section
namespace TicTac

/-- The quadrature of the permutation matrix, make_permutation_matrix.cpp:1329-1343, 171-185: `x` mesh from `gauss` (at least seven
passes per root allowed), `phi` points from `roots`. -/
structure QuadOf (Nx Nphi : Nat) (m : Quad) : Prop where
  sizeX : m.Nx = Nx
  sizePhi : m.Nphi = Nphi
  xs : ∃ fuel x0 w0 l, 7 ≤ fuel ∧ gaussFill Nx 3e-16 fuel x0 w0 = some l ∧ ∀ k < Nx, l[k]? = some (m.x k, m.wx k)
  phi : ∃ z, rootsGsl m.P Nphi = some z ∧ ∀ j < Nphi, z[j]? = some (m.z j)

end TicTac
