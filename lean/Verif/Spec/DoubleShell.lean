import Verif.Spec.Double
import Verif.Spec.OnShell
/-! Grids for which the search is judged. -/
noncomputable section
namespace TicTac.Spec

/-- A q grid of doubles from 0 to at most 10⁹ MeV, first boundary at 0.025 MeV or more, every bin wider than 0.11 %. -/
structure DoubleGrid (N : Nat) (q : Nat → ℝ) : Prop where
  dbl : ∀ j ≤ N, IsDouble (q j)
  zero : q 0 = 0
  first : 0 < N → 1 / 40 ≤ q 1
  last : q N ≤ 10 ^ 9
  wide : ∀ i < N, 1.0011 * q i ≤ q (i + 1)

end TicTac.Spec
end
