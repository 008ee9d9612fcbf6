import Verif.Spec.NijmegenSex
import Verif.Model.NijmegenSml
/-! What a user of `SEX` relies on for small `y`. -/
noncomputable section
namespace TicTac

/-- The common factor of the integrals: `e^{a² - yx}`. -/
def smlSize (c : SexCall) : ℝ := Real.exp (c.a ^ 2) * Real.exp (-(c.y * c.x))

/-- Arguments for which `SEX` takes the expansion for small `y` and no exponential is cut off. -/
structure SexCall.Small (c : SexCall) : Prop where
  x1 : 1 ≤ c.x
  x2 : c.a ≠ 0 → 2 ≤ c.x
  y0 : 0 < c.y
  y1 : c.y ≤ 1e-3
  yx : c.y * c.x < 100
  j1 : c.j ≤ 11

/-- The memory of `SEX` after a history of calls (latest first) since the start of the program. -/
inductive SexTopReach (ce1 : ℝ → ℝ) (fuel : Nat) : List SexCall → SexAll → Prop
  | start (tn : Nat → ℝ) : SexTopReach ce1 fuel [] ⟨⟨tn, 1e20, 1e20, 1e20⟩, fun _ => 0⟩
  | call {h : List SexCall} {m m' : SexAll} {c : SexCall} {eln ern eln' ern' : Nat → ℝ} : SexTopReach ce1 fuel h m →
      sexTop ce1 fuel m c.x c.y c.a c.j c.kom eln ern = some (m', eln', ern') → SexTopReach ce1 fuel (c :: h) m'

end TicTac
end
