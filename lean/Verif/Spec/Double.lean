import Verif.Model.Double
import Verif.Spec.Format
import Mathlib.Analysis.SpecialFunctions.Trigonometric.Bounds
/-! Arithmetic of doubles. -/
noncomputable section
namespace TicTac.Spec

/-- The finite doubles as real numbers. -/
def IsDouble (x : ℝ) : Prop := ∃ neg m e, (Dbl.fin neg m e).OK ∧ x = dblValue neg m e

/-- `r` is a double, and no double is nearer to `v`. -/
def Nearest (v r : ℝ) : Prop := IsDouble r ∧ ∀ d, IsDouble d → |r - v| ≤ |d - v|

/-- IEEE 754: the four operations, the square root and the conversion of literals deliver a nearest double (either one if there are two) when the result does not
overflow. -/
structure IEEE (F : Fpu) : Prop where
  add : ∀ x y, IsDouble x → IsDouble y → |x + y| ≤ 2 ^ 1023 → Nearest (x + y) (F.add x y)
  sub : ∀ x y, IsDouble x → IsDouble y → |x - y| ≤ 2 ^ 1023 → Nearest (x - y) (F.sub x y)
  mul : ∀ x y, IsDouble x → IsDouble y → |x * y| ≤ 2 ^ 1023 → Nearest (x * y) (F.mul x y)
  div : ∀ x y, IsDouble x → IsDouble y → y ≠ 0 → |x / y| ≤ 2 ^ 1023 → Nearest (x / y) (F.div x y)
  sqrt : ∀ x, IsDouble x → 0 ≤ x → Nearest (Real.sqrt x) (F.sqrt x)
  lit : ∀ v : ℝ, |v| ≤ 2 ^ 1023 → Nearest v (F.lit v)

/-- Accuracy asked of the C library: a relative error of 2^-52 for the tangent in the first quadrant (away from its ends) and for powers of positive numbers far from over- and underflow. -/
structure Libm (F : Fpu) : Prop where
  tan : ∀ x, IsDouble x → 1 / 10 ^ 10 ≤ x → x ≤ Real.pi / 2 - 1 / 10 ^ 10 → IsDouble (F.tan x) ∧ |F.tan x - Real.tan x| ≤ (1 / 2 ^ 52) * Real.tan x
  pow : ∀ x y, IsDouble x → IsDouble y → 0 < x → 1 / 2 ^ 1000 ≤ x ^ y → x ^ y ≤ 2 ^ 1000 → IsDouble (F.pow x y) ∧ |F.pow x y - x ^ y| ≤ (1 / 2 ^ 52) * x ^ y

end TicTac.Spec
end
