import Mathlib.Analysis.Complex.Norm
/-! Specification of the rule by which the iterative solver picks one of the approximants of an element (C77).  `PA k` is the approximant of order `k`
(`none`: not finite), `before` is what takes the place of an approximant of order −1. -/
noncomputable section
namespace TicTac.Spec
open Classical

/-- The modulus of a difference, unless one of the numbers is not finite or they agree to 1e-15. -/
def change (x y : Option ℂ) : Option ℝ :=
  match x, y with
  | some x, some y => if 1 / 10 ^ 15 < ‖x - y‖ then some ‖x - y‖ else none
  | _, _ => none

/-- The change into the approximant of order `k`. -/
def changeAt (before : Option ℂ) (PA : Nat → Option ℂ) : Nat → Option ℝ
  | 0 => change (PA 0) before
  | k + 1 => change (PA (k + 1)) (PA k)

/-- Up to order `NM` the change into order `k` is the first of the smallest changes, and it is below 1; if there is no such change, `k` is 0 and `d` is 1. -/
def SmallestChange (before : Option ℂ) (PA : Nat → Option ℂ) (NM k : Nat) (d : ℝ) : Prop :=
  (k ≤ NM ∧ changeAt before PA k = some d ∧ d < 1 ∧ ∀ l ≤ NM, ∀ d', changeAt before PA l = some d' → d ≤ d' ∧ (l < k → d < d')) ∨
  (k = 0 ∧ d = 1 ∧ ∀ l ≤ NM, ∀ d', changeAt before PA l = some d' → 1 ≤ d')

/-- The element is accepted at order `NM`. -/
def AcceptedAt (before : Option ℂ) (PA : Nat → Option ℂ) (NM : Nat) : Prop :=
  ∃ k d, SmallestChange before PA NM k d ∧ (NM = 14 ∨ k + 4 < NM ∨ d < 1 / 10 ^ 7 ∨ ∃ x, PA k = some x ∧ d < 1 / 10 ^ 6 * ‖x‖)

/-- What takes the place of the approximant of order −1 when element number `n` is judged at order `NM`, for a table whose element `m` has approximants `PA m` and which
is preceded in memory by `cell`: the cell for the first element, otherwise zero, but at order 14 the last approximant of the element before if that one was not accepted earlier. -/
def before (cell : Option ℂ) (PA : Nat → Nat → Option ℂ) : Nat → Nat → Option ℂ
  | 0, _ => cell
  | n + 1, NM => if NM = 14 ∧ ∀ l < 14, ¬AcceptedAt (if n = 0 then cell else some 0) (PA n) l then PA n 14 else some 0

end TicTac.Spec
end
