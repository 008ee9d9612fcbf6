import Verif.Model.NijmegenSex
import Verif.Lemmas.Legendre
import Mathlib.MeasureTheory.Integral.IntervalIntegral.Basic
/-! What a user of `SEX` relies on. -/
noncomputable section
namespace TicTac
open Polynomial Spec

/-- A call of `SEXN`. -/
structure SexCall where
  x : ℝ
  y : ℝ
  a : ℝ
  j : Nat
  kom : Nat

/-- The memory after a history of calls (latest first) since the start of the program; the tables hold anything at first, the keys are those of the DATA statements (P:2313-2319). -/
inductive SexReach (ce1 : ℝ → ℝ) : List SexCall → SexMem → Prop
  | start (tn : Nat → ℝ) : SexReach ce1 [] ⟨tn, 1e20, 1e20, 1e20⟩
  | call {h : List SexCall} {m m' : SexMem} {c : SexCall} {eln ern eln' ern' : Nat → ℝ} : SexReach ce1 h m →
      sexn ce1 m c.x c.y c.a c.j c.kom eln ern = some (m', eln', ern') → SexReach ce1 (c :: h) m'

/-- Arguments inside the range in which no exponential is cut off. -/
structure SexCall.Regular (c : SexCall) : Prop where
  x1 : 1 ≤ c.x
  x2 : c.kom = 1 → 1 < c.x
  y1 : 1e-3 < c.y
  yx : c.y * (c.x + 1) < 100
  a1 : c.a ^ 2 ≤ 60
  j1 : c.j ≤ 8
  kom : c.kom = 1 ∨ c.kom = 2

/-- The number of waves does not grow by more than one while `y` stays the same. -/
def Steady : List SexCall → Prop
  | [] => True
  | c :: h => (∀ newer c' older, h = newer ++ c' :: older → (∀ d ∈ newer, d.y = c.y) → c'.y = c.y → c.j ≤ c'.j + 1) ∧ Steady h

/-- The integral with the exponential, for wave `n`. -/
def sexR (c : SexCall) (n : Nat) : ℝ := 1 / 2 * Real.exp (c.a ^ 2) * ∫ z in (-1 : ℝ)..1, (legendre n).eval z * Real.exp (-(c.y * (c.x - z)))
/-- The integral with the exponential and the propagator, for wave `n`. -/
def sexL (c : SexCall) (n : Nat) : ℝ := 1 / 2 * Real.exp (c.a ^ 2) * ∫ z in (-1 : ℝ)..1, (legendre n).eval z * (Real.exp (-(c.y * (c.x - z))) / (c.x - z))
/-- The size of the integrand: `e^{a² - y(x-1)}`. -/
def sexSize (c : SexCall) : ℝ := Real.exp (c.a ^ 2 - c.y * (c.x - 1))

end TicTac
end
