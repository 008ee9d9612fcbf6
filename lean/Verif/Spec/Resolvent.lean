import Mathlib.MeasureTheory.Integral.IntervalIntegral.Basic
import Mathlib.Analysis.Complex.Basic
import Verif.Model.PWStates
/-! The resolvent 1/(E + i0 - H0) averaged over energy bins: independent of the closed formulas in the code. -/
noncomputable section
namespace TicTac.Spec
open MeasureTheory Filter Topology

/-- `G` is the average over `ε ∈ [lo, hi]` of `1/(a + i0 - ε)`. -/
def IsBinAverage (a lo hi : ℝ) (G : ℂ) : Prop :=
  Tendsto (fun η : ℝ => (∫ ε in lo..hi, 1 / ((a : ℂ) - ε + η * Complex.I)) / ((hi : ℂ) - lo)) (𝓝[>] 0) (𝓝 G)

/-- `G` is the average over `εp ∈ [pl, pu]`, `εq ∈ [ql, qu]` of `1/(E + i0 - εp - εq)`. -/
def IsCellAverage (E pl pu ql qu : ℝ) (G : ℂ) : Prop :=
  Tendsto (fun η : ℝ => (∫ εp in pl..pu, ∫ εq in ql..qu, 1 / ((E : ℂ) - εp - εq + η * Complex.I)) / (((pu : ℂ) - pl) * ((qu : ℂ) - ql)))
    (𝓝[>] 0) (𝓝 G)

/-- The state is the second member of a two-state channel: L = J+1 of a tensor doublet, or total isospin 3/2. -/
def SecondMember (s : PWState) : Prop := (s.J < s.L ∧ s.J ≠ 0) ∨ s.twoT3 = 3

end TicTac.Spec
end
