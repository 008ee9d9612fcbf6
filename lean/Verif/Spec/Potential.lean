import Verif.Model.Potential
/-!
What the wave-packet potential matrix of a pair of basis states must be, independent of how channels are stored.
-/
noncomputable section
namespace TicTac.Spec

/-- The component documented for outgoing orbital `Lo`, ingoing orbital `Li`, spin `S`, total `J`
(chiral_N2LOopt.cpp:37-42): 0: S=0; 1: S=1 (L=J); 2: Li=Lo<J; 3: Li<Lo; 4: Li>Lo; 5: Li=Lo>J. -/
def component (S Lo Li J : Int) : Fin 6 :=
  if S = 0 then 0
  else if Li < Lo then 3
  else if Li > Lo then 4
  else if Lo = J then 1
  else if Lo < J then 2
  else 5

/-- The phase convention of the program: off-diagonal elements of a tensor-coupled channel change sign. -/
def phase (Lo Li : Int) : ℝ := if Lo = Li then 1 else -1

/-- The nn/np mixture seen by a pair in a neutron-rich three-nucleon system (Glöckle et al. eq. 160): `a`, `b` are the
bra and ket states. -/
def isospinMix (isoBreak : Bool) (a b : PWState) (nn np : ℝ) : ℝ :=
  if a.T = 0 then np
  else if isoBreak = true ∧ a.S = 0 ∧ a.J = 0 then
    if a.twoT3 = 1 ∧ b.twoT3 = 1 then 2 / 3 * nn + 1 / 3 * np
    else if a.twoT3 = 3 ∧ b.twoT3 = 3 then 1 / 3 * nn + 2 / 3 * np
    else Real.sqrt 2 / 3 * (nn - np)
  else 2 / 3 * nn + 1 / 3 * np

/-- The momentum-space matrix element `⟨a, pout| V |b, pin⟩`. -/
def element (V : PotModel) (isoBreak : Bool) (a b : PWState) (pin pout : ℝ) : ℝ :=
  phase a.L b.L * isospinMix isoBreak a b
    (V pin pout (decide (a.L ≠ a.J)) a.S a.J a.T (-1) (component a.S a.L b.L a.J))
    (V pin pout (decide (a.L ≠ a.J)) a.S a.J a.T 0 (component a.S a.L b.L a.J))

/-- Its wave-packet average over row bin `i` and column bin `j`, with the midpoint or the quadrature rule. -/
def wpElement (g : PotGrid) (f : ℝ → ℝ → ℝ) (i j : Nat) : ℝ :=
  if g.mid then
    g.p j * g.p i * g.fp j * g.fp i * (g.pWP (i + 1) - g.pWP i) * (g.pWP (j + 1) - g.pWP j) * f (g.p j) (g.p i)
      / (g.norm i * g.norm j)
  else
    ∑ a ∈ Finset.range g.Nper, ∑ b ∈ Finset.range g.Nper,
      g.fp (i * g.Nper + a) * g.wp (i * g.Nper + a) * g.p (i * g.Nper + a) *
      (g.fp (j * g.Nper + b) * g.wp (j * g.Nper + b) * g.p (j * g.Nper + b)) *
      f (g.p (j * g.Nper + b)) (g.p (i * g.Nper + a)) / (g.norm i * g.norm j)

/-- A Hermitian interaction: exchanging the momenta transposes the components. -/
def Hermitian (V : PotModel) : Prop := ∀ qi qo c S J T Tz,
  V qi qo c S J T Tz 0 = V qo qi c S J T Tz 0 ∧ V qi qo c S J T Tz 1 = V qo qi c S J T Tz 1 ∧
  V qi qo c S J T Tz 2 = V qo qi c S J T Tz 2 ∧ V qi qo c S J T Tz 5 = V qo qi c S J T Tz 5 ∧
  V qi qo c S J T Tz 3 = V qo qi c S J T Tz 4

end TicTac.Spec
end
