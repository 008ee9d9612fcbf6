import Verif.Model.PWStates
/-!
Independent specification of the allowed three-nucleon partial-wave states: angular-momentum algebra in
doubled units, not referring to the loops of the code.
-/
namespace TicTac.Spec

/-- `c` (doubled) occurs in the coupling of the doubled angular momenta `a` and `b`. -/
def Couples (a b c : Int) : Prop :=
  0 ≤ a ∧ 0 ≤ b ∧ 0 ≤ c ∧ a - b ≤ c ∧ b - a ≤ c ∧ c ≤ a + b ∧ (a + b + c) % 2 = 0

/-- A physically allowed channel state `|(LS)J (l 1/2) j ; (Jj) J3> |(T 1/2) T3>` of parity `P`
within the truncation: two spin/isospin-1/2 nucleons in the pair, antisymmetry of the pair
(`L+S+T` odd), parity `(-1)^(L+l)`, total isospin 1/2, or (with 1S0 isospin breaking) 3/2 for a 1S0 pair. -/
def Allowed (J2max twoJ3max : Int) (isoBreak : Bool) (s : PWState) : Prop :=
  Couples 1 1 (2 * s.S) ∧ Couples 1 1 (2 * s.T) ∧
  Couples (2 * s.L) (2 * s.S) (2 * s.J) ∧
  Couples (2 * s.l) 1 s.twoj ∧
  Couples (2 * s.J) s.twoj s.twoJ3 ∧
  Couples (2 * s.T) 1 s.twoT3 ∧
  (s.L + s.S + s.T) % 2 = 1 ∧
  s.P = (if (s.L + s.l) % 2 = 0 then 1 else -1) ∧
  s.J ≤ J2max ∧ s.twoJ3 ≤ twoJ3max ∧ s.twoJ3 % 2 = 1 ∧
  (s.twoT3 = 1 ∨ (isoBreak = true ∧ s.twoT3 = 3 ∧ s.L = 0 ∧ s.S = 0 ∧ s.J = 0))

/-- Accepted truncations (set_run_parameters rejects everything else, see `Params`). -/
def ValidTruncation (p : PWParams) : Prop := 0 ≤ p.J2max ∧ 0 < p.twoJ3max ∧ p.twoJ3max % 2 = 1

end TicTac.Spec
