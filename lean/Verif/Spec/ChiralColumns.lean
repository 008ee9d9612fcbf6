import Verif.Spec.ChiralForce
/-! Which constant each column of a parameter line is, and in which partial waves a constant acts. -/
noncomputable section
namespace TicTac.Spec

/-- The constants of the chiral models; `none` is a column of three-nucleon constants (`cD`, `cE`). -/
inductive Const
  | gA | c1 | c2 | c3 | c4 | d12 | d3 | d5 | d1415
  | Ct1S0 | Ct1S0pp | Ct1S0np | Ct1S0nn | Ct3S1
  | C1S0 | C3P0 | C1P1 | C3P1 | C3S1 | C3SD1 | C3P2
  | Dh1S0 | D1S0 | D3P0 | D1P1 | D3P1 | Dh3S1 | D3S1 | D3D1 | Dh3SD1 | D3SD1 | D1D2 | D3D2 | D3P2 | D3PF2 | D3D3
  | threeNucleon
deriving DecidableEq, Repr

/-- The columns in order. -/
def columnNames : ChiralModel → List Const
  | .isLO => [.Ct1S0, .Ct3S1]
  | .isNLO => [.Ct1S0nn, .Ct1S0np, .Ct1S0pp, .Ct3S1, .C1S0, .C3P0, .C1P1, .C3P1, .C3S1, .C3SD1, .C3P2, .threeNucleon, .threeNucleon]
  | .isN2LO => [.c1, .c3, .c4, .Ct1S0nn, .Ct1S0np, .Ct1S0pp, .Ct3S1, .C1S0, .C3P0, .C1P1, .C3P1, .C3S1, .C3SD1, .C3P2, .threeNucleon, .threeNucleon]
  | .isN3LO => [.c1, .c2, .c3, .c4, .d12, .d3, .d5, .d1415, .Ct1S0nn, .Ct1S0np, .Ct1S0pp, .C1S0, .D1S0, .Ct3S1, .C3S1, .C3SD1, .D3S1, .D3SD1, .D3D1, .C3P0, .D3P0,
      .D3P1, .C3P1, .C3P2, .D3P2, .D3PF2, .C1P1, .D1P1, .D1D2, .D3D2, .D3D3]
  | .n2loopt => [.Ct1S0pp, .Ct1S0np, .Ct1S0nn, .Ct3S1, .C1S0, .C3P0, .C1P1, .C3P1, .C3S1, .C3SD1, .C3P2, .gA, .c1, .c3, .c4]
  | .idaho => [.Ct1S0pp, .Ct1S0np, .Ct1S0nn, .Ct3S1, .C1S0, .C3P0, .C1P1, .C3P1, .C3S1, .C3SD1, .C3P2, .Dh1S0, .D1S0, .D3P0, .D1P1, .D3P1, .Dh3S1, .D3S1, .D3D1,
      .Dh3SD1, .D3SD1, .D1D2, .D3D2, .D3P2, .D3PF2, .D3D3, .gA, .c1, .c2, .c3, .c4, .d12, .d3, .d5, .d1415]

/-- Constants of the pion-nucleon vertices: they act in every wave. -/
def Const.pionic : Const → Bool
  | .gA | .c1 | .c2 | .c3 | .c4 | .d12 | .d3 | .d5 | .d1415 => true
  | _ => false

/-- The waves `(S, J, Lo, Li)` and charge `Tz` a contact constant acts in (`-1` nn, `0` np, `1` pp). -/
def Const.actsIn (n : Const) (S J Lo Li Tz : Int) : Prop :=
  match n with
  | .Ct1S0 | .C1S0 | .Dh1S0 | .D1S0 => S = 0 ∧ J = 0 ∧ Lo = 0 ∧ Li = 0
  | .Ct1S0pp => S = 0 ∧ J = 0 ∧ Lo = 0 ∧ Li = 0 ∧ Tz = 1
  | .Ct1S0np => S = 0 ∧ J = 0 ∧ Lo = 0 ∧ Li = 0 ∧ Tz = 0
  | .Ct1S0nn => S = 0 ∧ J = 0 ∧ Lo = 0 ∧ Li = 0 ∧ Tz = -1
  | .Ct3S1 | .C3S1 | .Dh3S1 | .D3S1 => S = 1 ∧ J = 1 ∧ Lo = 0 ∧ Li = 0
  | .C3SD1 | .Dh3SD1 | .D3SD1 => S = 1 ∧ J = 1 ∧ (Lo = 0 ∧ Li = 2 ∨ Lo = 2 ∧ Li = 0)
  | .D3D1 => S = 1 ∧ J = 1 ∧ Lo = 2 ∧ Li = 2
  | .C3P0 | .D3P0 => S = 1 ∧ J = 0 ∧ Lo = 1 ∧ Li = 1
  | .C1P1 | .D1P1 => S = 0 ∧ J = 1 ∧ Lo = 1 ∧ Li = 1
  | .C3P1 | .D3P1 => S = 1 ∧ J = 1 ∧ Lo = 1 ∧ Li = 1
  | .C3P2 | .D3P2 => S = 1 ∧ J = 2 ∧ Lo = 1 ∧ Li = 1
  | .D3PF2 => S = 1 ∧ J = 2 ∧ (Lo = 1 ∧ Li = 3 ∨ Lo = 3 ∧ Li = 1)
  | .D1D2 => S = 0 ∧ J = 2 ∧ Lo = 2 ∧ Li = 2
  | .D3D2 => S = 1 ∧ J = 2 ∧ Lo = 2 ∧ Li = 2
  | .D3D3 => S = 1 ∧ J = 3 ∧ Lo = 2 ∧ Li = 2
  | _ => False

end TicTac.Spec
end
