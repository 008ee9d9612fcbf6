import Verif.Spec.PWStates
/-!
Which basis states belong to the same two-nucleon interaction (independent of any index arithmetic).
-/
namespace TicTac.Spec

/-- The pair states `a` and `b` are mixed (or equal) under the nuclear force with tensor force:
same spin and total angular momentum and same orbital angular momentum, or both are members of the
tensor-coupled doublet `L = J-1, J+1` (S = 1, J ≥ 1).  (T is fixed by the Pauli rule.) -/
def SameInteraction (tensor : Bool) (a b : PWState) : Prop :=
  a.S = b.S ∧ a.J = b.J ∧
    (a.L = b.L ∨ (tensor = true ∧ a.S = 1 ∧ 1 ≤ a.J ∧ (a.L = a.J - 1 ∨ a.L = a.J + 1) ∧
      (b.L = a.J - 1 ∨ b.L = a.J + 1)))

end TicTac.Spec
