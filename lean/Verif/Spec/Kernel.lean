import Verif.Spec.Channels2N
import Verif.Spec.Resolvent
import Verif.Model.Sparse
import Verif.Model.Swp
import Verif.Model.Channels2N
import Mathlib.Data.Matrix.Mul
import Mathlib.Data.Real.Basic
/-! The kernel of the Faddeev equation as a matrix product in the three-nucleon space of one channel. -/
noncomputable section
namespace TicTac.Spec
open Classical

/-- Basis of one 3N channel: partial-wave state, q bin, p bin. -/
abbrev Idx (n Nq Np : Nat) := Fin n × Fin Nq × Fin Np

/-- Position of a basis vector in the program's vectors. -/
def flat {n Nq Np : Nat} (x : Idx n Nq Np) : Nat := x.1 * Nq * Np + x.2.1 * Np + x.2.2

/-- `states` lists each allowed state of total angular momentum `twoJ3/2` and parity `P` exactly once. -/
def IsChannel (p : PWParams) (twoJ3 P : Int) (states : List PWState) : Prop :=
  states.Nodup ∧ ∀ s, s ∈ states ↔ Allowed p.J2max p.twoJ3max p.isoBreak s ∧ s.twoJ3 = twoJ3 ∧ s.P = P

/-- An operator acting on the pair only can connect `a` and `b`. -/
def PairConnected (a b : PWState) : Prop := SameInteraction true a b ∧ a.l = b.l ∧ a.twoj = b.twoj

/-- Row/column of bin `i` of state `s` in the matrix of its two-nucleon channel. -/
def chanPos (N : Nat) (s : PWState) (i : Nat) : Nat := if SecondMember s then N + i else i

/-- Element of the matrix stored for the two-nucleon channel of state `s`. -/
def channelMatrix (p : PWParams) (N : Nat) (X : Bool → Int → ℝ) (s : PWState) (r c : Nat) : ℝ :=
  match slotOf p s with
  | some (b, n) => X b (n * (chnDim N b * chnDim N b : Nat) + (r * chnDim N b + c : Nat))
  | none => 0

/-- Two-nucleon operator `X` in the three-nucleon space: diagonal in the spectator quantum numbers and the q bin. -/
def twoBody (p : PWParams) (states : List PWState) (Nq Np : Nat) (X : Bool → Int → ℝ) :
    Matrix (Idx states.length Nq Np) (Idx states.length Nq Np) ℝ := fun x y =>
  if x.2.1 = y.2.1 ∧ PairConnected (states.get x.1) (states.get y.1) then
    channelMatrix p Np X (states.get x.1) (chanPos Np (states.get x.1) x.2.2) (chanPos Np (states.get y.1) y.2.2)
  else 0

/-- The matrix described by a list of (row, column, value). -/
def sparseMatrix (n Nq Np : Nat) (ents : List (Entry ℝ)) : Matrix (Idx n Nq Np) (Idx n Nq Np) ℝ := fun x y =>
  ((ents.filter fun e => e.row = flat x ∧ e.col = flat y).map (·.val)).sum

/-- `A = Cᵀ P V C` with `P = P123 + P132 = 2 P123` on antisymmetric pair states. -/
def kernelMatrix (p : PWParams) (states : List PWState) (Nq Np : Nat) (V C : Bool → Int → ℝ) (P123 : List (Entry ℝ)) :
    Matrix (Idx states.length Nq Np) (Idx states.length Nq Np) ℝ :=
  (2 : ℝ) • ((twoBody p states Nq Np C).transpose * sparseMatrix _ Nq Np P123 * (twoBody p states Nq Np V * twoBody p states Nq Np C))

end TicTac.Spec
end
