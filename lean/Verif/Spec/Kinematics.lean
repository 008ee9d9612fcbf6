import Verif.Spec.Record
import Verif.Spec.OnShell
/-! Reading the kinematics table `q_kinematics_Nq_N.txt`. -/
noncomputable section
namespace TicTac.Spec

/-- The data rows of a table: words of the lines that are neither empty nor comments. -/
def dataRows (s : Str) : List (List Str) := ((textLines s).filter fun l => decide (l ≠ []) && decide (l.head? ≠ some '#')).map words

/-- Word `w` shows the double to nine digits. -/
def Shown (w : Str) : Dbl → Prop
  | .fin neg m e => ∃ d, readReal w = some d ∧ |d - dblValue neg m e| ≤ 5.01e-9 * |dblValue neg m e|
  | .inf neg => w = if neg then "-inf".toList else "+inf".toList
  | .nan neg => w = if neg then "-nan".toList else "+nan".toList

/-- A row of four words: the index and three numbers. -/
def ShownRow (i : Nat) (x : Dbl × Dbl × Dbl) (r : List Str) : Prop :=
  ∃ a b c d, r = [a, b, c, d] ∧ a ≠ [] ∧ a.all isDig = true ∧ digitsNum a = i ∧ Shown b x.1 ∧ Shown c x.2.1 ∧ Shown d x.2.2

/-- Kinetic energy of relative motion of three equal masses `m = (m_n + m_p)/2`, spectator momentum `q`. -/
def equalMassEnergy (q : ℝ) : ℝ := 3 * q ^ 2 / (4 * ((939.565 + 938.272) / 2))

end TicTac.Spec
end
