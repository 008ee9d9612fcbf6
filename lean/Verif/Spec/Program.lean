import Verif.Model.Program
import Verif.Spec.Run
import Verif.Spec.Permutation
import Verif.Spec.BreakupTable
/-! What the files of elastic and of breakup amplitudes should contain. -/
noncomputable section
namespace TicTac.Spec
open Polynomial

/-- The rows are in increasing order of the lab energy, and every requested energy between the first and the last midpoint energy lies between two rows of neighbouring bins. -/
def RowsCover (Nq : Nat) (q : Nat → ℝ) (Eb : ℝ) (requested : List ℝ) (t : ElasticTable) : Prop :=
  (t.map (·.1)).Pairwise (· < ·) ∧
  ∀ T ∈ requested, ∀ t0 t1, 2 ≤ Nq → IsMidpointEnergy q Eb 0 t0 → IsMidpointEnergy q Eb (Nq - 1) t1 → t0 ≤ T → T ≤ t1 →
    ∃ i, i + 1 < Nq ∧ ∃ ra ∈ t, ∃ rb ∈ t, IsMidpointEnergy q Eb i ra.1 ∧ IsMidpointEnergy q Eb (i + 1) rb.1 ∧ ra.1 ≤ T ∧ T ≤ rb.1

/-- The numbers of a row are the elements of the solution of the scattering equation between the deuteron states in the on-shell bin, row by row, when there is exactly one solution. -/
def SolvedRow {n Nq Np : Nat} (deut : List (Fin n)) (qb : Fin Nq) (A : Matrix (Idx n Nq Np) (Idx n Nq Np) ℂ) (G : Idx n Nq Np → ℂ) (l : List (Option ℂ)) : Prop :=
  (1 - A * Matrix.diagonal G).det ≠ 0 → ∃ X, (∀ Y, IsAmplitude A G Y ↔ Y = X) ∧
    ∀ i j : Fin deut.length, ∀ p0 : Fin Np, (p0 : Nat) = 0 → l[(i * deut.length + j : Nat)]? = some (some (X (deut.get i, qb, p0) (deut.get j, qb, p0)))

/-- The numbers of a row are diagonal Padé approximants of the Neumann series of these elements. -/
def PadeRow {n Nq Np : Nat} (deut : List (Fin n)) (qb : Fin Nq) (A : Matrix (Idx n Nq Np) (Idx n Nq Np) ℂ) (G : Idx n Nq Np → ℂ) (l : List (Option ℂ)) : Prop :=
  ∀ i j : Fin deut.length, ∀ p0 : Fin Np, (p0 : Nat) = 0 → ∃ k ≤ 14, ∃ pp qq : ℂ[X],
    IsPade (fun m => neumannTerm A G m (deut.get i, qb, p0) (deut.get j, qb, p0)) k k pp qq ∧ qq.eval 1 ≠ 0 ∧ l[(i * deut.length + j : Nat)]? = some (some (pp.eval 1 / qq.eval 1))

/-- Contents of a file for the interaction `V`, the channel with the states `states` and the permutation operator `Pm`: the requested energies are covered, and each row has the lab energy,
the c.m. energy and the q bin of an on-shell point, and the amplitudes of the discretised problem at that energy. -/
def AmplitudeFile (dense isoBreak : Bool) (g : PotGrid) (V : PotModel) (states : List PWState) (Nq : Nat) (q : Nat → ℝ) (requested : List ℝ)
    (Pm : Matrix (Idx states.length Nq g.Np) (Idx states.length Nq g.Np) ℝ) (t : ElasticTable) : Prop :=
  ∃ Eb, RowsCover Nq q Eb requested t ∧ ∃ deut : List (Fin states.length), IsDeuteronList states deut ∧
    ∀ row ∈ t, ∃ (qb : Fin Nq) (A : Matrix (Idx states.length Nq g.Np) (Idx states.length Nq g.Np) ℂ) (G : Idx states.length Nq g.Np → ℂ),
      IsOnShellPoint Nq q Eb row.1 row.2.1 qb ∧ row.2.2.1 = qb ∧ FaddeevProblem isoBreak g V states Nq q Eb row.2.1 Pm A G ∧ row.2.2.2.length = deut.length * deut.length ∧
      if dense then SolvedRow deut qb A G row.2.2.2 else PadeRow deut qb A G row.2.2.2

/-- Lowest and highest energy of a cell of pair and spectator bins: `edges` are the boundaries of the pair's energy bins, `q` those of the spectator's momentum bins. -/
def cellLow {n Nq Np : Nat} (edges : Fin n → Nat → ℝ) (q : Nat → ℝ) (y : Idx n Nq Np) : ℝ := edges y.1 y.2.2 + ndEnergy 0 (q y.2.1)
def cellHigh {n Nq Np : Nat} (edges : Fin n → Nat → ℝ) (q : Nat → ℝ) (y : Idx n Nq Np) : ℝ := edges y.1 (y.2.2 + 1) + ndEnergy 0 (q (y.2.1 + 1))

/-- Contents of a file of breakup amplitudes that goes with the file `te` of elastic ones: for every energy of `te` above the breakup threshold, every deuteron state and every continuum cell
that contains `E_com` there is a row that begins with the energies, with a column headed by the two partial waves that holds the amplitude between the deuteron in the on-shell bin and the
wave packet of the cell (iterative solver: a diagonal Padé approximant of the Neumann series; direct solver: always zero), followed by the boundaries of the cell in momentum. -/
def BreakupFile (dense isoBreak : Bool) (g : PotGrid) (V : PotModel) (states : List PWState) (Nq : Nat) (q : Nat → ℝ)
    (Pm : Matrix (Idx states.length Nq g.Np) (Idx states.length Nq g.Np) ℝ) (te : ElasticTable) (t : BuTable) : Prop :=
  ∃ Eb C lam edges, ScatteringBasis isoBreak g V states Nq Eb C lam ∧ EnergyBins states g.Np Eb lam edges ∧ ∃ deut : List (Fin states.length), IsDeuteronList states deut ∧
    t.headers.length = t.cols ∧
    ∀ row ∈ te, 0 ≤ row.2.1 + Eb → ∃ (qb : Fin Nq) (G : Idx states.length Nq g.Np → ℂ), IsOnShellPoint Nq q Eb row.1 row.2.1 qb ∧ IsResolvent states Nq g.Np q Eb row.2.1 edges G ∧
      ∀ (i : Fin deut.length) (y : Idx states.length Nq g.Np), 0 ≤ edges y.1 y.2.2 → cellLow edges q y ≤ row.2.1 → row.2.1 ≤ cellHigh edges q y →
        ∃ r c, r < t.rows ∧ t.data (r * t.cols) = (row.1 : ℝ) ∧ t.data (r * t.cols + 1) = (row.2.1 : ℝ) ∧
          t.headers[c]? = some (true, buHeading (states.get y.1) (states.get (deut.get i))) ∧
          t.data (r * t.cols + (c + 1)) = (q y.2.1 : ℝ) ∧ t.data (r * t.cols + (c + 2)) = (q (y.2.1 + 1) : ℝ) ∧
          t.data (r * t.cols + (c + 3)) = (comEnergyToComP (edges y.1 y.2.2) : ℝ) ∧ t.data (r * t.cols + (c + 4)) = (comEnergyToComP (edges y.1 (y.2.2 + 1)) : ℝ) ∧
          if dense then t.data (r * t.cols + c) = 0
          else ∀ p0 : Fin g.Np, (p0 : Nat) = 0 → ∃ k ≤ 14, ∃ pp qq : ℂ[X],
            IsPade (fun m => neumannTerm (effective Pm (interactionMatrix isoBreak g V states Nq) C) G m (deut.get i, qb, p0) y) k k pp qq ∧ qq.eval 1 ≠ 0 ∧
            t.data (r * t.cols + c) = pp.eval 1 / qq.eval 1

end TicTac.Spec
end
