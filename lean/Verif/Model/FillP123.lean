import Verif.Model.Permutation
import Verif.Model.H5
import Verif.Model.Run
import Verif.Props.Sparse
/-! Model of `fill_P123_arrays`, make_permutation_matrix.cpp:1278-1415: the permutation matrix of the channel is computed and stored in a file,
or read from a file, and handed to the solver. -/
noncomputable section
namespace TicTac
open Classical

/-- Quadrature chosen for the permutation matrix; see `P123Input`. -/
structure Quad where
  Nx : Nat
  x : Nat → ℝ
  wx : Nat → ℝ
  Nphi : Nat
  z : Nat → ℝ
  P : Int → ℝ → ℝ

/-- Wave-packet grid of a run (`fwp_states`). -/
structure WPGrid where
  Np : Nat
  p : Nat → ℝ
  Nq : Nat
  q : Nat → ℝ

/-- make_permutation_matrix.cpp:1296-1316. -/
def WPGrid.input (w : WPGrid) (m : Quad) : P123Input :=
  { Nq := w.Nq, Np := w.Np, q := w.q, p := w.p, Nx := m.Nx, x := m.x, wx := m.wx, Nphi := m.Nphi, z := m.z, P := m.P }

/-- What identifies the matrix in its file: `Np_WP+1` and `Nq_WP+1` boundaries and the states, disk_io_routines.cpp:1080-1140. -/
def WPGrid.key (w : WPGrid) (states : List PWState) : P123Key ℝ :=
  { Np := w.Np, pBounds := (List.range (w.Np + 1)).map w.p, Nq := w.Nq, qBounds := (List.range (w.Nq + 1)).map w.q, states := states }

/-- The three arrays holding a list of entries. -/
def arraysOf (out : List (Entry ℝ)) : SparseArrays ℝ :=
  ⟨out.map (·.val), out.map fun e => (e.row : Int), out.map fun e => (e.col : Int)⟩

/-- The entries in three arrays. -/
def entriesOf (m : SparseArrays ℝ) : List (Entry ℝ) := (m.row.zip (m.col.zip m.val)).map fun t => ⟨t.1.toNat, t.2.1.toNat, t.2.2⟩

/-- `two_J_3N_array[0]` of the channel, make_permutation_matrix.cpp:369 (all states of the channel share it, C03). -/
def channelTwoJ (states : List PWState) : Int := match states with | [] => 0 | s :: _ => s.twoJ3

/-- `fill_P123_arrays` with `calculate_and_store_P123=true`, make_permutation_matrix.cpp:1324-1395: result `P123`, file left on disk `f`. -/
def FillComputed (g : Gsl) (w : WPGrid) (m : Quad) (env : P123Env) (states : List PWState) (P123 : List (Entry ℝ)) (f : H5File ℝ) : Prop :=
  Nonempty (P123Run (p123Cfg g (w.input m) env states (channelTwoJ states)) P123) ∧
    storeP123 (fun _ => true) (w.key states) (arraysOf P123) P123.length = .ok f

/-- `fill_P123_arrays` with `calculate_and_store_P123=false`, make_permutation_matrix.cpp:1396-1414: result `P123` read from file `f`. -/
def FillRead (w : WPGrid) (states : List PWState) (f : H5File ℝ) (junk : SparseArrays ℝ) (P123 : List (Entry ℝ)) : Prop :=
  ∃ m n, readP123 (w.key states) f junk = .ok (m, n) ∧ P123 = entriesOf m

/-- The grid of a run. -/
def RunInput.grid (x : RunInput) : WPGrid := ⟨x.g.Np, x.g.pWP, x.Nq, x.q⟩

end TicTac
end
