import Verif.Model.PWStates
import Verif.Model.RunParams
/-!
P123 files (CPP/disk_io_routines.cpp:995-1760). An HDF5 file is modelled by its named data sets. Floating-point numbers are
an arbitrary type `D` with decidable equality (NaN boundaries are not modelled); opening a missing data set or file makes
the next checked read fail.
-/
namespace TicTac

/-- Row of the table `"pw channels"`, `pw_table` (disk_io_routines.cpp:1500-1515). -/
structure PwRow where
  alpha : Int
  L : Int
  S : Int
  J : Int
  T : Int
  l : Int
  twoj : Int
  twoT : Int
  twoJ3 : Int
  P : Int
deriving DecidableEq, Repr

/-- Contents of one data set. -/
inductive H5Data (D : Type)
  | int (i : Int)
  | ull (n : Nat)
  | bounds (rows : List (Int × D))
  | pw (rows : List PwRow)
  | ints (l : List Int)
  | doubles (l : List D)
deriving DecidableEq

/-- A file: its data sets by name. -/
abbrev H5File (D : Type) := List (String × H5Data D)

/-- Data set of a given name. -/
def H5File.find {D : Type} (f : H5File D) (name : String) : Option (H5Data D) := (f.find? (·.1 == name)).map (·.2)

/-- What a P123 file is written for / checked against: arguments `Np_WP, p_WP_array, Nq_WP, q_WP_array, pw_states`. -/
structure P123Key (D : Type) where
  Np : Nat
  pBounds : List D
  Nq : Nat
  qBounds : List D
  states : List PWState

/-- Array lengths as allocated: `N+1` boundaries, at least one state. -/
def P123Key.WF {D : Type} (k : P123Key D) : Prop :=
  k.pBounds.length = k.Np + 1 ∧ k.qBounds.length = k.Nq + 1 ∧ k.states ≠ []

/-- The three sparse arrays. -/
structure SparseArrays (D : Type) where
  val : List D
  row : List Int
  col : List Int

/-- `two_J_3N_array[0]`, `P_3N_array[0]`, disk_io_routines.cpp:1097-1098 and 1185-1186. -/
def P123Key.twoJ3 {D : Type} (k : P123Key D) : Int := match k.states with | [] => 0 | s :: _ => s.twoJ3
/-- See `P123Key.twoJ3`. -/
def P123Key.par {D : Type} (k : P123Key D) : Int := match k.states with | [] => 0 | s :: _ => s.P

/-- `write_WP_boundaries_to_h5`, disk_io_routines.cpp:1386-1433. -/
def boundsTable {D : Type} (b : List D) : H5Data D := .bounds ((List.range b.length).map (fun (i : Nat) => (i : Int)) |>.zip b)

/-- `write_PW_statespace_to_h5`, disk_io_routines.cpp:1474-1546. -/
def pwTable {D : Type} (k : P123Key D) : H5Data D :=
  .pw ((List.range k.states.length).zip k.states |>.map fun (i, s) =>
    ⟨i, s.L, s.S, s.J, s.T, s.l, s.twoj, s.twoT3, k.twoJ3, k.par⟩)

/-- One write operation of the store routine. -/
structure H5Op (D : Type) where
  name : String
  data : H5Data D
  /-- what reading gives if the write fails after the data set was created (HDF5 fill value), `none` if it is missing -/
  onFail : Option (H5Data D)
  /-- is the return value checked? -/
  checked : Bool

/-- Operations of `store_sparse_permutation_matrix_for_3N_channel_h5`, disk_io_routines.cpp:1078-1164, with
`write_sparse_permutation_matrix_h5`, disk_io_routines.cpp:1625-1664. `sparse_dim` is the length of the arrays. The scalars'
writes are checked, those of tables and arrays are not. -/
def storeOps {D : Type} [Zero D] (k : P123Key D) (m : SparseArrays D) (dim : Nat) : List (H5Op D) :=
  [⟨"Nalpha", .int k.states.length, none, true⟩,
   ⟨"Np_WP", .int k.Np, none, true⟩,
   ⟨"Nq_WP", .int k.Nq, none, true⟩,
   ⟨"P123_sparse_dim", .ull dim, none, true⟩,
   ⟨"p boundaries", boundsTable k.pBounds, none, false⟩,
   ⟨"q boundaries", boundsTable k.qBounds, none, false⟩,
   ⟨"pw channels", pwTable k, none, false⟩,
   ⟨"row indices", .ints (m.row.take dim), some (.ints (List.replicate dim 0)), false⟩,
   ⟨"column indices", .ints (m.col.take dim), some (.ints (List.replicate dim 0)), false⟩,
   ⟨"values", .doubles (m.val.take dim), some (.doubles (List.replicate dim 0)), false⟩]

/-- Execute writes; `ok name` says whether the write of that data set succeeds. A failing checked write stops the
program. -/
def runOps {D : Type} (ok : String → Bool) : List (H5Op D) → Except Stop (H5File D)
  | [] => .ok []
  | op :: ops =>
    if ok op.name then (runOps ok ops).map ((op.name, op.data) :: ·)
    else if op.checked then .error .raiseError
    else match op.onFail with
      | none => runOps ok ops
      | some d => (runOps ok ops).map ((op.name, d) :: ·)

/-- `store_sparse_permutation_matrix_for_3N_channel_h5` (H5F_ACC_TRUNC: old content is gone). -/
def storeP123 {D : Type} [Zero D] (ok : String → Bool) (k : P123Key D) (m : SparseArrays D) (dim : Nat) :
    Except Stop (H5File D) := runOps ok (storeOps k m dim)

/-- `read_integer_from_h5`, disk_io_routines.cpp:1304-1334. -/
def readInt {D : Type} (f : H5File D) (name : String) : Except Stop Int :=
  match f.find name with | some (.int i) => .ok i | _ => .error .raiseError

/-- `read_ULL_integer_from_h5`, disk_io_routines.cpp:1354-1384. -/
def readUll {D : Type} (f : H5File D) (name : String) : Except Stop Nat :=
  match f.find name with | some (.ull n) => .ok n | _ => .error .raiseError

/-- `read_WP_boundaries_from_h5`, disk_io_routines.cpp:1434-1472. -/
def readBounds {D : Type} (f : H5File D) (name : String) : Except Stop (List D) :=
  match f.find name with | some (.bounds r) => .ok (r.map (·.2)) | _ => .error .raiseError

/-- `read_PW_statespace_to_h5`, disk_io_routines.cpp:1547-1615. -/
def readPw {D : Type} (f : H5File D) : Except Stop (List PwRow) :=
  match f.find "pw channels" with | some (.pw r) => .ok r | _ => .error .raiseError

/-- `read_sparse_permutation_matrix_h5`, disk_io_routines.cpp:1723-1761 (return values not checked: a missing data set
leaves the uninitialised memory `junk`). -/
def readArrays {D : Type} (f : H5File D) (junk : SparseArrays D) : SparseArrays D :=
  { row := match f.find "row indices" with | some (.ints l) => l | _ => junk.row
    col := match f.find "column indices" with | some (.ints l) => l | _ => junk.col
    val := match f.find "values" with | some (.doubles l) => l | _ => junk.val }

/-- Comparison loop of the boundaries, disk_io_routines.cpp:1218-1224 and 1230-1236. -/
def boundsAgree {D : Type} [DecidableEq D] (n : Nat) (file prog : List D) : Bool :=
  (List.range (n + 1)).all fun i => file[i]? == prog[i]?

/-- Comparison loop of the state space, disk_io_routines.cpp:1260-1272. -/
def pwAgree {D : Type} (k : P123Key D) (file : List PwRow) : Bool :=
  (List.range k.states.length).all fun i =>
    match file[i]?, k.states[i]? with
    | some r, some s => !(r.L != s.L || r.S != s.S || r.J != s.J || r.T != s.T || r.l != s.l || r.twoj != s.twoj
        || r.twoT != s.twoT3 || r.twoJ3 != k.twoJ3 || r.P != k.par)
    | _, _ => false

/-- `read_sparse_permutation_matrix_for_3N_channel_h5`, disk_io_routines.cpp:1166-1284: result arrays and count. -/
def readP123 {D : Type} [DecidableEq D] (k : P123Key D) (f : H5File D) (junk : SparseArrays D) :
    Except Stop (SparseArrays D × Nat) := do
  let nalpha ← readInt f "Nalpha"
  let np ← readInt f "Np_WP"
  let nq ← readInt f "Nq_WP"
  let dim ← readUll f "P123_sparse_dim"
  if nalpha ≠ k.states.length ∨ np ≠ k.Np ∨ nq ≠ k.Nq then throw .raiseError
  let p ← readBounds f "p boundaries"
  if boundsAgree k.Np p k.pBounds = false then throw .raiseError
  let q ← readBounds f "q boundaries"
  if boundsAgree k.Nq q k.qBounds = false then throw .raiseError
  let pw ← readPw f
  if pwAgree k pw = false then throw .raiseError
  return (readArrays f junk, dim)

/-- The settings of a run a P123 matrix depends on besides basis and grid: `Nx`, `Nphi`, `production_run`
(make_permutation_matrix.cpp:1313-1314, 1351-1366). -/
structure P123Settings where
  Nx : Nat
  Nphi : Nat
  production : Bool
deriving DecidableEq

/-- Writing the matrix of a run with given settings: `fill_P123_arrays`, make_permutation_matrix.cpp:1354-1379: the
settings are not passed to the store routine. -/
def storeRun {D : Type} [Zero D] (_ : P123Settings) (k : P123Key D) (m : SparseArrays D) (dim : Nat) :
    Except Stop (H5File D) := storeP123 (fun _ => true) k m dim

/-- Reading it in another run: make_permutation_matrix.cpp:1389-1404. -/
def readRun {D : Type} [DecidableEq D] (_ : P123Settings) (k : P123Key D) (f : H5File D) (junk : SparseArrays D) :
    Except Stop (SparseArrays D × Nat) := readP123 k f junk

end TicTac
