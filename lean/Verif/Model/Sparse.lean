import Verif.Model.Layout
import Mathlib.Logic.Function.Basic
/-!
Sparse permutation matrix: calculation by OpenMP threads with per-thread buffers and files, merge, recovery, sorting,
compressed formats and dense conversions (CPP/make_permutation_matrix.cpp, CPP/General_functions/matrix_routines.cpp,
CPP/General_functions/templates.h).

Simplifications: array indices are `Nat` (the C++ `int`/`size_t` conversions are exact below 2^31); a thread file is the
list of its (row, column, value) triples (the HDF5 layer is modelled in `Verif.Model.H5`); the value type is arbitrary.
-/
namespace TicTac

/-- One element of a sparse matrix in coordinate (COO) format. -/
structure Entry (V : Type) where
  row : Nat
  col : Nat
  val : V
deriving DecidableEq, Repr

/-- What the loops of make_permutation_matrix.cpp:736-897 depend on: dimensions, the overlap table and the value of
`P123_element` (production or test value), make_permutation_matrix.cpp:806-825. -/
structure P123Cfg (V : Type) where
  Nalpha : Nat
  Nq : Nat
  Np : Nat
  overlap : Nat → Bool
  elem : (alphap qp pp alpha q p : Nat) → V

/-- `P123_dense_dim`, make_permutation_matrix.cpp:615. -/
def P123Cfg.dim {V : Type} (c : P123Cfg V) : Nat := c.Np * c.Nq * c.Nalpha

/-- The elements stored by one iteration `qp` of the work-shared loop, in the order they are stored:
make_permutation_matrix.cpp:736-897 (progress output left out). -/
def rowElems {V : Type} [DecidableEq V] [Zero V] (c : P123Cfg V) (qp : Nat) : List (Entry V) :=
  (List.range c.Np).flatMap fun pp =>
  (List.range c.Nalpha).flatMap fun ap =>
  (List.range c.Nalpha).flatMap fun a =>
  (List.range c.Nq).flatMap fun q =>
  (List.range c.Np).flatMap fun p =>
    if c.overlap (idxOverlap c.Np c.Nq qp pp q p) then
      (if c.elem ap qp pp a q p ≠ 0 then
        [⟨idxAQP c.Nq c.Np ap qp pp, idxAQP c.Nq c.Np a q p, c.elem ap qp pp a q p⟩]
      else [])
    else []

/-- State of the parallel region: buffer contents `P123_*_array_omp[t][0..P123_dim_array_omp[t])`, file counter
`max_TFC_array[t]` and the thread files (indexed by thread and TFC; file names are injective in them, property C14). -/
structure P123State (V : Type) where
  buf : Nat → List (Entry V)
  tfc : Nat → Nat
  file : Nat → Nat → Option (List (Entry V))

/-- Start: empty buffers, counters 0, make_permutation_matrix.cpp:642-650; the disk holds whatever earlier runs left. -/
def p123Init {V : Type} (disk : Nat → Nat → Option (List (Entry V))) : P123State V :=
  ⟨fun _ => [], fun _ => 0, disk⟩

/-- Write the buffer of thread `t` to file `max_TFC_array[t]` (truncating), empty it, count the file:
make_permutation_matrix.cpp:851-886 and 905-935. -/
def p123Flush {V : Type} (s : P123State V) (t : Nat) : P123State V :=
  { buf := Function.update s.buf t []
    tfc := Function.update s.tfc t (s.tfc t + 1)
    file := Function.update s.file t (Function.update (s.file t) (s.tfc t) (some (s.buf t))) }

/-- Thread `t` stores element `e`: make_permutation_matrix.cpp:830-888. `B` is `tread_buffer_size`. -/
def p123Store {V : Type} (B : Nat) (s : P123State V) (t : Nat) (e : Entry V) : P123State V :=
  let s' : P123State V := { s with buf := Function.update s.buf t (s.buf t ++ [e]) }
  if B ≤ (s'.buf t).length then p123Flush s' t else s'

/-- Execution of a trace of store events of the threads, in the order they happen. -/
def p123Exec {V : Type} (B : Nat) (s : P123State V) (tr : List (Nat × Entry V)) : P123State V :=
  tr.foldl (fun s ev => p123Store B s ev.1 ev.2) s

/-- After the parallel region every thread's remainder is written, make_permutation_matrix.cpp:903-938. -/
def p123Finish {V : Type} (T : Nat) (s : P123State V) : P123State V := (List.range T).foldl p123Flush s

/-- Reading the thread files `0..max_TFC_array[t]-1` thread by thread, missing files are skipped:
make_permutation_matrix.cpp:969-1050. -/
def p123ReadAll {V : Type} (T : Nat) (tfc : Nat → Nat) (file : Nat → Nat → Option (List (Entry V))) : List (Entry V) :=
  (List.range T).flatMap fun t => (List.range (tfc t)).flatMap fun k => (file t k).getD []

/-- Contract of `sort_indexes` (templates.h:8-26): `std::sort` returns some arrangement of the indices with
non-decreasing keys (it is not stable: any such arrangement is possible). -/
def IsSortIndexes (keys : List Nat) (idx : List Nat) : Prop :=
  idx.Perm (List.range keys.length) ∧ idx.Pairwise (fun i j => keys.getD i 0 ≤ keys.getD j 0)

/-- Result of sorting entries by a key: `out[i] = entries[sorted_indices[i]]` for each of the three arrays. -/
def IsSortedBy {V : Type} (key : Entry V → Nat) (entries out : List (Entry V)) : Prop :=
  ∃ idx, IsSortIndexes (entries.map key) idx ∧ out = idx.filterMap (entries[·]?)

/-- Bounds checks of the merge, make_permutation_matrix.cpp:1059-1067 (`true` = no `raise_error`). -/
def mergeChecks {V : Type} (dim : Nat) (entries : List (Entry V)) : Bool :=
  entries.all fun e => !(decide (e.row > dim) || decide (e.col > dim) || decide (e.row * dim + e.col > dim * dim))

/-- `read_and_merge_thread_files_to_single_array`, make_permutation_matrix.cpp:945-1142, as a relation between the files
and the result (`std::sort` leaves a choice). -/
def MergeResult {V : Type} (dim T : Nat) (tfc : Nat → Nat) (file : Nat → Nat → Option (List (Entry V)))
    (out : List (Entry V)) : Prop :=
  mergeChecks dim (p123ReadAll T tfc file) = true ∧
  IsSortedBy (fun e => e.row * dim + e.col) (p123ReadAll T tfc file) out

/-- Number of files per thread assumed by the recovery, make_permutation_matrix.cpp:1209-1231, with
`max_size_per_TFC_file = 1` (make_permutation_matrix.h:42). Floating point is replaced by exact rationals:
`mem_check_nnz = ⌊(1 - counter/num_WP_cells)·dim² + 1⌋`, `max_TFC = ⌊32·mem_check_nnz/2^30/threads⌋`. -/
def recoveryTFC (counter cells dim threads : Nat) : Nat :=
  let nnz := ((cells - counter) * (dim * dim) + cells) / cells
  (2 * nnz * 8 + 4 * nnz * 4) / (2 ^ 30 * threads)

/-- Number of cells marked non-overlapping, make_permutation_matrix.cpp:1213-1218. -/
def overlapFalseCount {V : Type} (c : P123Cfg V) : Nat :=
  ((List.range (c.Nq * c.Nq * c.Np * c.Np)).filter fun i => c.overlap i == false).length

/-- Merge after recovery (`P123_recovery=true`): no calculation, estimated file counts. -/
def RecoveryResult {V : Type} (c : P123Cfg V) (T : Nat) (file : Nat → Nat → Option (List (Entry V)))
    (out : List (Entry V)) : Prop :=
  MergeResult c.dim T (fun _ => recoveryTFC (overlapFalseCount c) (c.Nq * c.Nq * c.Np * c.Np) c.dim T) file out

/-! ### Matrix conversions -/

/-- `unsorted_sparse_to_coo_row_major_sorter`, matrix_routines.cpp:246-285. -/
def RowMajorSorted {V : Type} (dim : Nat) (entries out : List (Entry V)) : Prop :=
  IsSortedBy (fun e => e.row * dim + e.col) entries out

/-- `unsorted_sparse_to_coo_col_major_sorter`, matrix_routines.cpp:287-326. -/
def ColMajorSorted {V : Type} (dim : Nat) (entries out : List (Entry V)) : Prop :=
  IsSortedBy (fun e => e.col * dim + e.row) entries out

/-- Inner counting loop of the compressed-format converters, matrix_routines.cpp:204-215: entries from position `start`
on are counted until one exceeds `i`. -/
def countRun (idx : List Nat) (start i : Nat) : Nat := ((idx.drop start).takeWhile fun r => !(decide (r > i))).length

/-- `coo_to_csr_format_converter` / `coo_to_csc_format_converter`, matrix_routines.cpp:195-244: pointer array. -/
def csPtr (idx : List Nat) : Nat → Nat
  | 0 => 0
  | i + 1 => countRun idx (csPtr idx i) i + csPtr idx i

/-- `square_dense_to_sparse_COO_format_converter`, matrix_routines.cpp:119-166. -/
def denseToCoo {V : Type} [DecidableEq V] [Zero V] (n : Nat) (m : Nat → V) : List (Entry V) :=
  (List.range n).flatMap fun i => (List.range n).flatMap fun j =>
    if m (i * n + j) ≠ 0 then [⟨i, j, m (i * n + j)⟩] else []

/-- Memory seen by `square_sparse_COO_to_dense_format_converter`: the caller's pointer variable (slot 0 of the `double**`
argument) and whether a write outside it happened. `ptr = none` is the null pointer. -/
structure DenseMem (V : Type) where
  ptr : Option (Nat → V)
  wroteOutside : Bool

/-- `mat_dense_array[i] = 0` with `mat_dense_array : double**`, matrix_routines.cpp:179: slot 0 is the caller's pointer,
every other slot lies outside it. -/
def zeroSlot {V : Type} (s : DenseMem V) (i : Nat) : DenseMem V :=
  if i = 0 then { s with ptr := none } else { s with wroteOutside := true }

/-- `square_sparse_COO_to_dense_format_converter`, matrix_routines.cpp:168-192: `none` = write through the null pointer.
`junk` is the uninitialised memory returned by `new`. -/
def cooToDense {V : Type} (n : Nat) (junk : Nat → V) (entries : List (Entry V)) : Option (DenseMem V) :=
  let s0 : DenseMem V := ⟨some junk, false⟩
  let s1 := (List.range n).foldl zeroSlot s0
  entries.foldlM (fun s e => match s.ptr with
    | none => none
    | some a => some { s with ptr := some (Function.update a (e.row * n + e.col) e.val) }) s1

end TicTac
