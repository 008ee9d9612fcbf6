import Verif.Spec.RunParams
import Verif.Spec.Format
/-! Reading `run_parameters.txt`: one line `label:   value` per run parameter, the value beginning in column 34. -/
noncomputable section
namespace TicTac.Spec

/-- The name under which a run parameter appears in the record; `none`: it does not appear. -/
def Key.label : Key → Option Str
  | .int .two_J_3N_max => some "two_J_3N_max".toList
  | .int .Np_WP => some "Np_WP".toList
  | .int .Nq_WP => some "Nq_WP".toList
  | .int .J_2N_max => some "J_2N_max".toList
  | .int .Nphi => some "Nphi".toList
  | .int .Nx => some "Nx".toList
  | .int .Np_per_WP => some "Np_per_WP".toList
  | .int .Nq_per_WP => some "Nq_per_WP".toList
  | .int .P123_omp_num_threads => some "P123 omp number of threads".toList
  | .int .PSI_start => some "Parameter set index (PSI) start".toList
  | .int .PSI_end => some "Parameter set index (PSI) end".toList
  | .int .channel_idx => some "Channel index".toList
  | .dbl .chebyshev_t => some "chebyshev sparseness".toList
  | .dbl .chebyshev_s => some "chebyshev scale".toList
  | .bool .parallel_run => some "Parallel run".toList
  | .bool .P123_recovery => some "P123-recovery mode on".toList
  | .bool .tensor_force => some "Tensor-force on".toList
  | .bool .isospin_breaking_1S0 => some "Isospin-breaking in 1S0".toList
  | .bool .midpoint_approx => some "Mid-point approximation".toList
  | .bool .calculate_and_store_P123 => some "Calculate P123 and store".toList
  | .bool .include_breakup_channels => some "Calculate breakup amplitudes".toList
  | .bool .solve_faddeev => some "Solve Faddeev equation".toList
  | .bool .solve_dense => some "Solve Faddeev with LAPACK".toList
  | .bool .production_run => some "Production run".toList
  | .bool .parameter_walk => some "Parameter walk".toList
  | .str .potential_model => some "Potential model".toList
  | .str .p_grid_type => some "p-momentum grid type".toList
  | .str .p_grid_filename => some "p-momentum grid input file".toList
  | .str .q_grid_type => some "q-momentum grid type".toList
  | .str .q_grid_filename => some "q-momentum grid input file".toList
  | .str .parameter_file => some "Parameter input file".toList
  | .str .energy_input_file => some "Energy input file".toList
  | .str .P123_folder => some "P123-matrix read/write folder".toList
  | .str .subfolder => none
  | .str .output_folder => none

/-- The lines of a text, as `getline` yields them: cut at every end of line, nothing after the last one. -/
def textLines (s : Str) : List Str :=
  if (s.splitOn '\n').getLast? = some [] then (s.splitOn '\n').dropLast else s.splitOn '\n'

/-- The value recorded under a label: of the first line that begins with the label and a colon, what follows column 33. -/
def recordedUnder (label s : Str) : Option Str :=
  ((textLines s).find? fun l => (label ++ [':']).isPrefixOf l).map (·.drop 33)

/-- The value recorded for a run parameter. -/
def recorded (k : Key) (s : Str) : Option Str := k.label.bind fun l => recordedUnder l s

/-- The text `v` gives the value the parameter has in `p`: integers, flags and strings exactly, doubles within 0.0005. -/
def Tells (p : RunParams Dbl) : Key → Str → Prop
  | .int k, v => stoi v = some (p.int k)
  | .bool k, v => (v = "true".toList ∧ p.bool k = true) ∨ (v = "false".toList ∧ p.bool k = false)
  | .str k, v => v = p.str k
  | .dbl k, v => match p.dbl k with
    | .fin neg m e => ∃ d, readFixed v = some d ∧ |d - dblValue neg m e| ≤ 0.0005
    | .inf neg => v = if neg then "-inf".toList else "inf".toList
    | .nan neg => v = if neg then "-nan".toList else "nan".toList

/-- The parameters the record must contain: all but the two folders, and the channel index only if one channel is treated. -/
def IsRecorded (p : RunParams Dbl) (k : Key) : Prop :=
  k ≠ .str .subfolder ∧ k ≠ .str .output_folder ∧ (k = .int .channel_idx → p.bool .parallel_run = true)

/-- A value of type `int`. -/
def IsInt32 (n : Int) : Prop := -2147483648 ≤ n ∧ n ≤ 2147483647

/-- All run parameters. -/
def Key.all : List Key :=
  [.int .two_J_3N_max, .int .Np_WP, .int .Nq_WP, .int .J_2N_max, .int .Nphi, .int .Nx, .int .Np_per_WP, .int .Nq_per_WP,
   .int .P123_omp_num_threads, .int .PSI_start, .int .PSI_end, .int .channel_idx, .dbl .chebyshev_t, .dbl .chebyshev_s,
   .bool .parallel_run, .bool .P123_recovery, .bool .tensor_force, .bool .isospin_breaking_1S0, .bool .midpoint_approx,
   .bool .calculate_and_store_P123, .bool .include_breakup_channels, .bool .solve_faddeev, .bool .solve_dense, .bool .production_run,
   .bool .parameter_walk, .str .potential_model, .str .p_grid_type, .str .p_grid_filename, .str .q_grid_type, .str .q_grid_filename,
   .str .parameter_file, .str .energy_input_file, .str .P123_folder, .str .subfolder, .str .output_folder]

/-- The input file a user makes from a record: `key=value` for every recorded parameter. -/
def asInputFile (s : Str) : List Str :=
  Key.all.filterMap fun k => (recorded k s).map fun v => k.name ++ '=' :: v

end TicTac.Spec
end
