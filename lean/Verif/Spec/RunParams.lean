import Verif.Model.RunParams
/-!
Specification of the option language (README "Run parameters" and the `--help` text, set_run_parameters.cpp:282-542):
arguments are processed in order, `key=value` assigns, `<file>.txt` is expanded in place to the assignments on its
lines, and the last assignment to a key wins.
-/
namespace TicTac
namespace Spec

/-- A run parameter of any type. -/
inductive Key
  | int (k : IntKey) | dbl (k : DblKey) | bool (k : BoolKey) | str (k : StrKey)
deriving DecidableEq

/-- The documented name of each run parameter. -/
def Key.name : Key → Str
  | .int .two_J_3N_max => "two_J_3N_max".toList
  | .int .Np_WP => "Np_WP".toList
  | .int .Nq_WP => "Nq_WP".toList
  | .int .J_2N_max => "J_2N_max".toList
  | .int .Nphi => "Nphi".toList
  | .int .Nx => "Nx".toList
  | .dbl .chebyshev_t => "chebyshev_t".toList
  | .dbl .chebyshev_s => "chebyshev_s".toList
  | .int .Np_per_WP => "Np_per_WP".toList
  | .int .Nq_per_WP => "Nq_per_WP".toList
  | .int .P123_omp_num_threads => "P123_omp_num_threads".toList
  | .int .PSI_start => "PSI_start".toList
  | .int .PSI_end => "PSI_end".toList
  | .int .channel_idx => "channel_idx".toList
  | .bool .parallel_run => "parallel_run".toList
  | .bool .P123_recovery => "P123_recovery".toList
  | .bool .tensor_force => "tensor_force".toList
  | .bool .isospin_breaking_1S0 => "isospin_breaking_1S0".toList
  | .bool .midpoint_approx => "midpoint_approx".toList
  | .bool .calculate_and_store_P123 => "calculate_and_store_P123".toList
  | .bool .include_breakup_channels => "include_breakup_channels".toList
  | .bool .solve_faddeev => "solve_faddeev".toList
  | .bool .solve_dense => "solve_dense".toList
  | .bool .production_run => "production_run".toList
  | .bool .parameter_walk => "parameter_walk".toList
  | .str .potential_model => "potential_model".toList
  | .str .subfolder => "subfolder".toList
  | .str .p_grid_type => "p_grid_type".toList
  | .str .p_grid_filename => "p_grid_filename".toList
  | .str .q_grid_type => "q_grid_type".toList
  | .str .q_grid_filename => "q_grid_filename".toList
  | .str .parameter_file => "parameter_file".toList
  | .str .energy_input_file => "energy_input_file".toList
  | .str .output_folder => "output_folder".toList
  | .str .P123_folder => "P123_folder".toList

/-- The default of each run parameter, written as the user would write it on the command line.  The number of threads
has no fixed default (it is the number of hardware threads). -/
def Key.defaultText : Key → Str
  | .int .two_J_3N_max => "1".toList
  | .int .Np_WP => "50".toList
  | .int .Nq_WP => "50".toList
  | .int .J_2N_max => "3".toList
  | .int .Nphi => "48".toList
  | .int .Nx => "48".toList
  | .int .Np_per_WP => "8".toList
  | .int .Nq_per_WP => "8".toList
  | .int .P123_omp_num_threads => []
  | .int .PSI_start => "-1".toList
  | .int .PSI_end => "-1".toList
  | .int .channel_idx => "-1".toList
  | .dbl .chebyshev_t => "1".toList
  | .dbl .chebyshev_s => "100".toList
  | .bool .parallel_run => "false".toList
  | .bool .P123_recovery => "false".toList
  | .bool .tensor_force => "true".toList
  | .bool .isospin_breaking_1S0 => "true".toList
  | .bool .midpoint_approx => "false".toList
  | .bool .calculate_and_store_P123 => "true".toList
  | .bool .include_breakup_channels => "false".toList
  | .bool .solve_faddeev => "true".toList
  | .bool .solve_dense => "false".toList
  | .bool .production_run => "true".toList
  | .bool .parameter_walk => "false".toList
  | .str .potential_model => "LO_internal".toList
  | .str .subfolder => "Output".toList
  | .str .p_grid_type => "chebyshev".toList
  | .str .p_grid_filename => []
  | .str .q_grid_type => "chebyshev".toList
  | .str .q_grid_filename => []
  | .str .parameter_file => "none".toList
  | .str .energy_input_file => "lab_energies.txt".toList
  | .str .output_folder => "Output".toList
  | .str .P123_folder => "Output".toList

/-- The decimal text of an integer, e.g. `-12` (`Nat.toDigits` is the standard library's digit printer). -/
def decimalText (n : Int) : Str :=
  if n < 0 then '-' :: Nat.toDigits 10 n.natAbs else Nat.toDigits 10 n.natAbs

/-- `key=value`: the key is the text before the first `=`, the value everything after it. -/
def assignment (s : Str) : Option (Str × Str) :=
  if '=' ∈ s then some (s.takeWhile (· ≠ '='), (s.dropWhile (· ≠ '=')).tail) else none

/-- A line of an input file: assignments with blank value are ignored, white space in the value is dropped. -/
def lineAssignment (line : Str) : Option (Str × Str) :=
  (assignment line).bind fun kv =>
    if kv.2.all (· == ' ') then none else some (kv.1, kv.2.filter fun c => !isSpaceC c)

/-- The assignments one command-line argument stands for, in order. -/
def argAssignments (files : Str → List Str) (arg : Str) : List (Str × Str) :=
  if arg = "-h".toList ∨ arg = "--help".toList then []
  else if ".txt".toList <:+ arg then (files arg).filterMap lineAssignment
  else ((assignment arg).filter fun kv => kv.2 ≠ []).toList

/-- All assignments of a command line, input files expanded in place. -/
def assignments (files : Str → List Str) (args : List Str) : List (Str × Str) :=
  args.flatMap (argAssignments files)

/-- The last value assigned to a key. -/
def lastValue (key : Str) (l : List (Str × Str)) : Option Str :=
  ((l.filter fun kv => kv.1 = key).getLast?).map (·.2)

/-- `v` is a well-formed value for the key called `key` (any value is fine for an unknown key, which is ignored). -/
def WellFormed {D : Type} (stod : Str → Option D) (key v : Str) : Prop :=
  (∀ k : IntKey, key = (Key.int k).name → (stoi v).isSome) ∧
  (∀ k : DblKey, key = (Key.dbl k).name → (stod v).isSome) ∧
  (∀ k : BoolKey, key = (Key.bool k).name → v = "true".toList ∨ v = "false".toList)

end Spec
end TicTac
