import Verif.Model.Format
import Verif.Spec.RunParams
/-! The record of a calculation: `run_parameters.txt`, written before the calculation starts.
CPP/set_run_parameters.cpp:7-74 (`type_to_string`, `create_input_printout_string`), 685-691; CPP/disk_io_routines.cpp:16-31 (`open_file`), 216-229
(`store_run_parameters`).  The conversion of a double done by `operator<<` enters as the contract `FixedPrints`; the copy printed on the screen is not modelled. -/
noncomputable section
namespace TicTac
open Spec (Key)

/-- `[-]ddd.ddd` -/
def plainFixed (prec : Nat) (neg : Bool) (N : Nat) : Str :=
  let d := padDigits (prec + 1) N
  (if neg then ['-'] else []) ++ d.take (d.length - prec) ++ ['.'] ++ d.drop (d.length - prec)

/-- Contract of `out << std::fixed << x` with precision `prec` (libstdc++): nearest decimal with `prec` digits after the point (any choice in a tie);
`to_string_with_precision`, set_run_parameters.cpp:7-13. -/
def FixedPrints (prec : Nat) : Dbl → Str → Prop
  | .fin neg m e, s => ∃ N : Nat, FixedRound prec (m * (2 : ℝ) ^ e) N ∧ s = plainFixed prec neg N
  | .inf neg, s => s = (if neg then ['-'] else []) ++ "inf".toList
  | .nan neg, s => s = (if neg then ['-'] else []) ++ "nan".toList

/-- `std::to_string(int)`: digits of the absolute value with a minus sign if negative. -/
def intText (n : Int) : Str := (if n < 0 then ['-'] else []) ++ Nat.toDigits 10 n.natAbs

/-- `type_to_string` of a member, set_run_parameters.cpp:15-33. -/
def MemberText (p : RunParams Dbl) : Key → Str → Prop
  | .bool k, s => s = if p.bool k = true then "true".toList else "false".toList
  | .int k, s => s = intText (p.int k)
  | .dbl k, s => FixedPrints 3 (p.dbl k) s
  | .str k, s => s = p.str k

/-- The lines of the record: text in front of the value, and member printed; set_run_parameters.cpp:38-73. -/
def recordItems (parallel : Bool) : List (Str × Key) :=
  [("two_J_3N_max:                    ".toList, .int .two_J_3N_max),
   ("Np_WP:                           ".toList, .int .Np_WP),
   ("Nq_WP:                           ".toList, .int .Nq_WP),
   ("J_2N_max:                        ".toList, .int .J_2N_max),
   ("Nphi:                            ".toList, .int .Nphi),
   ("Nx:                              ".toList, .int .Nx),
   ("chebyshev sparseness:            ".toList, .dbl .chebyshev_t),
   ("chebyshev scale:                 ".toList, .dbl .chebyshev_s),
   ("Np_per_WP:                       ".toList, .int .Np_per_WP),
   ("Nq_per_WP:                       ".toList, .int .Nq_per_WP),
   ("P123-recovery mode on:           ".toList, .bool .P123_recovery),
   ("P123 omp number of threads:      ".toList, .int .P123_omp_num_threads),
   ("Tensor-force on:                 ".toList, .bool .tensor_force),
   ("Isospin-breaking in 1S0:         ".toList, .bool .isospin_breaking_1S0),
   ("Mid-point approximation:         ".toList, .bool .midpoint_approx),
   ("Calculate P123 and store:        ".toList, .bool .calculate_and_store_P123),
   ("Calculate breakup amplitudes:    ".toList, .bool .include_breakup_channels),
   ("Solve Faddeev equation:          ".toList, .bool .solve_faddeev),
   ("Solve Faddeev with LAPACK:       ".toList, .bool .solve_dense),
   ("Production run:                  ".toList, .bool .production_run),
   ("Potential model:                 ".toList, .str .potential_model),
   ("p-momentum grid type:            ".toList, .str .p_grid_type),
   ("p-momentum grid input file:      ".toList, .str .p_grid_filename),
   ("q-momentum grid type:            ".toList, .str .q_grid_type),
   ("q-momentum grid input file:      ".toList, .str .q_grid_filename),
   ("Parameter walk:                  ".toList, .bool .parameter_walk),
   ("Parameter input file:            ".toList, .str .parameter_file),
   ("Parameter set index (PSI) start: ".toList, .int .PSI_start),
   ("Parameter set index (PSI) end:   ".toList, .int .PSI_end),
   ("Energy input file:               ".toList, .str .energy_input_file),
   ("P123-matrix read/write folder:   ".toList, .str .P123_folder),
   ("Parallel run:                    ".toList, .bool .parallel_run)] ++
  if parallel = true then [("Channel index:                   ".toList, .int .channel_idx)] else []

/-- Lines followed by the end-of-line character. -/
def linesText (ls : List Str) : Str := ls.flatMap fun l => l ++ ['\n']

/-- `create_input_printout_string`, set_run_parameters.cpp:35-74. -/
def RecordText (p : RunParams Dbl) (s : Str) : Prop :=
  ∃ vs : List Str, List.Forall₂ (fun it v => MemberText p it.2 v) (recordItems (p.bool .parallel_run)) vs ∧
    s = linesText ("Running program for:".toList :: List.zipWith (fun it v => it.1 ++ v) (recordItems (p.bool .parallel_run)) vs)

/-- `output_folder + "/" + "run_parameters.txt"`, disk_io_routines.cpp:218. -/
def recordPath (p : RunParams Dbl) : Str := p.str .output_folder ++ "/".toList ++ "run_parameters.txt".toList

/-- `set_run_parameters` with its effect on the text files: set_run_parameters.cpp:617-691.  `canWrite` tells which files can be opened for writing;
opening truncates (disk_io_routines.cpp:16-31), and a file that cannot be opened ends the program.  `r` is the way the function ends. -/
def Starts (stod : Str → Option Dbl) (files : Str → List Str) (threads : Int) (one hundred : Dbl) (args : List Str) (canWrite : Str → Bool)
    (fs : Str → Option Str) (r : Except Stop (RunParams Dbl)) (fs' : Str → Option Str) : Prop :=
  match setRunParameters stod files threads one hundred args with
  | .error e => r = .error e ∧ fs' = fs
  | .ok p => if canWrite (recordPath p) = true then
      r = .ok p ∧ ∃ s, RecordText p s ∧ fs' = fun f => if f = recordPath p then some s else fs f
    else r = .error .raiseError ∧ fs' = fs

end TicTac
end
