/-!
Run parameters: command line and input-file parsing (CPP/set_run_parameters.cpp).

Strings are lists of characters.  Abnormal ends are explicit: `raise_error`, an uncaught C++ exception
(`std::out_of_range` from `substr`, `std::invalid_argument`/`std::out_of_range` from `stoi`/`stod`), and the help exit.
`std::stod` is a parameter (`none` = throws).  Printing is not modelled.
-/
namespace TicTac

abbrev Str := List Char

/-- How the program may stop before `set_run_parameters` returns. -/
inductive Stop
  | raiseError   -- raise_error, error_management.cpp:4-14
  | exception    -- uncaught C++ exception
  | helpExit     -- exit(-1), set_run_parameters.cpp:639
deriving DecidableEq, Repr

/-- Process exit status for each way of stopping: `std::exit(0)` in raise_error (error_management.cpp:13),
`std::terminate`/`abort` (SIGABRT, shell status 134) for an uncaught exception, `exit(-1)` for help
(set_run_parameters.cpp:639, seen as 255 by the shell). -/
def Stop.exitStatus : Stop → Nat
  | .raiseError => 0
  | .exception => 134
  | .helpExit => 255

/-- The `int` members of `run_params`, type_defs.h:87-123. -/
inductive IntKey
  | two_J_3N_max | Np_WP | Nq_WP | J_2N_max | Nphi | Nx | Np_per_WP | Nq_per_WP | P123_omp_num_threads | PSI_start | PSI_end | channel_idx
deriving DecidableEq, Repr

/-- The `double` members of `run_params`, type_defs.h:98-99. -/
inductive DblKey
  | chebyshev_t | chebyshev_s
deriving DecidableEq, Repr

/-- The `bool` members of `run_params`, type_defs.h:87-123. -/
inductive BoolKey
  | parallel_run | P123_recovery | tensor_force | isospin_breaking_1S0 | midpoint_approx | calculate_and_store_P123 | include_breakup_channels | solve_faddeev | solve_dense | production_run | parameter_walk
deriving DecidableEq, Repr

/-- The `std::string` members of `run_params`, type_defs.h:87-123. -/
inductive StrKey
  | potential_model | subfolder | p_grid_type | p_grid_filename | q_grid_type | q_grid_filename | parameter_file | energy_input_file | output_folder | P123_folder
deriving DecidableEq, Repr

/-- `run_params`, type_defs.h:87-123, as one assignment per member type. -/
structure RunParams (D : Type) where
  int : IntKey → Int
  dbl : DblKey → D
  bool : BoolKey → Bool
  str : StrKey → Str

namespace RunParams
variable {D : Type}
/-- Assignment to one `int` member. -/
def setInt (p : RunParams D) (k : IntKey) (v : Int) : RunParams D := { p with int := fun j => if j = k then v else p.int j }
/-- Assignment to one `double` member. -/
def setDbl (p : RunParams D) (k : DblKey) (v : D) : RunParams D := { p with dbl := fun j => if j = k then v else p.dbl j }
/-- Assignment to one `bool` member. -/
def setBool (p : RunParams D) (k : BoolKey) (v : Bool) : RunParams D := { p with bool := fun j => if j = k then v else p.bool j }
/-- Assignment to one `std::string` member. -/
def setStr (p : RunParams D) (k : StrKey) (v : Str) : RunParams D := { p with str := fun j => if j = k then v else p.str j }
end RunParams

/-- `set_default_values`, set_run_parameters.cpp:577-615; `threads` is `omp_get_max_threads()`. -/
def defaultInt (threads : Int) : IntKey → Int
  | .two_J_3N_max => 1
  | .Np_WP => 50
  | .Nq_WP => 50
  | .J_2N_max => 3
  | .Nphi => 48
  | .Nx => 48
  | .Np_per_WP => 8
  | .Nq_per_WP => 8
  | .P123_omp_num_threads => threads
  | .PSI_start => -1
  | .PSI_end => -1
  | .channel_idx => -1

/-- Default flags, set_run_parameters.cpp:577-615. -/
def defaultBool : BoolKey → Bool
  | .parallel_run => false
  | .P123_recovery => false
  | .tensor_force => true
  | .isospin_breaking_1S0 => true
  | .midpoint_approx => false
  | .calculate_and_store_P123 => true
  | .include_breakup_channels => false
  | .solve_faddeev => true
  | .solve_dense => false
  | .production_run => true
  | .parameter_walk => false

/-- Default strings, set_run_parameters.cpp:577-615. -/
def defaultStr : StrKey → Str
  | .potential_model => "LO_internal".toList
  | .subfolder => "Output".toList
  | .p_grid_type => "chebyshev".toList
  | .p_grid_filename => "".toList
  | .q_grid_type => "chebyshev".toList
  | .q_grid_filename => "".toList
  | .parameter_file => "none".toList
  | .energy_input_file => "lab_energies.txt".toList
  | .output_folder => "Output".toList
  | .P123_folder => "Output".toList

/-- Default doubles (1 and 100), set_run_parameters.cpp:586-587; the two values are given by `one`, `hundred`. -/
def defaultDbl {D : Type} (one hundred : D) : DblKey → D
  | .chebyshev_t => one
  | .chebyshev_s => hundred

/-- `set_default_values`, set_run_parameters.cpp:577-615. -/
def defaultParams {D : Type} (threads : Int) (one hundred : D) : RunParams D :=
  { int := defaultInt threads, dbl := defaultDbl one hundred, bool := defaultBool, str := defaultStr }

/-- C `isspace` in the default locale. -/
def isSpaceC (c : Char) : Bool :=
  c == ' ' || c == '\t' || c == '\n' || c == '\x0b' || c == '\x0c' || c == '\r'

/-- Digit test and value used by `strtol` in base 10. -/
def isDigitC (c : Char) : Bool := '0'.toNat ≤ c.toNat && c.toNat ≤ '9'.toNat

/-- Value of a run of decimal digits. -/
def digitsVal (s : Str) : Nat := s.foldl (fun n c => 10 * n + (c.toNat - '0'.toNat)) 0

/-- `std::stoi` (C++ standard: `strtol` base 10): skip white space, optional sign, longest run of digits, rest ignored;
no digits → `invalid_argument`; outside `int` → `out_of_range`.  Both exceptions are `none`. -/
def stoi (s : Str) : Option Int :=
  let s := s.dropWhile isSpaceC
  let neg := s.head? == some '-'
  let s := if s.head? == some '-' || s.head? == some '+' then s.tail else s
  let ds := s.takeWhile isDigitC
  if ds.isEmpty then none
  else
    let v : Int := if neg then -(digitsVal ds : Int) else digitsVal ds
    if -2147483648 ≤ v ∧ v ≤ 2147483647 then some v else none

/-- Result of `read_and_set_parameter`: the new parameters and `valid_option_found`. -/
abbrev SetResult (D : Type) := Except Stop (RunParams D × Bool)

section
variable {D : Type} (stod : Str → Option D)

/-- The `int` branches: `member = std::stoi(input)`. -/
def assignInt (p : RunParams D) (k : IntKey) (input : Str) : SetResult D :=
  match stoi input with
  | some v => .ok (p.setInt k v, true)
  | none => .error .exception

/-- The `double` branches: `member = std::stod(input)`. -/
def assignDbl (p : RunParams D) (k : DblKey) (input : Str) : SetResult D :=
  match stod input with
  | some v => .ok (p.setDbl k v, true)
  | none => .error .exception

/-- The `bool` branches, e.g. set_run_parameters.cpp:122-129. -/
def assignBool (p : RunParams D) (k : BoolKey) (input : Str) : SetResult D :=
  if input = "true".toList ∨ input = "false".toList then .ok (p.setBool k (input == "true".toList), true)
  else .error .raiseError

/-- The `std::string` branches. -/
def assignStr (p : RunParams D) (k : StrKey) (input : Str) : SetResult D := .ok (p.setStr k input, true)

/-- `read_and_set_parameter`, set_run_parameters.cpp:76-245, branch by branch in the order of the code. -/
def readAndSet (p : RunParams D) (option input : Str) : SetResult D :=
  if option = "two_J_3N_max".toList then assignInt p .two_J_3N_max input
  else if option = "Np_WP".toList then assignInt p .Np_WP input
  else if option = "Nq_WP".toList then assignInt p .Nq_WP input
  else if option = "J_2N_max".toList then assignInt p .J_2N_max input
  else if option = "Nphi".toList then assignInt p .Nphi input
  else if option = "Nx".toList then assignInt p .Nx input
  else if option = "chebyshev_t".toList then assignDbl stod p .chebyshev_t input
  else if option = "chebyshev_s".toList then assignDbl stod p .chebyshev_s input
  else if option = "Np_per_WP".toList then assignInt p .Np_per_WP input
  else if option = "Nq_per_WP".toList then assignInt p .Nq_per_WP input
  else if option = "P123_omp_num_threads".toList then assignInt p .P123_omp_num_threads input
  else if option = "PSI_start".toList then assignInt p .PSI_start input
  else if option = "PSI_end".toList then assignInt p .PSI_end input
  else if option = "channel_idx".toList then assignInt p .channel_idx input
  else if option = "parallel_run".toList then assignBool p .parallel_run input
  else if option = "P123_recovery".toList then assignBool p .P123_recovery input
  else if option = "tensor_force".toList then assignBool p .tensor_force input
  else if option = "isospin_breaking_1S0".toList then assignBool p .isospin_breaking_1S0 input
  else if option = "midpoint_approx".toList then assignBool p .midpoint_approx input
  else if option = "calculate_and_store_P123".toList then assignBool p .calculate_and_store_P123 input
  else if option = "include_breakup_channels".toList then assignBool p .include_breakup_channels input
  else if option = "solve_faddeev".toList then assignBool p .solve_faddeev input
  else if option = "solve_dense".toList then assignBool p .solve_dense input
  else if option = "production_run".toList then assignBool p .production_run input
  else if option = "parameter_walk".toList then assignBool p .parameter_walk input
  else if option = "potential_model".toList then assignStr p .potential_model input
  else if option = "subfolder".toList then assignStr p .subfolder input
  else if option = "p_grid_type".toList then assignStr p .p_grid_type input
  else if option = "p_grid_filename".toList then assignStr p .p_grid_filename input
  else if option = "q_grid_type".toList then assignStr p .q_grid_type input
  else if option = "q_grid_filename".toList then assignStr p .q_grid_filename input
  else if option = "parameter_file".toList then assignStr p .parameter_file input
  else if option = "energy_input_file".toList then assignStr p .energy_input_file input
  else if option = "output_folder".toList then assignStr p .output_folder input
  else if option = "P123_folder".toList then assignStr p .P123_folder input
  else .ok (p, false)

/-- `line.find("=")` with the two `substr` calls: text before and after the first `=`
(set_run_parameters.cpp:262-265 and 646-649). -/
def splitEq : Str → Option (Str × Str)
  | [] => none
  | c :: cs => if c = '=' then some ([], cs) else (splitEq cs).map fun kv => (c :: kv.1, kv.2)

/-- One line of an input file, set_run_parameters.cpp:258-279. -/
def fileLine (p : RunParams D) (line : Str) : Except Stop (RunParams D) :=
  match splitEq line with
  | none => .ok p
  | some (option, input) =>
    if input.all (· == ' ') then .ok p
    else (readAndSet stod p option (input.filter fun c => !isSpaceC c)).map (·.1)

/-- `read_input_list_and_set_parameters` / `use_input_list`, set_run_parameters.cpp:247-280 and 552-561.
`files name` is the list of lines `getline` yields (empty for a file that cannot be opened). -/
def useInputList (files : Str → List Str) (p : RunParams D) (name : Str) : Except Stop (RunParams D) :=
  (files name).foldlM (fileLine stod) p

/-- One command-line argument, set_run_parameters.cpp:628-667; `argc` is the full count including the program name.
`arg.substr(arg_size-4)` with `arg_size < 4` wraps around to a huge position and throws `std::out_of_range`. -/
def handleArg (files : Str → List Str) (argc : Nat) (p : RunParams D) (arg : Str) : Except Stop (RunParams D) :=
  if arg = "-h".toList ∨ arg = "--help".toList then
    if argc = 2 then .error .helpExit else .ok p
  else if arg.length < 4 then .error .exception
  else if arg.drop (arg.length - 4) = ".txt".toList then useInputList stod files p arg
  else
    match splitEq arg with
    | none => .ok p
    | some (option, input) =>
      if input = [] then .ok p
      else (readAndSet stod p option input).map (·.1)

/-- The argument loop, set_run_parameters.cpp:621-668 (`argc == 1`: no arguments, defaults). -/
def readArgs (files : Str → List Str) (p : RunParams D) (args : List Str) : Except Stop (RunParams D) :=
  args.foldlM (handleArg stod files (args.length + 1)) p

/-- The compatibility checks, set_run_parameters.cpp:670-683. -/
def finalChecks (p : RunParams D) : Except Stop (RunParams D) :=
  if p.bool .parallel_run = true ∧ p.int .channel_idx = -1 then .error .raiseError
  else
    let p := if p.int .P123_omp_num_threads > p.int .Nq_WP then p.setInt .P123_omp_num_threads (p.int .Nq_WP) else p
    if Int.tmod (p.int .two_J_3N_max) 2 = 0 ∨ p.int .two_J_3N_max ≤ 0 then .error .raiseError
    else .ok p

/-- `set_run_parameters`, set_run_parameters.cpp:617-691 without the printing and storing. -/
def setRunParameters (files : Str → List Str) (threads : Int) (one hundred : D) (args : List Str) :
    Except Stop (RunParams D) := do
  let p ← readArgs stod files (defaultParams threads one hundred) args
  finalChecks p
end

end TicTac
